import Mathlib.Analysis.SpecialFunctions.Pow.Real
import Mathlib.Analysis.SpecialFunctions.Log.Basic
import Mathlib.Algebra.BigOperators.Field

/-!
# Transport in ionised gases (claim C103)

Model of src/transport/IonGasTransport.cpp.  Mole fractions are those after update_C (at least Tiny), species
values at the current temperature (viscosities, conductivities, binary diffusion at unit pressure) are arguments.
The polynomial fits are not modelled; a division by zero is `none` or excluded by hypothesis.
-/

namespace Verif.IonGas

open Finset

/-! ## Classification -/

/-- Stored lists: charges, ions, neutrals, electron -/
structure Tab where
  charge : List ℝ
  ion : List ℕ
  neutral : List ℕ
  electron : Option ℕ

/-- Species of the phase: charge and whether the weight is that of the electron -/
abbrev Sp := ℝ × Bool

/-- The search of IonGasTransport.cpp:31-40 from index `k` on: last electron and number of electrons -/
noncomputable def findE : List Sp → ℕ → Option ℕ → ℕ → Option ℕ × ℕ
  | [], _, e, c => (e, c)
  | (z, w) :: r, k, e, c => if w = true ∧ z = -1 then findE r (k + 1) (some k) (c + 1) else findE r (k + 1) e c

/-- The loop of IonGasTransport.cpp:46-55 over the first `m` species -/
noncomputable def classify (charge : List ℝ) (electron : Option ℕ) : ℕ → List ℕ × List ℕ → List ℕ × List ℕ
  | 0, p => p
  | m + 1, p =>
    let q := classify charge electron m p
    if charge.getD m 0 ≠ 0 then (if some m ≠ electron then (q.1 ++ [m], q.2) else q)
    else (q.1, q.2 ++ [m])

/-- The first part of IonGasTransport::init (IonGasTransport.cpp:17-55): the lists are extended, not replaced. -/
noncomputable def init (sp : List Sp) (t : Tab) : Option Tab :=
  let ch := t.charge ++ sp.map Prod.fst
  let f := findE sp 0 t.electron 0
  if 1 < f.2 then none
  else
    let q := classify ch f.1 sp.length (t.ion, t.neutral)
    some { charge := ch, ion := q.1, neutral := q.2, electron := f.1 }

/-- A new object -/
def new : Tab := ⟨[], [], [], none⟩

/-! ## Mixture rules -/

variable (X : ℕ → ℝ)

/-- viscosity (IonGasTransport.cpp:95-117); `phi` is m_phi, `mu` m_visc, `N` the number of species -/
noncomputable def viscosity (N : ℕ) (neutral : List ℕ) (mu : ℕ → ℝ) (phi : ℕ → ℕ → ℝ) : ℝ :=
  (neutral.map fun k => X k * mu k / ∑ j ∈ range N, phi k j * X j).sum

/-- thermalConductivity (IonGasTransport.cpp:119-136) -/
noncomputable def conductivity (neutral : List ℕ) (la : ℕ → ℝ) : ℝ :=
  0.5 * ((neutral.map fun k => X k * la k).sum + 1 / (neutral.map fun k => X k / la k).sum)

/-- ElectronCharge (ct_defs.h) -/
noncomputable def qe : ℝ := 1.602176634 / 10 ^ 19

/-- Mobilities (IonGasTransport.cpp:376-401): written for the electron, then for the ions; `D` is m_bdiff -/
noncomputable def mobility (t : Tab) (D : ℕ → ℕ → ℝ) (kbt p : ℝ) (k : ℕ) : ℝ :=
  if k ∈ t.ion then 1 / (t.neutral.map fun j => X j / (D k j * qe / kbt)).sum / p
  else if some k = t.electron then 0.4 else 0

/-- getMixDiffCoeffs (IonGasTransport.cpp:341-374) for more than one species; `M` molecular weights -/
noncomputable def mixDiff (t : Tab) (D : ℕ → ℕ → ℝ) (M : ℕ → ℝ) (mmw kbt p : ℝ) (k : ℕ) : ℝ :=
  if some k = t.electron then 0.4 * kbt / qe
  else
    let sum2 := ((t.neutral.filter fun j => j ≠ k).map fun j => X j / D j k).sum
    if sum2 ≤ 0 then D k k / p else (mmw - X k * M k) / (p * mmw * sum2)

/-- electricalConductivity (IonGasTransport.cpp:138-153) for mobilities `mob` -/
noncomputable def elecCond (t : Tab) (mob : ℕ → ℝ) (kbt p : ℝ) : ℝ :=
  (t.ion.map fun k => X k * p / kbt * |t.charge.getD k 0| * qe * mob k).sum +
    match t.electron with
    | some e => X e * p / kbt * qe * mob e
    | none => 0

/-! ## Collision parameters -/

/-- Parameters of an ion and a neutral (IonGasTransport.cpp:241-307): polarisabilities `ai`, `aj`, charge `z`,
stored dispersion coefficients and quadrupole polarisability, `epi` is 8 π ε0 -/
structure Pair where
  ai : ℝ
  aj : ℝ
  z : ℝ
  di : ℝ
  dj : ℝ
  qj : ℝ

/-- IonGasTransport.cpp:252-253 -/
noncomputable def xi (P : Pair) : ℝ :=
  P.ai * 10 ^ 30 / (P.z * P.z * (1 + (2 * (P.ai / P.aj)) ^ (2 / 3 : ℝ)) * Real.sqrt (P.aj * 10 ^ 30))

/-- IonGasTransport.cpp:256-259 -/
noncomputable def diam (P : Pair) : ℝ :=
  1.767 * (P.ai ^ (1 / 3 : ℝ) + P.aj ^ (1 / 3 : ℝ)) /
    ((P.ai * 10 ^ 30) * (P.aj * 10 ^ 30) * (1 + 1 / xi P)) ^ (0.095 : ℝ)

/-- IonGasTransport.cpp:263-267 -/
noncomputable def eps (epi : ℝ) (P : Pair) : ℝ :=
  1.44 * qe * qe * P.z * P.z * P.aj * (1 + xi P) / (epi * diam P ^ 4)

/-- Dispersion coefficient of the neutral (IonGasTransport.cpp:275-277) -/
noncomputable def dispJ (P : Pair) : ℝ :=
  if P.dj = 0 then Real.exp (1.8846 * Real.log (P.aj * 10 ^ 30) - 0.4737) * (1 / 10 ^ 50) else P.dj

/-- Quadrupole polarisability of the neutral (IonGasTransport.cpp:278-280) -/
noncomputable def quadJ (P : Pair) : ℝ := if P.qj = 0 then 2 * dispJ P else P.qj

/-- Dispersion coefficient of the ion (IonGasTransport.cpp:282-288) -/
noncomputable def dispI (P : Pair) : ℝ :=
  if P.di = 0 then
    (if 0 < P.z then Real.exp (1.8853 * Real.log (P.ai * 10 ^ 30) + 0.2682) * (1 / 10 ^ 50)
     else Real.exp (3.2246 * Real.log (P.ai * 10 ^ 30) - 3.2397) * (1 / 10 ^ 50))
  else P.di

/-- IonGasTransport.cpp:294-298 -/
noncomputable def gam (P : Pair) : ℝ :=
  let r := P.ai / P.aj
  let C6 := 2 * dispI P * dispJ P / (1 / r * dispI P + r * dispJ P)
  (2 / P.z ^ 2 * C6 + quadJ P) / (P.aj * diam P * diam P)

/-- omega11_n64 (IonGasTransport.cpp:309-339) -/
noncomputable def omega (t g : ℝ) : Option ℝ :=
  let L := Real.log t
  if t < 0.01 then none
  else if t ≤ 0.04 then
    some (2.97 - 12 * g - 0.887 * L + 3.86 * g * g - 6.45 * g * L - 0.275 * L * L + 1.20 * g * g * L
      - 1.24 * g * L * L - 0.164 * L ^ 3)
  else if t ≤ 1000 then
    some (1.22 - 0.0343 * g + (-0.769 + 0.232 * g) * L + (0.306 - 0.165 * g) * L * L
      + (-0.0465 + 0.0388 * g) * L ^ 3 + (0.000614 - 0.00285 * g) * L ^ 4 + 0.000238 * L ^ 5)
  else none

/-- Pairs refitted by fitDiffCoeffs (IonGasTransport.cpp:179-193) -/
noncomputable def refit (alpha charge : ℕ → ℝ) (electron : Option ℕ) (k j : ℕ) : Bool :=
  if alpha k = 0 ∨ alpha j = 0 ∨ some k = electron ∨ some j = electron then false
  else if charge k = 0 then (if charge j = 0 then false else true)
  else (if charge j ≠ 0 then false else true)

end Verif.IonGas
