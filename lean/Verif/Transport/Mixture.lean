import Mathlib.Analysis.SpecialFunctions.Pow.Real
import Mathlib.Analysis.SpecialFunctions.Log.Basic
import Mathlib.Algebra.BigOperators.Group.Finset.Basic

/-!
# C69: mixture-averaged transport

Sources: src/transport/GasTransport.cpp (G), src/transport/MixTransport.cpp (M), include/cantera/base/utilities.h.

The fits of species properties are inputs: tables of polynomial coefficients in `log T`. What the functions return when all
cached data are recomputed is modelled here; the caches are the subject of C71. Mole fractions of the phase are an input,
its mean molecular weight and mass fractions are computed from them (C13).
-/

namespace Verif.Transport.Mix

open Finset

/-- State of the phase, and the fits. `ck` is `m_mode == CK_Mode`. -/
structure Gas where
  n : ℕ
  mw : ℕ → ℝ
  T : ℝ
  p : ℝ
  x : ℕ → ℝ
  rhon : ℝ
  ck : Bool
  visccoeffs : ℕ → ℕ → ℝ
  condcoeffs : ℕ → ℕ → ℝ
  diffcoeffs : ℕ → ℕ → ℝ

/-- `Tiny` (ct_defs.h 173). -/
noncomputable def tiny : ℝ := 1e-20

namespace Gas

variable (g : Gas)

/-- `meanMolecularWeight()` of the phase. -/
noncomputable def mmw : ℝ := ∑ k ∈ range g.n, g.x k * g.mw k

/-- `massFractions()` of the phase. -/
noncomputable def y (k : ℕ) : ℝ := g.x k * g.mw k / g.mmw

/-- `m_molefracs` (M 102-107). -/
noncomputable def xc (k : ℕ) : ℝ := max tiny (g.x k)

/-- `m_polytempvec` (G 47-51). -/
noncomputable def tv (i : ℕ) : ℝ := Real.log g.T ^ i

/-- `dot4` (utilities.h 40-43). -/
noncomputable def dot4 (c : ℕ → ℝ) : ℝ := g.tv 0 * c 0 + g.tv 1 * c 1 + g.tv 2 * c 2 + g.tv 3 * c 3

/-- `dot5` (utilities.h 55-59). -/
noncomputable def dot5 (c : ℕ → ℝ) : ℝ := g.tv 0 * c 0 + g.tv 1 * c 1 + g.tv 2 * c 2 + g.tv 3 * c 3 + g.tv 4 * c 4

/-- `m_sqvisc[k]` (G 105-121); `m_t14` is `sqrt(sqrt(T))` (G 44). -/
noncomputable def sqvisc (k : ℕ) : ℝ :=
  if g.ck then Real.sqrt (Real.exp (g.dot4 (g.visccoeffs k)))
  else Real.sqrt (Real.sqrt g.T) * g.dot5 (g.visccoeffs k)

/-- `m_visc[k]` (G 105-121). -/
noncomputable def visc (k : ℕ) : ℝ :=
  if g.ck then Real.exp (g.dot4 (g.visccoeffs k)) else g.sqvisc k * g.sqvisc k

/-- `m_cond[k]` (M 110-123). -/
noncomputable def cond (k : ℕ) : ℝ :=
  if g.ck then Real.exp (g.dot4 (g.condcoeffs k)) else Real.sqrt g.T * g.dot5 (g.condcoeffs k)

/-- The polynomial with number `ic` (G 131, 139). -/
noncomputable def evDiff (ic : ℕ) : ℝ :=
  if g.ck then Real.exp (g.dot4 (g.diffcoeffs ic)) else g.T * Real.sqrt g.T * g.dot5 (g.diffcoeffs ic)

/-- Body of the inner loop of `updateDiff_T` (G 138-143): the counter and the matrix. -/
noncomputable def diffStep (i : ℕ) (s : ℕ × (ℕ → ℕ → ℝ)) (j : ℕ) : ℕ × (ℕ → ℕ → ℝ) :=
  let m1 := fun a b => if a = i ∧ b = j then g.evDiff s.1 else s.2 a b
  let m2 := fun a b => if a = j ∧ b = i then m1 i j else m1 a b
  (s.1 + 1, m2)

/-- Inner loop: `j` from `i` to `n - 1`. -/
noncomputable def diffRow (s : ℕ × (ℕ → ℕ → ℝ)) (i : ℕ) : ℕ × (ℕ → ℕ → ℝ) :=
  (List.range' i (g.n - i)).foldl (g.diffStep i) s

/-- `m_bdiff` (G 123-147), binary diffusion coefficients times pressure. -/
noncomputable def bdiff : ℕ → ℕ → ℝ := ((List.range g.n).foldl g.diffRow (0, fun _ _ => 0)).2

/-- Number of the polynomial in `getBinDiffusivityPolynomial` and `setBinDiffusivityPolynomial` (G 769-784, 818-834). -/
def polyIndex (n i j : ℕ) : ℕ :=
  let mi := if j ≥ i then i else j
  let mj := if j ≥ i then j else i
  (List.range mi).foldl (fun ic ii => ic + (n - ii)) 0 + (mj - mi)

/-- `getBinaryDiffCoeffs` (G 149-165), entry `(i, j)`. -/
noncomputable def binary (i j : ℕ) : ℝ := 1 / g.p * g.bdiff i j

/-- `m_wratjk(j, k)` for `j ≤ k` (G 285). -/
noncomputable def wrat (j k : ℕ) : ℝ := Real.sqrt (g.mw j / g.mw k)

/-- `m_wratjk(k, j)` for `j ≤ k` (G 286). -/
noncomputable def wratq (j k : ℕ) : ℝ := Real.sqrt (g.wrat j k)

/-- `m_wratkj1(j, k)` (G 287). -/
noncomputable def wrat1 (j k : ℕ) : ℝ := Real.sqrt (1 + g.mw k / g.mw j)

/-- `m_phi(k, j)` for `j ≤ k` before the second assignment (G 97-98). -/
noncomputable def phiLow (k j : ℕ) : ℝ :=
  let factor1 := 1 + g.sqvisc k / g.sqvisc j * g.wratq j k
  factor1 * factor1 / (Real.sqrt 8 * g.wrat1 j k)

/-- `m_phi` (G 84-103). Each entry is written once, except the diagonal, where the second assignment (G 99) acts on the
result of the first. -/
noncomputable def phi (k j : ℕ) : ℝ :=
  if j < k then g.phiLow k j
  else g.phiLow j k / (g.visc j / g.visc k * (g.mw k / g.mw j))

/-- `viscosity` (G 60-82). -/
noncomputable def viscosity : ℝ :=
  ∑ k ∈ range g.n, g.xc k * g.visc k / ∑ j ∈ range g.n, g.phi k j * g.xc j

/-- `thermalConductivity` (M 32-49). -/
noncomputable def conductivity : ℝ :=
  0.5 * ((∑ k ∈ range g.n, g.xc k * g.cond k) + 1 / ∑ k ∈ range g.n, g.xc k / g.cond k)

/-- `sum2` (G 183-188). -/
noncomputable def sum2 (k : ℕ) : ℝ := ∑ j ∈ range g.n, if j ≠ k then g.xc j / g.bdiff j k else 0

/-- `getMixDiffCoeffs` (G 167-196). -/
noncomputable def mixDiff (k : ℕ) : ℝ :=
  if g.n = 1 then g.bdiff 0 0 / g.p
  else if g.sum2 k ≤ 0 then g.bdiff k k / g.p
  else (g.mmw - g.xc k * g.mw k) / (g.p * g.mmw * g.sum2 k)

/-- `getMixDiffCoeffsMole` (G 198-226). -/
noncomputable def mixDiffMole (k : ℕ) : ℝ :=
  if g.n = 1 then g.bdiff 0 0 / g.p
  else if g.sum2 k ≤ 0 then g.bdiff k k / g.p
  else (1 - g.xc k) / (g.p * g.sum2 k)

/-- `getMixDiffCoeffsMass` (G 228-259). A zero divisor in l. 255, for a pure species, gives infinity there and 0 in
the end; the value of the model is then another one. -/
noncomputable def mixDiffMass (k : ℕ) : ℝ :=
  if g.n = 1 then g.bdiff 0 0 / g.p
  else
    let sum1 := ∑ i ∈ range g.n, if i = k then 0 else g.xc i / g.bdiff k i
    let sum2 := ∑ i ∈ range g.n, if i = k then 0 else g.xc i * g.mw i / g.bdiff k i
    1 / (sum1 * g.p + sum2 * (g.p * g.xc k / (g.mmw - g.mw k * g.xc k)))

/-- The fluxes before correction in one direction with gradient `gx` (M 71). -/
noncomputable def flux0 (gx : ℕ → ℝ) (k : ℕ) : ℝ := -g.rhon * g.mw k * g.mixDiff k * gx k

/-- `getSpeciesFluxes` (M 58-81), one direction. -/
noncomputable def flux (gx : ℕ → ℝ) (k : ℕ) : ℝ :=
  g.flux0 gx k - g.y k * ∑ j ∈ range g.n, g.flux0 gx j

/-- `getMobilities` (M 23-30); `e`, `kB` are the constants. -/
noncomputable def mobility (e kB : ℝ) (k : ℕ) : ℝ := e / (kB * g.T) * g.mixDiff k

end Gas

end Verif.Transport.Mix
