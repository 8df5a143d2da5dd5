import Verif.OneDim.Flow
import Mathlib.Analysis.SpecialFunctions.Log.Basic

/-!
# Flow domain with ions and electric field (src/oneD/IonFlow.cpp, include/cantera/oneD/IonFlow.h)

Used for C104.  Extends `OneDim/Flow.lean`, with the same simplifications; the domain has at least two points (with
one point IonFlow.cpp:214 reads before the beginning of the solution).  The polynomials fitted by
`setElectronTransport` (294-309) are given by their coefficients.
-/

namespace Verif.OneDim.IonFlow

open Finset Verif.OneDim.Flow

/-- Members of `IonFlow` (IonFlow.h:120-152) beside those of the flow. -/
structure Ion where
  c : Cfg
  /-- `m_speciesCharge` -/
  q : ℕ → ℝ
  /-- `m_kElectron`: the index of the species named `E`, or `npos` -/
  kE : Option ℕ
  /-- `m_stage` -/
  stage : ℕ
  /-- column `j` of `m_mobility` -/
  mob : ℕ → ℕ → ℝ
  /-- `m_do_electric_field` -/
  doF : ℕ → Bool
  /-- `m_active` of the refiner -/
  active : ℕ → Bool
  /-- `needJacUpdate` has been called -/
  jacOld : Bool

/-- `Avogadro`, `ElectronCharge`, `epsilon_0` (ct_defs.h:81, 90, 137) are parameters. -/
structure Consts where
  NA : ℝ
  e : ℝ
  eps0 : ℝ

/-! ## Constructor -/

/-- `npos` (ct_defs.h:180) -/
def npos : ℕ := 2 ^ 64 - 1

/-- `Domain1D::setBounds` (Domain1D.h:209-212); the argument is a sum of type `size_t`. -/
def setBounds (n : ℕ) (lo hi : ℝ) (B : ℕ → ℝ × ℝ) : ℕ → ℝ × ℝ :=
  fun m => if m = n % 2 ^ 64 then (lo, hi) else B m

/-- The bounds set by `Flow1D` (Flow1D.cpp:60-69). -/
noncomputable def flowBounds (tmax : ℝ) (n : ℕ) : ℝ × ℝ :=
  if n = oT then (200, 2 * tmax)
  else if n < oY then (-10 ^ 20, 10 ^ 20)
  else (-(1 / 10 ^ 7), 10 ^ 5)

/-- `m_kCharge` (IonFlow.cpp:27-33) -/
noncomputable def kCharge (nsp : ℕ) (q : ℕ → ℝ) : List ℕ := (List.range nsp).filter (fun k => q k ≠ 0)

/-- The bounds after the constructor (IonFlow.cpp:40-49). -/
noncomputable def bounds (nsp : ℕ) (q : ℕ → ℝ) (kE : Option ℕ) (tmax : ℝ) : ℕ → ℝ × ℝ :=
  setBounds (oY + kE.getD npos) (-(1 / 10 ^ 18)) 1
    ((kCharge nsp q).foldl (fun B k => setBounds (oY + k) (-(1 / 10 ^ 14)) 1 B)
      (setBounds oE (-10 ^ 20) (10 ^ 20) (flowBounds tmax)))

/-- The refiner after the constructor (IonFlow.cpp:51). -/
def initActive : ℕ → Bool := fun n => n ≠ oE

/-! ## Stage, field flags -/

/-- `setSolvingStage` (IonFlow.cpp:188-198) -/
def setStage (n : ℕ) (s : Ion) : Outcome Ion := if n = 1 ∨ n = 2 then .ok { s with stage := n } else .throw

/-- `solveElectricField` and `fixElectricField` (IonFlow.cpp:244-292): `v` is the new flag, `none` stands for all
points; the index is inside the domain. -/
def setField (v : Bool) (j : Option ℕ) (s : Ion) : Ion :=
  { s with
    doF := fun i => match j with
      | none => if i < s.c.pts then v else s.doF i
      | some k => if i = k then v else s.doF i
    active := fun n => if n = oU ∨ n = oV ∨ n = oT ∨ n = oE then v else s.active n
    jacOld := s.jacOld || (match j with
      | none => (List.range s.c.pts).any (fun i => s.doF i != v)
      | some k => s.doF k != v) }

/-- `resize` (IonFlow.cpp:84-88): new points have no field. -/
def resize (n : ℕ) (s : Ion) : Ion :=
  { s with
    c := { s.c with pts := n }
    doF := fun i => if i < min s.c.pts n then s.doF i else false }

/-- The part of `_finalize` on the field (IonFlow.cpp:315-318). -/
def finalize (s : Ion) : Ion := if s.doF 0 then setField true none s else s

/-- `componentActive` (IonFlow.cpp:90-97, Flow1D.cpp:847-861) -/
def componentActive (s : Ion) (n : ℕ) : Bool :=
  if n = oE then true
  else if n = oV ∨ n = oL then s.c.lam
  else if n = oUo then s.c.two
  else true

/-! ## Transport -/

/-- `poly5` (utilities.h:141-144) -/
def poly5 (x : ℝ) (a : ℕ → ℝ) : ℝ := ((((a 5 * x + a 4) * x + a 3) * x + a 2) * x + a 1) * x + a 0

/-- The element of `m_mobility` and of `m_diff` written for imported electron data at point `j`
(IonFlow.cpp:106-111). -/
def importIdx (nsp : ℕ) (kE : Option ℕ) (j : ℕ) : ℕ := (kE.getD npos + nsp * j) % 2 ^ 64

/-- The values written there (IonFlow.cpp:107-111). -/
noncomputable def importVals (wtE T rho wtm : ℝ) (mobFix diffFix : ℕ → ℝ) : ℝ × ℝ :=
  (poly5 (Real.log T) mobFix, wtE * rho * poly5 (Real.log T) diffFix / wtm)

/-! ## Fluxes -/

/-- IonFlow.cpp:132-133, 159-160 -/
noncomputable def raw (s : Ion) (b : Buf) (x : Sol) (j k : ℕ) : ℝ :=
  (b.tc j).diff k * ((Xf s.c b x k j - Xf s.c b x k (j + 1)) / (s.c.z (j + 1) - s.c.z j))

open Classical in
/-- `frozenIonMethod` (IonFlow.cpp:126-149) -/
noncomputable def frozen (s : Ion) (b : Buf) (x : Sol) (j k : ℕ) : ℝ :=
  if s.q k = 0 then
    raw s b x j k + (0 - ∑ m ∈ (range s.c.nsp).filter (fun m => s.q m = 0), raw s b x j m) * Yv x j k
  else 0

open Classical in
/-- Diffusion and drift (IonFlow.cpp:157-170) -/
noncomputable def drifted (s : Ion) (b : Buf) (x : Sol) (j k : ℕ) : ℝ :=
  if s.q k = 0 then raw s b x j k
  else raw s b x j k + b.rho j * ((1 / 2) * (Yv x j k + Yv x (j + 1) k)) * x j oE * s.q k * s.mob j k

open Classical in
/-- `electricFieldMethod` (IonFlow.cpp:151-186) -/
noncomputable def electric (s : Ion) (b : Buf) (x : Sol) (j k : ℕ) : ℝ :=
  if s.q k = 0 then
    drifted s b x j k +
      Yv x j k / (1 - ∑ m ∈ (range s.c.nsp).filter (fun m => s.q m ≠ 0), Yv x j m) *
        (0 - ∑ m ∈ range s.c.nsp, drifted s b x j m)
  else drifted s b x j k

/-- `updateDiffFluxes` (IonFlow.cpp:116-124) -/
noncomputable def fluxes (s : Ion) (x : Sol) (j0 j1 : ℕ) (b : Buf) : Buf :=
  { b with
    flux := fun j => if j0 ≤ j ∧ j < j1 then
        (if s.stage = 1 then frozen s b x j else if s.stage = 2 then electric s b x j else b.flux j)
      else b.flux j }

/-! ## Residuals -/

open Classical in
/-- `rho_e`, with `ND` (IonFlow.h:165-176) -/
noncomputable def rhoE (K : Consts) (s : Ion) (b : Buf) (x : Sol) (j : ℕ) : ℝ :=
  ∑ k ∈ (range s.c.nsp).filter (fun k => s.q k ≠ 0), s.q k * K.e * (K.NA * b.rho j * Yv x j k / s.c.wt k)

/-- `dEdz` (IonFlow.h:160-162) -/
noncomputable def dEdz (s : Ion) (x : Sol) (j : ℕ) : ℝ := (x j oE - x (j - 1) oE) / (s.c.z j - s.c.z (j - 1))

/-- `evalElectricField` (Flow1D.cpp:772-779, IonFlow.cpp:201-224), the assignments in their order. -/
noncomputable def evalE (K : Consts) (s : Ion) (b : Buf) (x : Sol) (jmin jmax : ℕ) (r : ℕ → ℝ) : ℕ → ℝ :=
  let r0 := fun j => if jmin ≤ j ∧ j ≤ jmax then x j oE else r j
  if s.stage ≠ 2 then r0
  else
    let r1 := if jmin = 0 then Function.update r0 0 (x 0 oE) else r0
    let r2 := if jmax = s.c.pts - 1 then Function.update r1 jmax (dEdz s x jmax - rhoE K s b x jmax / K.eps0) else r1
    fun j => if max jmin 1 ≤ j ∧ j ≤ min jmax (s.c.pts - 2) then dEdz s x j - rhoE K s b x j / K.eps0 else r2 j

open Classical in
/-- `evalSpecies` (IonFlow.cpp:226-242) for species `k < m_nsp`. -/
noncomputable def species (s : Ion) (b : Buf) (rdt : ℝ) (x : Sol) (j k : ℕ) : ℝ :=
  if s.stage = 2 ∧ j = 0 ∧ s.q k ≠ 0 then Yv x 0 k - Yv x 1 k else Flow.species s.c b rdt x j k

end Verif.OneDim.IonFlow
