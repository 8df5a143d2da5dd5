import Verif.Thermo.Simplex
import Mathlib.Analysis.SpecialFunctions.Log.Deriv

/-!
# C64: Redlich-Kister solutions

Source: src/thermo/RedlichKisterVPSSTP.cpp (lines cited below).

Simplifications: `R` is the gas constant; interactions are those kept by `addBinaryInteraction`
(l. 422-452), hence with valid species indices; `moleFractions_` is the current composition; the
standard state functions of the species are inputs.
-/

namespace Verif.Thermo.RedlichKister

open Verif Verif.Thermo

/-- One entry of the interaction tables: species and the arguments of `addBinaryInteraction`. -/
structure RInt where
  A : ℕ
  B : ℕ
  hs : List ℝ
  ss : List ℝ

/-- `N = max(n_enthalpy, n_entropy)` (l. 448), the length of `he_vec` and `se_vec`. -/
def RInt.N (i : RInt) : ℕ := max i.hs.length i.ss.length

/-- `he_vec[m]`, `se_vec[m]`: padded with zeros by `resize(N, 0.0)` (l. 449-450). -/
def RInt.he (i : RInt) (m : ℕ) : ℝ := i.hs.getD m 0

def RInt.se (i : RInt) (m : ℕ) : ℝ := i.ss.getD m 0

/-- Accumulators of the loops over polynomial coefficients (l. 178-183, 278-284, 331-338). -/
structure Acc where
  poly : ℝ := 1
  polyMm1 : ℝ := 1
  polyMm2 : ℝ := 1
  sum : ℝ := 0
  sum2 : ℝ := 0
  sumMm1 : ℝ := 0
  sum2Mm1 : ℝ := 0
  sumMm2 : ℝ := 0

/-- One pass of the loop over `m` (l. 184-193, 224-233, 285-297, 339-353); the loops that do not need
all accumulators omit the others. -/
noncomputable def step (ge : ℕ → ℝ) (d : ℝ) (a : Acc) (m : ℕ) : Acc :=
  let a := { a with sum := a.sum + ge m * a.poly, sum2 := a.sum2 + ge m * (m + 1) * a.poly, poly := a.poly * d }
  let a := if 1 ≤ m then { a with
      sumMm1 := a.sumMm1 + ge m * a.polyMm1 * m
      sum2Mm1 := a.sum2Mm1 + ge m * a.polyMm1 * m * (1 + m)
      polyMm1 := a.polyMm1 * d } else a
  if 2 ≤ m then { a with
      sumMm2 := a.sumMm2 + ge m * a.polyMm2 * m * (m - 1)
      polyMm2 := a.polyMm2 * d } else a

/-- The loop over `m < N`. -/
noncomputable def loop (ge : ℕ → ℝ) (N : ℕ) (d : ℝ) : Acc := (List.range N).foldl (step ge d) {}

/-- The loop over species shared by l. 194-204 and 234-244. -/
noncomputable def addTerm (kk A B : ℕ) (ge : ℕ → ℝ) (N : ℕ) (X v : ℕ → ℝ) : ℕ → ℝ :=
  let XA := X A
  let XB := X B
  let a := loop ge N (XA - XB)
  let oneMXA := 1 - XA
  let oneMXB := 1 - XB
  fun k => if k < kk then
    if A = k then v k + (oneMXA * XB * a.sum + XA * XB * a.sumMm1 * (oneMXA + XB))
    else if B = k then v k + (oneMXB * XA * a.sum + XA * XB * a.sumMm1 * (-oneMXB - XA))
    else v k + -(XA * XB * a.sum2)
    else v k

/-- `s_update_lnActCoeff` (l. 160-205). -/
noncomputable def lnAct (kk : ℕ) (R : ℝ) (ints : List RInt) (T : ℝ) (X : ℕ → ℝ) : ℕ → ℝ :=
  ints.foldl (fun v i => addTerm kk i.A i.B (fun m => (i.he m - T * i.se m) / (R * T)) i.N X v) (fun _ => 0)

/-- `dlnActCoeffdT_Scaled_` of `s_update_dlnActCoeff_dT` (l. 207-245). -/
noncomputable def dT (kk : ℕ) (R : ℝ) (ints : List RInt) (T : ℝ) (X : ℕ → ℝ) : ℕ → ℝ :=
  ints.foldl (fun v i => addTerm kk i.A i.B (fun m => -i.he m / (R * T * T)) i.N X v) (fun _ => 0)

/-- `d2lnActCoeffdT2_Scaled_` (l. 247-249). -/
noncomputable def d2T (kk : ℕ) (R : ℝ) (ints : List RInt) (T : ℝ) (X : ℕ → ℝ) : ℕ → ℝ :=
  fun k => -2 / T * dT kk R ints T X k

/-- `SmallNumber` (ct_defs.h:158). -/
noncomputable def small : ℝ := 1e-300

/-- `getChemPotentials` (l. 39-51). -/
noncomputable def mu (kk : ℕ) (R : ℝ) (ints : List RInt) (mu0 : ℕ → ℝ) (T : ℝ) (X : ℕ → ℝ) : ℕ → ℝ :=
  fun k => mu0 k + R * T * (Real.log (max (X k) small) + lnAct kk R ints T X k)

/-- `getPartialMolarEnthalpies` (l. 58-75). -/
noncomputable def hbar (kk : ℕ) (R : ℝ) (ints : List RInt) (h0 : ℕ → ℝ) (T : ℝ) (X : ℕ → ℝ) : ℕ → ℝ :=
  fun k => h0 k * (R * T) - R * T * T * dT kk R ints T X k

/-- `getPartialMolarCp` (l. 77-84). -/
noncomputable def cpbar (R : ℝ) (cp0 : ℕ → ℝ) : ℕ → ℝ := fun k => cp0 k * R

/-- `getPartialMolarEntropies` (l. 86-105). -/
noncomputable def sbar (kk : ℕ) (R : ℝ) (ints : List RInt) (s0 : ℕ → ℝ) (T : ℝ) (X : ℕ → ℝ) : ℕ → ℝ :=
  fun k => (s0 k + (-lnAct kk R ints T X k - Real.log (max (X k) small) - T * dT kk R ints T X k)) * R

/-- Loop body of `s_update_dlnActCoeff_dlnX_diag` (l. 273-313). -/
noncomputable def diagStep (kk : ℕ) (R T : ℝ) (X v : ℕ → ℝ) (i : RInt) : ℕ → ℝ :=
  let XA := X i.A
  let XB := X i.B
  let a := loop (fun m => (i.he m - T * i.se m) / (R * T)) i.N (XA - XB)
  fun k => if k < kk then
    if i.A = k then v k + XA * (-(1 - XA + XB) * a.sum + 2 * (1 - XA) * XB * a.sumMm1 +
      a.sumMm1 * (XB * (1 - 2 * XA + XB) - XA * (1 - XA + 2 * XB)) + 2 * XA * XB * a.sumMm2 * (1 - XA + XB))
    else if i.B = k then v k + XB * (-(1 - XB + XA) * a.sum - 2 * (1 - XB) * XA * a.sumMm1 +
      a.sumMm1 * (XA * (2 * XB - XA - 1) - XB * (-2 * XA + XB - 1)) - 2 * XA * XB * a.sumMm2 * (-XA - 1 + XB))
    else v k
    else v k

/-- `s_update_dlnActCoeff_dlnX_diag` (l. 268-315). -/
noncomputable def dlnXdiag (kk : ℕ) (R : ℝ) (ints : List RInt) (T : ℝ) (X : ℕ → ℝ) : ℕ → ℝ :=
  ints.foldl (diagStep kk R T X) (fun _ => 0)

/-- Additions of one interaction to entries `(k, iA)` and `(k, iB)` of `dlnActCoeff_dX_` (l. 355-374);
`A_ge` is not divided by `RT` (l. 340). -/
noncomputable def dXA (T : ℝ) (X : ℕ → ℝ) (i : RInt) (k : ℕ) : ℝ :=
  let XA := X i.A
  let XB := X i.B
  let a := loop (fun m => i.he m - T * i.se m) i.N (XA - XB)
  if i.A = k then -XB * a.sum + (1 - XA) * XB * a.sumMm1 + XB * a.sumMm1 * (1 - 2 * XA + XB) +
    XA * XB * a.sumMm2 * (1 - XA + XB)
  else if i.B = k then (1 - XB) * a.sum + (1 - XA) * XB * a.sumMm1 + XB * a.sumMm1 * (1 - 2 * XA + XB) +
    XA * XB * a.sumMm2 * (1 - XA + XB)
  else -XB * a.sum2 - XA * XB * a.sum2Mm1

noncomputable def dXB (T : ℝ) (X : ℕ → ℝ) (i : RInt) (k : ℕ) : ℝ :=
  let XA := X i.A
  let XB := X i.B
  let a := loop (fun m => i.he m - T * i.se m) i.N (XA - XB)
  if i.A = k then (1 - XA) * a.sum - (1 - XA) * XB * a.sumMm1 + XA * a.sumMm1 * (1 + 2 * XB - XA) -
    XA * XB * a.sumMm2 * (1 - XA + XB)
  else if i.B = k then -XA * a.sum - (1 - XB) * XA * a.sumMm1 + XA * a.sumMm1 * (XB - XA - (1 - XB)) -
    XA * XB * a.sumMm2 * (-XA - (1 - XB))
  else -XA * a.sum2 + XA * XB * a.sum2Mm1

/-- `resize(N, N, 0.0)` of `dlnActCoeff_dX_` (l. 451): the size after adding the interactions in turn;
no interaction leaves it empty. -/
def matSize (ints : List RInt) : ℕ := (ints.map RInt.N).getLast?.getD 0

/-- `dlnActCoeff_dX_(k, j) += v` on the column-major storage of an `N × N` array (Array.h:
`m_data[m_nrows*j + i]`, unchecked); an index outside the storage is undefined behaviour. -/
noncomputable def addAt (N : ℕ) (data : List ℝ) (k j : ℕ) (v : ℝ) : Outcome (List ℝ) :=
  if N * j + k < data.length then .ok (data.set (N * j + k) (data.getD (N * j + k) 0 + v)) else .ub

/-- `for` loops with an outcome. -/
def forM {α σ : Type} (f : σ → α → Outcome σ) : List α → σ → Outcome σ
  | [], s => .ok s
  | a :: l, s => match f s a with
    | .ok s => forM f l s
    | .throw => .throw
    | .ub => .ub

/-- `s_update_dlnActCoeff_dX_` (l. 317-377). -/
noncomputable def updateDX (kk : ℕ) (ints : List RInt) (T : ℝ) (X : ℕ → ℝ) : Outcome (List ℝ) :=
  forM (fun data (i : RInt) => forM (fun data k =>
    match addAt (matSize ints) data k i.A (dXA T X i k) with
    | .ok data => addAt (matSize ints) data k i.B (dXB T X i k)
    | .throw => .throw
    | .ub => .ub) (List.range kk) data) ints (List.replicate (matSize ints * matSize ints) 0)

/-- `getdlnActCoeffds` (l. 379-390), entry `k`. -/
noncomputable def ds (kk : ℕ) (R : ℝ) (ints : List RInt) (T : ℝ) (X dX : ℕ → ℝ) (dTds : ℝ) (k : ℕ) : Outcome ℝ :=
  match updateDX kk ints T X with
  | .ok data => forM (fun s j => if matSize ints * j + k < data.length then
      .ok (s + data.getD (matSize ints * j + k) 0 * dX j) else .ub) (List.range kk) (dT kk R ints T X k * dTds)
  | .throw => .throw
  | .ub => .ub

/-- `getdlnActCoeffdlnN` (l. 411-420): the entries copied are those of `dlnActCoeffdlnN_`, which `initLengths`
(l. 155-158) sets to zero and which no other statement assigns. -/
noncomputable def getdlnN (kk : ℕ) (ints : List RInt) (T : ℝ) (X : ℕ → ℝ) (_k _m : ℕ) : Outcome ℝ :=
  match updateDX kk ints T X with
  | .ok _ => .ok 0
  | .throw => .throw
  | .ub => .ub

end Verif.Thermo.RedlichKister
