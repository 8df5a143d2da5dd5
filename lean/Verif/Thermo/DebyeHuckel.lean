import Verif.Basic
import Mathlib.Analysis.SpecialFunctions.Log.Basic
import Mathlib.Analysis.SpecialFunctions.Pow.Real
import Mathlib.Analysis.SpecialFunctions.Sqrt
import Mathlib.Algebra.BigOperators.Group.Finset.Basic
import Mathlib.Tactic.Linarith
import Mathlib.Tactic.Ring
import Mathlib.Tactic.FieldSimp
import Mathlib.Tactic.NormNum

/-!
# C87: Debye-Hückel electrolytes (DebyeHuckel.cpp)

Species 0 is the solvent.  Molalities are those of MolalityVPSSTP (C82).  `A` is the coefficient
m_A_Debye and `w` one of its derivatives; WaterProps::ADebye is a given function (C84).  Standard
states are given functions of temperature and pressure.  The formulas are real functions;
`lnGamma` says where C++ divides zero by zero.
-/

namespace Verif.DH

open Finset

/-- m_formDH (DebyeHuckel.h:28-32). -/
inductive Form where
  | dilute | bdotAk | bdotCommon | betaij | pitzer
  deriving DecidableEq

/-- The parameters of the phase: number of species, m_Mnaught, m_speciesCharge,
m_speciesCharge_Stoich, m_Aionic, m_B_Dot, m_B_Debye, m_maxIionicStrength, m_Beta_ij,
`m_electrolyteSpeciesType[k] == cEST_nonpolarNeutral`, m_formDH, m_useHelgesonFixedForm. -/
structure Par where
  n : ℕ
  M0 : ℝ
  z : ℕ → ℝ
  zs : ℕ → ℝ
  a : ℕ → ℝ
  bdot : ℕ → ℝ
  B : ℝ
  Imax : ℝ
  beta : ℕ → ℕ → ℝ
  nonpolar : ℕ → Bool
  form : Form
  helgeson : Bool

variable (D : Par)

/-- Lines 721-727: ionic strength. -/
noncomputable def ionic (m : ℕ → ℝ) : ℝ := min ((∑ k ∈ range D.n, m k * D.z k * D.z k) / 2) D.Imax

/-- Lines 730-742: stoichiometric ionic strength. -/
noncomputable def ionicStoich (m : ℕ → ℝ) : ℝ :=
  min ((∑ k ∈ range D.n, if D.z k = D.zs k then m k * D.z k * D.z k
    else m k * (D.zs k * D.zs k + (D.z k - D.zs k) * (D.z k - D.zs k))) / 2) D.Imax

/-- `sigma` (lines 797-799, 832-834, 869-871). -/
noncomputable def sig (y : ℝ) : ℝ := 3 / (y * y * y) * (y + 1 - 1 / (y + 1) - 2 * Real.log (y + 1))

/-- Lines 831-837 and 868-874. -/
noncomputable def sigGuard (y : ℝ) : ℝ := if 0 < y then sig y else 0

/-- _nonpolarActCoeff (lines 661-673). -/
noncomputable def nonpolarCoeff (I : ℝ) : ℝ :=
  (10 : ℝ) ^ (1127 / 10000 * I + (-1049 / 100000) * (I * I) + 1545 / 1000000 * (I * I) * I)

/-- _osmoticCoeffHelgesonFixedForm (lines 675-692). -/
noncomputable def osmotic (A Is : ℝ) : ℝ :=
  if Is ≤ 0 then 0
  else
    let a0 : ℝ := 1454 / 1000
    let bhat := 1 + a0 * Real.sqrt Is
    let func := bhat - 2 * Real.log bhat - 1 / bhat
    let v1 := A / (a0 * a0 * a0 * Is) * func
    1 - v1 + 2236 / 100000 * Is / 2 + 2 * (9380 / 1000000) * (Is * Is) / 3
      + 3 * (-5362 / 10000000) * (Is * Is) * Is / 4

/-- _lnactivityWaterHelgesonFixedForm (lines 694-707). -/
noncomputable def lnWaterHelgeson (A : ℝ) (m : ℕ → ℝ) : ℝ :=
  let sum := ∑ k ∈ Ico 1 D.n, max (m k) 0
  let sum := if 2 * D.Imax < sum then 2 * D.Imax else sum
  (-D.M0) * sum * osmotic A (ionicStoich D m)

/-- Logarithm of the activity coefficient of a solute (lines 757-905). -/
noncomputable def lnSolute (A : ℝ) (m : ℕ → ℝ) (k : ℕ) : ℝ :=
  let I := ionic D m
  let numTmp := A * Real.sqrt I
  let denomTmp := D.B * Real.sqrt I
  match D.form with
  | .dilute => -D.z k * D.z k * numTmp
  | .bdotAk =>
    if D.nonpolar k then Real.log (nonpolarCoeff I)
    else -D.z k * D.z k * numTmp / (1 + denomTmp * D.a k) + Real.log 10 * D.bdot k * I
  | .bdotCommon =>
    -D.z k * D.z k * numTmp / (1 + denomTmp * D.a 0) + Real.log 10 * D.bdot k * I
  | .betaij =>
    -D.z k * D.z k * numTmp / (1 + D.B * D.a 0 * Real.sqrt I)
      + ∑ j ∈ range D.n, 2 * m j * D.beta k j
  | .pitzer =>
    -D.z k * D.z k * numTmp / 3 / (1 + denomTmp * D.a 0)
      + -2 * D.z k * D.z k * A * Real.log (1 + denomTmp * D.a 0) / (3 * D.B * D.a 0)
      + ∑ j ∈ range D.n, 2 * m j * D.beta k j

/-- Lines 752-753: mole fraction of the solvent used in the formulas. -/
noncomputable def xSafe (x0 : ℝ) : ℝ := max (8689 / 1000000) x0

/-- Lines 807-814 and 842-850. -/
noncomputable def bdotSolvent (m : ℕ → ℝ) : ℝ :=
  D.M0 * Real.log 10 * ionic D m *
    (∑ k ∈ Ico 1 D.n, if D.z k ≠ 0 then D.bdot k * m k else 0) / 2

/-- Lines 879-886 and 911-918. -/
noncomputable def betaSolvent (m : ℕ → ℝ) : ℝ :=
  D.M0 * ∑ k ∈ range D.n, ∑ j ∈ range D.n, D.beta k j * m k * m j

/-- Lines 791-804: the sum over the species in the B-dot form with variable radius. -/
noncomputable def akSum (m : ℕ → ℝ) : ℝ :=
  if 0 < D.B * Real.sqrt (ionic D m) then
    ∑ k ∈ range D.n, if k ≠ 0 ∨ D.a k ≠ 0 then
      m k * D.z k * D.z k * sig (D.B * Real.sqrt (ionic D m) * D.a k) / 2 else 0
  else 0

/-- Logarithm of the activity of the solvent (lines 764-919). -/
noncomputable def lnSolvent (A : ℝ) (m : ℕ → ℝ) (x0 : ℝ) : ℝ :=
  let I := ionic D m
  let id := (xSafe x0 - 1) / xSafe x0
  match D.form with
  | .dilute => id + 2 / 3 * A * D.M0 * I * Real.sqrt I
  | .bdotAk =>
    if D.helgeson then lnWaterHelgeson D A m
    else id + 2 / 3 * A * D.M0 * Real.sqrt I * akSum D m - bdotSolvent D m
  | .bdotCommon =>
    id + 2 / 3 * A * D.M0 * I * Real.sqrt I * sigGuard (D.B * Real.sqrt I * D.a 0) - bdotSolvent D m
  | .betaij =>
    id + 2 / 3 * A * D.M0 * I * Real.sqrt I * sigGuard (D.B * D.a 0 * Real.sqrt I) - betaSolvent D m
  | .pitzer =>
    id + 2 / 3 * A * D.M0 * I * Real.sqrt I * (1 / (1 + D.B * Real.sqrt I * D.a 0)) - betaSolvent D m

/-- m_lnActCoeffMolal after s_update_lnMolalityActCoeff (lines 709-930). -/
noncomputable def lnCoeff (A : ℝ) (m : ℕ → ℝ) (x0 : ℝ) (k : ℕ) : ℝ :=
  if k = 0 then lnSolvent D A m x0 - Real.log x0 else lnSolute D A m k

open Classical in
/-- The same with the quotients zero by zero: an ionic radius of zero in `3 / (y*y*y) * ...` (line 799,
not evaluated for I = 0) or in `.../(3 * m_B_Debye * m_Aionic[0])` (line 900). -/
noncomputable def lnGamma (A : ℝ) (m : ℕ → ℝ) (x0 : ℝ) (k : ℕ) : Option ℝ :=
  if (D.form = .bdotAk ∧ D.helgeson = false ∧ k = 0 ∧ 0 < D.B * Real.sqrt (ionic D m) ∧
      ∃ j, 0 < j ∧ j < D.n ∧ D.a j = 0) ∨
    (D.form = .pitzer ∧ k ≠ 0 ∧ D.B * D.a 0 = 0) then none
  else some (lnCoeff D A m x0 k)

/-! ## Derivatives with respect to temperature and pressure (lines 932-1259)

The three functions differ in the derivative `w` of A and in the solvent of the dilute form. -/

/-- Which function: s_update_dlnMolalityActCoeff_dT, s_update_d2lnMolalityActCoeff_dT2,
s_update_dlnMolalityActCoeff_dP. -/
inductive Which where
  | dT | d2T | dP
  deriving DecidableEq

/-- Solutes (lines 954-957, 964-968, 987-991, 1005-1008, 1023-1029 and their counterparts).  `old` is
the number stored before; in dP it stays for non polar species (lines 1177-1184). -/
noncomputable def dSolute (wh : Which) (A w : ℝ) (m : ℕ → ℝ) (k : ℕ) (old : ℝ) : ℝ :=
  let sqrtI := Real.sqrt (ionic D m)
  let denomTmp := D.B * sqrtI
  match D.form with
  | .dilute => lnSolute D A m k * w / A
  | .bdotAk =>
    if wh = .dP ∧ D.nonpolar k then old
    else -D.z k * D.z k * (w * sqrtI) / (1 + denomTmp * D.a k)
  | .bdotCommon => -D.z k * D.z k * (w * sqrtI) / (1 + denomTmp * D.a 0)
  | .betaij => -D.z k * D.z k * (w * sqrtI) / (1 + denomTmp * D.a 0)
  | .pitzer =>
    (-D.z k * D.z k * (w * sqrtI) / (1 + denomTmp * D.a 0)
      - 2 * D.z k * D.z k * w * Real.log (1 + denomTmp * D.a 0) / (D.B * D.a 0)) / 3

/-- Lines 972-982: unlike line 796 the solvent is not left out. -/
noncomputable def akSumD (m : ℕ → ℝ) : ℝ :=
  if 0 < D.B * Real.sqrt (ionic D m) then
    ∑ k ∈ range D.n, m k * D.z k * D.z k * sig (D.B * Real.sqrt (ionic D m) * D.a k) / 2
  else 0

/-- Solvent (lines 958-960, 970-982, 992-1000, 1009-1017, 1031-1033 and their counterparts; for the
dilute form lines 1063-1066 and 1169-1172 use the stored coefficient). -/
noncomputable def dSolvent (wh : Which) (A w : ℝ) (m : ℕ → ℝ) (x0 : ℝ) : ℝ :=
  let I := ionic D m
  let sqrtI := Real.sqrt I
  match D.form with
  | .dilute =>
    if wh = .dT then 2 / 3 * w * D.M0 * I * Real.sqrt I else lnCoeff D A m x0 0 * w / A
  | .bdotAk => 0 + 2 / 3 * w * D.M0 * sqrtI * akSumD D m
  | .bdotCommon => 2 / 3 * w * D.M0 * I * sqrtI * sigGuard (D.B * sqrtI * D.a 0)
  | .betaij => 2 / 3 * w * D.M0 * I * sqrtI * sigGuard (D.B * sqrtI * D.a 0)
  | .pitzer => 2 / 3 * w * D.M0 * I * sqrtI * (1 / (1 + D.B * sqrtI * D.a 0))

/-- The arrays after the calls; lines 936-942, 1045-1052, 1152-1158: zero when A does not change. -/
noncomputable def dCoeff (wh : Which) (A w : ℝ) (m : ℕ → ℝ) (x0 : ℝ) (old : ℕ → ℝ) (k : ℕ) : ℝ :=
  if w = 0 then 0 else if k = 0 then dSolvent D wh A w m x0 else dSolute D wh A w m k (old k)

open Classical in
/-- The same with the quotients zero by zero: line 977 with a radius of zero of any species, the solvent
included, and line 1027. -/
noncomputable def dGamma (wh : Which) (A w : ℝ) (m : ℕ → ℝ) (x0 : ℝ) (old : ℕ → ℝ) (k : ℕ) : Option ℝ :=
  if w ≠ 0 ∧ ((D.form = .bdotAk ∧ k = 0 ∧ 0 < D.B * Real.sqrt (ionic D m) ∧ ∃ j, j < D.n ∧ D.a j = 0) ∨
    (D.form = .pitzer ∧ k ≠ 0 ∧ D.B * D.a 0 = 0)) then none
  else some (dCoeff D wh A w m x0 old k)

/-! ## Chemical potentials and partial molar properties (lines 75-219) -/

/-- SmallNumber (ct_defs.h:158). -/
noncomputable def small : ℝ := 1 / 10 ^ 300

/-- getActivities (lines 75-87). -/
noncomputable def activity (A : ℝ) (m : ℕ → ℝ) (x0 : ℝ) (k : ℕ) : ℝ :=
  if k = 0 then Real.exp (lnCoeff D A m x0 0) * x0 else m k * Real.exp (lnCoeff D A m x0 k)

/-- The number under the logarithm in lines 115, 118, 166, 170. -/
noncomputable def conc (m : ℕ → ℝ) (x0 : ℝ) (k : ℕ) : ℝ := max (if k = 0 then x0 else m k) small

/-- getChemPotentials (lines 102-120). -/
noncomputable def mu (R T mu0 A : ℝ) (m : ℕ → ℝ) (x0 : ℝ) (k : ℕ) : ℝ :=
  mu0 + R * T * (Real.log (conc m x0 k) + lnCoeff D A m x0 k)

/-- getPartialMolarEnthalpies (lines 122-145); `d` is the array m_dlnActCoeffMolaldT. -/
noncomputable def hbar (R T h0 dA d : ℝ) : ℝ := if dA ≠ 0 then h0 - R * T * T * d else h0

/-- getPartialMolarEntropies (lines 147-183). -/
noncomputable def sbar (R T s0 dA d A : ℝ) (m : ℕ → ℝ) (x0 : ℝ) (k : ℕ) : ℝ :=
  if dA ≠ 0 then s0 - R * (Real.log (conc m x0 k) + lnCoeff D A m x0 k) - R * T * d
  else s0 - R * (Real.log (conc m x0 k) + lnCoeff D A m x0 k)

/-- getPartialMolarVolumes (lines 185-195). -/
noncomputable def vbar (R T v0 d : ℝ) : ℝ := v0 + R * T * d

/-- getPartialMolarCp (lines 197-219). -/
noncomputable def cpbar (R T cp0 dA d d2 : ℝ) : ℝ :=
  if dA ≠ 0 then cp0 - (2 * (R * T) * d + R * T * T * d2) else cp0

/-! ## Setting parameters (lines 253-326) -/

/-- The table of interaction parameters (Array2D): number of rows and columns, data by columns. -/
structure Table where
  dim : ℕ
  data : ℕ → ℝ

/-- `m_Beta_ij.value(i, j)` (Array.h:150-160). -/
def Table.at (t : Table) (i j : ℕ) : ℝ := t.data (t.dim * j + i)

/-- setBeta (lines 314-326) for species indices; an unknown name is `none`.  Array2D does not check
its indices; the table is empty unless a model with these parameters was chosen (lines 264-271). -/
noncomputable def setBeta (t : Table) (k1 k2 : Option ℕ) (value : ℝ) : Outcome Table :=
  match k1, k2 with
  | some i, some j =>
    if i < t.dim ∧ j < t.dim then
      .ok { t with
        data := fun p => if p = t.dim * i + j then value else if p = t.dim * j + i then value
          else t.data p }
    else .ub
  | _, _ => .throw

/-- setDebyeHuckelModel (lines 253-275) for a known model: `resize` (Array.cpp:47-52) keeps the data
as they are stored and appends zeros. -/
def setModel (t : Table) (kk : ℕ) (f : Form) : Table :=
  if f = .betaij ∨ f = .pitzer then
    { dim := kk, data := fun p => if p < t.dim * t.dim then t.data p else 0 }
  else t

/-- setB_dot (lines 287-302). -/
noncomputable def setBdot (f : Form) (z : ℕ → ℝ) (bdot : ℝ) : Outcome (ℕ → ℝ) :=
  if f = .betaij ∨ f = .dilute ∨ f = .pitzer then .throw
  else .ok fun k => if 1 / 10000 < |z k| then bdot else 0

end Verif.DH
