import Verif.Basic
import Mathlib.Data.Real.Basic
import Mathlib.Algebra.BigOperators.Fin
import Mathlib.Algebra.BigOperators.Field
import Mathlib.Algebra.Order.BigOperators.Ring.Finset
import Mathlib.Data.Fintype.BigOperators
import Mathlib.Tactic.Common
import Mathlib.Tactic.SplitIfs
import Mathlib.Tactic.Linarith
import Mathlib.Tactic.Ring
import Mathlib.Tactic.FieldSimp
import Mathlib.Tactic.NormNum
import Mathlib.Tactic.Positivity
import Mathlib.Tactic.FinCases

/-!
# C12, C13, C14: composition and state of a phase (Phase.cpp:167-605)

Reals for doubles.  The number of species is fixed here (`n`, `m_kk`); a vector over the species is a
function on `Fin n`.  Division by zero (which gives inf/NaN in C++) is only reached in calls
excluded by the hypotheses of the theorems (positive clipped sum).
-/

namespace Verif.Comp

open Verif
open scoped BigOperators

variable {n : ℕ}

/-- Which composition the native state holds (Phase.cpp:167-182 `Y` or, for a pure phase, none;
LatticePhase.h:202, LatticeSolidPhase.h:126 `X`). -/
inductive Layout
  | pure
  | massY
  | moleX
  deriving DecidableEq

/-- Part of the data of `Phase` (Phase.h:885-925).  `dp` is the independent variable next to the
temperature: `m_dens` if the phase is compressible, the pressure stored by the phase otherwise. -/
structure Ph (n : ℕ) where
  W : Fin n → ℝ
  rW : Fin n → ℝ
  y : Fin n → ℝ
  ym : Fin n → ℝ
  mmw : ℝ
  T : ℝ
  dp : ℝ
  compressible : Bool
  lay : Layout

/-- `std::max(x[k], 0.0)` (Phase.cpp:296, 344, 494) -/
noncomputable def clip (x : Fin n → ℝ) : Fin n → ℝ := fun k => max (x k) 0

/-- Phase::setMoleFractions (Phase.cpp:289-319) -/
noncomputable def setX (p : Ph n) (x : Fin n → ℝ) : Ph n :=
  { p with
    ym := fun k => clip x k * (1 / ∑ j, p.W j * clip x j)
    y := fun k => clip x k * (1 / ∑ j, p.W j * clip x j) * p.W k
    mmw := (∑ j, p.W j * clip x j) / ∑ j, clip x j }

/-- Phase::setMoleFractions_NoNorm (Phase.cpp:321-328) -/
noncomputable def setXNoNorm (p : Ph n) (x : Fin n → ℝ) : Ph n :=
  { p with
    ym := fun k => x k * (1 / ∑ j, x j * p.W j)
    y := fun k => x k * (1 / ∑ j, x j * p.W j) * p.W k
    mmw := ∑ j, x j * p.W j }

/-- Phase::setMassFractions (Phase.cpp:341-353) -/
noncomputable def setY (p : Ph n) (y : Fin n → ℝ) : Ph n :=
  { p with
    y := fun k => clip y k * (1 / ∑ j, clip y j)
    ym := fun k => clip y k * (1 / ∑ j, clip y j) * p.rW k
    mmw := 1 / ∑ k, clip y k * (1 / ∑ j, clip y j) * p.rW k }

/-- Phase::setMassFractions_NoNorm (Phase.cpp:355-364) -/
noncomputable def setYNoNorm (p : Ph n) (y : Fin n → ℝ) : Ph n :=
  { p with
    y := y
    ym := fun k => y k * p.rW k
    mmw := 1 / ∑ k, y k * p.rW k }

/-- Phase::setMolesNoTruncate (Phase.cpp:528-545) -/
noncomputable def setMoles (p : Ph n) (N : Fin n → ℝ) : Ph n :=
  { p with
    mmw := (∑ j, N j * p.W j) / ∑ j, N j
    y := fun k => N k * p.W k * (1 / ∑ j, N j * p.W j)
    ym := fun k => N k * (1 / ((∑ j, N j * p.W j) / (∑ j, N j) * ∑ j, N j)) }

/-- Phase::setTemperature (Phase.h:624-631); the flag is "threw" -/
noncomputable def setT (p : Ph n) (t : ℝ) : Ph n × Bool :=
  if 0 < t then ({ p with T := t }, false) else (p, true)

/-- Phase::setDensity (Phase.cpp:586-595) -/
noncomputable def setDensity (p : Ph n) (d : ℝ) : Ph n × Bool :=
  if p.compressible = false then (p, true)
  else if 0 < d then ({ p with dp := d }, false) else (p, true)

/-- `setPressure` of an incompressible phase, as in IdealSolidSolnPhase or LatticePhase: stores the
pressure. -/
def setPressure (p : Ph n) (q : ℝ) : Ph n × Bool := ({ p with dp := q }, false)

/-- Phase::setConcentrations (Phase.cpp:487-507).  `m_y` and `m_mmw` are overwritten before
`setDensity` may throw. -/
noncomputable def setConc (p : Ph n) (c : Fin n → ℝ) : Ph n × Bool :=
  if p.compressible = false then (p, true)
  else
    let p1 := { p with
      y := clip c
      mmw := (∑ j, clip c j * p.W j) / ∑ j, clip c j }
    let r := setDensity p1 (∑ j, clip c j * p.W j)
    if r.2 then r
    else ({ r.1 with
      ym := fun k => clip c k * (1 / ∑ j, clip c j * p.W j)
      y := fun k => clip c k * (1 / ∑ j, clip c j * p.W j) * p.W k }, false)

/-- Phase::setConcentrationsNoNorm (Phase.cpp:509-526). -/
noncomputable def setConcNoNorm (p : Ph n) (c : Fin n → ℝ) : Ph n × Bool :=
  if p.compressible = false then (p, true)
  else
    let p1 := { p with mmw := (∑ j, c j * p.W j) / ∑ j, c j }
    let r := setDensity p1 (∑ j, c j * p.W j)
    if r.2 then r
    else ({ r.1 with
      ym := fun k => c k * (1 / ∑ j, c j * p.W j)
      y := fun k => c k * (1 / ∑ j, c j * p.W j) * p.W k }, false)

/-- Phase::getMoleFractions (Phase.cpp:434-437), moleFraction (439-443) -/
def getX (p : Ph n) : Fin n → ℝ := fun k => p.mmw * p.ym k

/-- Phase::getMassFractions (Phase.cpp:471-474) -/
def getY (p : Ph n) : Fin n → ℝ := p.y

/-- Phase::getConcentrations (Phase.cpp:482-485), compressible phases -/
def getConc (p : Ph n) : Fin n → ℝ := fun k => p.dp * p.ym k

/-- Phase::concentration(k) (Phase.cpp:476-480) -/
def conc1 (p : Ph n) (k : Fin n) : ℝ := p.y k * p.dp * p.rW k

/-- Phase::mean_X (Phase.cpp:616-619) -/
def meanX (p : Ph n) (q : Fin n → ℝ) : ℝ := p.mmw * ∑ k, p.ym k * q k

/-- Phase::massFractionsToMoleFractions (Phase.cpp:941-954) -/
noncomputable def yToX (W y : Fin n → ℝ) : Outcome (Fin n → ℝ) :=
  if ∑ k, y k / W k = 0 then .throw else .ok fun k => y k / ((∑ j, y j / W j) * W k)

/-- Phase::moleFractionsToMassFractions (Phase.cpp:956-967) -/
noncomputable def xToY (W x : Fin n → ℝ) : Outcome (Fin n → ℝ) :=
  if ∑ k, x k * W k = 0 then .throw else .ok fun k => x k * W k * (1 / ∑ j, x j * W j)

/-! ### Save and restore -/

/-- Phase::stateSize (Phase.cpp:228-234).  LatticePhase is never pure. -/
def stateSize (p : Ph n) : ℕ := if p.lay = .pure then 2 else n + 2

/-- Phase::saveState (Phase.cpp:236-258) into a vector resized by the call. -/
def save (p : Ph n) : List ℝ :=
  p.T :: p.dp :: match p.lay with
    | .pure => []
    | .massY => List.ofFn (getY p)
    | .moleX => List.ofFn (getX p)

/-- Phase::saveState(lenstate, state) (Phase.cpp:242-258): `lenstate` is not looked at, so a shorter
buffer is written out of bounds. -/
def saveRaw (p : Ph n) (lenstate : ℕ) : Outcome (List ℝ) :=
  if lenstate < stateSize p then .ub else .ok (save p)

/-- The composition part of a state vector -/
def tail (s : List ℝ) : Fin n → ℝ := fun k => s.getD (2 + k) 0

/-- Continue unless the last call threw. -/
def andThen (r : Ph n × Bool) (f : Ph n → Ph n × Bool) : Ph n × Bool := if r.2 then r else f r.1

/-- Phase.cpp:281-285 -/
noncomputable def setComp (p : Ph n) (s : List ℝ) : Ph n × Bool :=
  match p.lay with
  | .pure => (p, false)
  | .massY => (setYNoNorm p (tail s), false)
  | .moleX => (setXNoNorm p (tail s), false)

/-- Phase.cpp:275-279 -/
noncomputable def setDP (p : Ph n) (v : ℝ) : Ph n × Bool :=
  if p.compressible then setDensity p v else setPressure p v

/-- Phase::restoreState (Phase.cpp:265-287); the flag is "threw". -/
noncomputable def restore (p : Ph n) (s : List ℝ) : Ph n × Bool :=
  if s.length < stateSize p then (p, true)
  else andThen (setT p (s.getD 0 0)) fun p1 =>
    andThen (setDP p1 (s.getD 1 0)) fun p2 => setComp p2 s

/-- The state changing calls modelled here. -/
inductive Op (n : ℕ)
  | setX (x : Fin n → ℝ)
  | setXNoNorm (x : Fin n → ℝ)
  | setY (x : Fin n → ℝ)
  | setYNoNorm (x : Fin n → ℝ)
  | setMoles (x : Fin n → ℝ)
  | setConc (x : Fin n → ℝ)
  | setConcNoNorm (x : Fin n → ℝ)
  | setT (t : ℝ)
  | setDensity (d : ℝ)
  | setPressure (q : ℝ)
  | restore (s : List ℝ)

/-- One call; the flag is "threw".  `setPressure` of a compressible phase finds some density: see
`Op.setDensity`. -/
noncomputable def step (p : Ph n) : Op n → Ph n × Bool
  | .setX x => (setX p x, false)
  | .setXNoNorm x => (setXNoNorm p x, false)
  | .setY x => (setY p x, false)
  | .setYNoNorm x => (setYNoNorm p x, false)
  | .setMoles x => (setMoles p x, false)
  | .setConc x => setConc p x
  | .setConcNoNorm x => setConcNoNorm p x
  | .setT t => setT p t
  | .setDensity d => setDensity p d
  | .setPressure q => if p.compressible then (p, true) else setPressure p q
  | .restore s => restore p s

noncomputable def run (p : Ph n) : List (Op n) → Ph n
  | [] => p
  | o :: os => run (step p o).1 os

/-! ### Invariants -/

/-- What `addSpecies` establishes and the setters rely on (Phase.cpp:770-790): positive weights and
their reciprocals. -/
def Weights (p : Ph n) : Prop := ∀ k, 0 < p.W k ∧ p.rW k = 1 / p.W k

/-- The three composition fields describe one normalised composition. -/
def Normalised (p : Ph n) : Prop :=
  (∀ k, p.ym k = p.y k / p.W k) ∧ ∑ k, p.y k = 1 ∧ p.mmw * ∑ k, p.ym k = 1

theorem clip_nonneg (x : Fin n → ℝ) (k) : 0 ≤ clip x k := le_max_right _ _

theorem clip_of_nonneg {x : Fin n → ℝ} (h : ∀ k, 0 ≤ x k) : clip x = x := by
  funext k; exact max_eq_left (h k)

theorem wsum_pos {W x : Fin n → ℝ} (hW : ∀ k, 0 < W k) (hx : ∀ k, 0 ≤ x k)
    (hs : 0 < ∑ k, x k) : 0 < ∑ k, x k * W k := by
  obtain ⟨k, hk, hk'⟩ := Finset.exists_lt_of_sum_lt (s := Finset.univ) (f := fun _ : Fin n => (0:ℝ))
    (g := x) (by simpa using hs)
  exact Finset.sum_pos' (fun i _ => mul_nonneg (hx i) (hW i).le)
    ⟨k, hk, mul_pos hk' (hW k)⟩

theorem wsum_comm (W x : Fin n → ℝ) : ∑ k, W k * x k = ∑ k, x k * W k :=
  Finset.sum_congr rfl fun _ _ => mul_comm _ _

/-! ### C12 -/

/-- After `setMoleFractions(x)` the reported mole fractions are the clipped input divided by its
sum. -/
theorem setX_getX (p : Ph n) (x : Fin n → ℝ) (hW : Weights p) (hs : 0 < ∑ k, clip x k) (k) :
    getX (setX p x) k = clip x k / ∑ j, clip x j := by
  have hp := wsum_pos (fun k => (hW k).1) (clip_nonneg x) hs
  simp only [getX, setX, wsum_comm]
  field_simp

/-- Their sum is one and each lies in [0,1]. -/
theorem setX_sum (p : Ph n) (x : Fin n → ℝ) (hW : Weights p) (hs : 0 < ∑ k, clip x k) :
    (∀ k, 0 ≤ getX (setX p x) k ∧ getX (setX p x) k ≤ 1) ∧ ∑ k, getX (setX p x) k = 1 := by
  have h0 : ∀ k, 0 ≤ getX (setX p x) k := fun k => by
    rw [setX_getX p x hW hs]; exact div_nonneg (clip_nonneg x k) hs.le
  have h1 : ∑ k, getX (setX p x) k = 1 := by
    simp only [setX_getX p x hW hs, ← Finset.sum_div]
    exact div_self hs.ne'
  refine ⟨fun k => ⟨h0 k, ?_⟩, h1⟩
  rw [← h1]
  exact Finset.single_le_sum (fun i _ => h0 i) (Finset.mem_univ k)

/-- Mass fractions after `setMoleFractions`: `X_k W_k / Σ X W`. -/
theorem setX_getY (p : Ph n) (x : Fin n → ℝ) (hW : Weights p) (hs : 0 < ∑ k, clip x k) (k) :
    getY (setX p x) k = getX (setX p x) k * p.W k / ∑ j, getX (setX p x) j * p.W j := by
  have hp := wsum_pos (fun k => (hW k).1) (clip_nonneg x) hs
  have h1 : ∑ j, getX (setX p x) j * p.W j = (∑ j, clip x j * p.W j) / ∑ j, clip x j := by
    rw [Finset.sum_div]
    exact Finset.sum_congr rfl fun j _ => by rw [setX_getX p x hW hs]; ring
  rw [h1, setX_getX p x hW hs]
  simp only [getY, setX, wsum_comm]
  field_simp

/-- `setMoleFractions` establishes the invariant. -/
theorem setX_normalised (p : Ph n) (x : Fin n → ℝ) (hW : Weights p) (hs : 0 < ∑ k, clip x k) :
    Normalised (setX p x) := by
  have hp := wsum_pos (fun k => (hW k).1) (clip_nonneg x) hs
  refine ⟨fun k => ?_, ?_, ?_⟩
  · have := (hW k).1
    simp only [setX]; field_simp
  · have : ∑ k, (setX p x).y k = (∑ k, clip x k * p.W k) * (1 / ∑ k, clip x k * p.W k) := by
      rw [Finset.sum_mul]
      exact Finset.sum_congr rfl fun k _ => by simp only [setX, wsum_comm]; ring
    rw [this]; field_simp
  · rw [Finset.mul_sum]
    exact (setX_sum p x hW hs).2

/-- After `setMassFractions(y)` the mass fractions are the clipped input divided by its sum. -/
theorem setY_getY (p : Ph n) (y : Fin n → ℝ) (k) :
    getY (setY p y) k = clip y k / ∑ j, clip y j := by
  simp only [getY, setY]; ring

theorem setY_sum (p : Ph n) (y : Fin n → ℝ) (hs : 0 < ∑ k, clip y k) :
    (∀ k, 0 ≤ getY (setY p y) k ∧ getY (setY p y) k ≤ 1) ∧ ∑ k, getY (setY p y) k = 1 := by
  have h0 : ∀ k, 0 ≤ getY (setY p y) k := fun k => by
    rw [setY_getY]; exact div_nonneg (clip_nonneg y k) hs.le
  have h1 : ∑ k, getY (setY p y) k = 1 := by
    simp only [setY_getY, ← Finset.sum_div]
    exact div_self hs.ne'
  refine ⟨fun k => ⟨h0 k, ?_⟩, h1⟩
  rw [← h1]
  exact Finset.single_le_sum (fun i _ => h0 i) (Finset.mem_univ k)

theorem setY_normalised (p : Ph n) (y : Fin n → ℝ) (hW : Weights p) (hs : 0 < ∑ k, clip y k) :
    Normalised (setY p y) := by
  refine ⟨fun k => ?_, (setY_sum p y hs).2, ?_⟩
  · simp only [setY, (hW k).2]; ring
  · simp only [setY]
    have hpos : 0 < ∑ k, clip y k * (1 / ∑ j, clip y j) * p.rW k := by
      refine wsum_pos (W := p.rW) (x := fun k => clip y k * (1 / ∑ j, clip y j))
        (fun k => ?_) (fun k => ?_) ?_
      · rw [(hW k).2]; exact one_div_pos.2 (hW k).1
      · exact mul_nonneg (clip_nonneg y k) (one_div_pos.2 hs).le
      · rw [← Finset.sum_mul]; positivity
    exact one_div_mul_cancel hpos.ne'

/-- `setConcentrations` with a positive clipped sum succeeds and establishes the invariant; the
concentrations read back are the clipped input and the density is `Σ c W`. -/
theorem setConc_ok (p : Ph n) (c : Fin n → ℝ) (hW : Weights p) (hc : p.compressible = true)
    (hs : 0 < ∑ k, clip c k) :
    (setConc p c).2 = false ∧ getConc (setConc p c).1 = clip c ∧ Normalised (setConc p c).1 ∧
      (setConc p c).1.dp = ∑ k, clip c k * p.W k ∧ (setConc p c).1.T = p.T := by
  have hp := wsum_pos (fun k => (hW k).1) (clip_nonneg c) hs
  have hne := hp.ne'
  simp only [setConc, setDensity, hc, hp, if_true, Bool.true_eq_false, if_false, Bool.false_eq_true]
  refine ⟨trivial, ?_, ⟨fun k => ?_, ?_, ?_⟩, trivial, trivial⟩
  · funext k; simp only [getConc]; field_simp
  · have := (hW k).1
    field_simp
  · have : ∑ k, clip c k * (1 / ∑ j, clip c j * p.W j) * p.W k
        = (∑ k, clip c k * p.W k) * (1 / ∑ j, clip c j * p.W j) := by
      rw [Finset.sum_mul]; exact Finset.sum_congr rfl fun k _ => by ring
    rw [this]; field_simp
  · rw [← Finset.sum_mul]; field_simp

/-- `concentration(k)` agrees with `getConcentrations`. -/
theorem conc1_eq (p : Ph n) (hW : Weights p) (hN : Normalised p) (k) : conc1 p k = getConc p k := by
  simp only [conc1, getConc, hN.1 k, (hW k).2]; ring

/-- `setMolesNoTruncate`: mole fractions `N_k/ΣN`, also for negative entries. -/
theorem setMoles_ok (p : Ph n) (N : Fin n → ℝ) (hW : Weights p) (hs : ∑ k, N k ≠ 0)
    (hm : ∑ k, N k * p.W k ≠ 0) :
    Normalised (setMoles p N) ∧ ∀ k, getX (setMoles p N) k = N k / ∑ j, N j := by
  have hX : ∀ k, getX (setMoles p N) k = N k / ∑ j, N j := fun k => by
    simp only [getX, setMoles]; field_simp
  refine ⟨⟨fun k => ?_, ?_, ?_⟩, hX⟩
  · have := (hW k).1
    simp only [setMoles]; field_simp
  · simp only [setMoles]; rw [← Finset.sum_mul]; field_simp
  · rw [Finset.mul_sum]
    have : ∑ k, getX (setMoles p N) k = 1 := by
      simp only [hX, ← Finset.sum_div]; exact div_self hs
    exact this

/-- In a normalised state the mole fractions sum to one, mass fractions are `X_k W_k / mmw` and the
mean molecular weight is `Σ X_k W_k`. -/
theorem normalised_spec (p : Ph n) (hW : Weights p) (hN : Normalised p) :
    ∑ k, getX p k = 1 ∧ p.mmw = ∑ k, getX p k * p.W k ∧
      (∀ k, getY p k * p.mmw = getX p k * p.W k) ∧ ∀ q, meanX p q = ∑ k, getX p k * q k := by
  obtain ⟨h1, h2, h3⟩ := hN
  refine ⟨by simp only [getX, ← Finset.mul_sum]; exact h3, ?_, fun k => ?_, fun q => ?_⟩
  · have : ∑ k, getX p k * p.W k = p.mmw * ∑ k, p.y k := by
      rw [Finset.mul_sum]
      refine Finset.sum_congr rfl fun k _ => ?_
      have := (hW k).1
      simp only [getX, h1]; field_simp
    rw [this, h2, mul_one]
  · have := (hW k).1
    simp only [getX, getY, h1]; field_simp
  · simp only [meanX, getX, Finset.mul_sum]
    exact Finset.sum_congr rfl fun k _ => by ring

/-- The unnormalised setters report exactly what was set; the mass (mole) fractions sum to one
although the mole (mass) fractions given need not. -/
theorem setXNoNorm_spec (p : Ph n) (x : Fin n → ℝ) (hW : Weights p) (hm : ∑ k, x k * p.W k ≠ 0) :
    getX (setXNoNorm p x) = x ∧ ∑ k, getY (setXNoNorm p x) k = 1 ∧
      (∀ k, (setXNoNorm p x).ym k = (setXNoNorm p x).y k / p.W k) := by
  refine ⟨?_, ?_, fun k => ?_⟩
  · funext k; simp only [getX, setXNoNorm]; field_simp
  · have : ∑ k, getY (setXNoNorm p x) k = (∑ k, x k * p.W k) * (1 / ∑ k, x k * p.W k) := by
      rw [Finset.sum_mul]
      exact Finset.sum_congr rfl fun k _ => by simp only [getY, setXNoNorm]; ring
    rw [this]; field_simp
  · have := (hW k).1
    simp only [setXNoNorm]; field_simp

theorem setYNoNorm_spec (p : Ph n) (y : Fin n → ℝ) (hW : Weights p) (hm : ∑ k, y k / p.W k ≠ 0) :
    getY (setYNoNorm p y) = y ∧ ∑ k, getX (setYNoNorm p y) k = 1 ∧
      (∀ k, (setYNoNorm p y).ym k = (setYNoNorm p y).y k / p.W k) := by
  have e : ∀ k, y k * p.rW k = y k / p.W k := fun k => by rw [(hW k).2]; ring
  refine ⟨rfl, ?_, fun k => ?_⟩
  · simp only [getX, setYNoNorm, ← Finset.mul_sum, e]; field_simp
  · simp only [setYNoNorm, e]

/-- Calls that set a normalised composition, with the inputs for which C12 speaks about them. -/
def Good (p : Ph n) : Op n → Prop
  | .setX x => 0 < ∑ k, clip x k
  | .setY y => 0 < ∑ k, clip y k
  | .setMoles N => ∑ k, N k ≠ 0 ∧ ∑ k, N k * p.W k ≠ 0
  | .setConc c => p.compressible = false ∨ 0 < ∑ k, clip c k
  | .setT _ | .setDensity _ | .setPressure _ => True
  | _ => False

/-- Nothing but composition, temperature and density changed. -/
def Frame (p q : Ph n) : Prop :=
  q.W = p.W ∧ q.rW = p.rW ∧ q.compressible = p.compressible ∧ q.lay = p.lay

theorem frame_andThen {p : Ph n} {r : Ph n × Bool} {f : Ph n → Ph n × Bool} (h : Frame p r.1)
    (hf : ∀ q, Frame q (f q).1) : Frame p (andThen r f).1 := by
  simp only [andThen]
  split_ifs
  · exact h
  · obtain ⟨a, b, c, d⟩ := hf r.1
    exact ⟨a.trans h.1, b.trans h.2.1, c.trans h.2.2.1, d.trans h.2.2.2⟩

theorem frame_setT (p : Ph n) (t : ℝ) : Frame p (setT p t).1 := by
  simp only [setT]; split_ifs <;> exact ⟨rfl, rfl, rfl, rfl⟩

theorem frame_setDP (p : Ph n) (t : ℝ) : Frame p (setDP p t).1 := by
  simp only [setDP, setDensity, setPressure]; split_ifs <;> exact ⟨rfl, rfl, rfl, rfl⟩

theorem frame (p : Ph n) (o : Op n) : (step p o).1.W = p.W ∧ (step p o).1.rW = p.rW ∧
    (step p o).1.compressible = p.compressible ∧ (step p o).1.lay = p.lay := by
  cases o <;> simp only [step]
  case setX => exact ⟨rfl, rfl, rfl, rfl⟩
  case setXNoNorm => exact ⟨rfl, rfl, rfl, rfl⟩
  case setY => exact ⟨rfl, rfl, rfl, rfl⟩
  case setYNoNorm => exact ⟨rfl, rfl, rfl, rfl⟩
  case setMoles => exact ⟨rfl, rfl, rfl, rfl⟩
  case setConc => simp only [setConc, setDensity]; split_ifs <;> exact ⟨rfl, rfl, rfl, rfl⟩
  case setConcNoNorm => simp only [setConcNoNorm, setDensity]; split_ifs <;> exact ⟨rfl, rfl, rfl, rfl⟩
  case setT => simp only [setT]; split_ifs <;> exact ⟨rfl, rfl, rfl, rfl⟩
  case setDensity => simp only [setDensity]; split_ifs <;> exact ⟨rfl, rfl, rfl, rfl⟩
  case setPressure => simp only [setPressure]; split_ifs <;> exact ⟨rfl, rfl, rfl, rfl⟩
  case restore s =>
    simp only [restore]
    split_ifs
    · exact ⟨rfl, rfl, rfl, rfl⟩
    · refine frame_andThen (frame_setT _ _) fun q => frame_andThen (frame_setDP _ _) fun q => ?_
      simp only [setComp]
      split <;> exact ⟨rfl, rfl, rfl, rfl⟩

theorem frame_run (os : List (Op n)) : ∀ p : Ph n, (run p os).W = p.W ∧ (run p os).rW = p.rW ∧
    (run p os).compressible = p.compressible ∧ (run p os).lay = p.lay := by
  induction os with
  | nil => exact fun p => ⟨rfl, rfl, rfl, rfl⟩
  | cons o os ih =>
    intro p
    obtain ⟨a, b, c, d⟩ := ih (step p o).1
    obtain ⟨a', b', c', d'⟩ := frame p o
    exact ⟨a.trans a', b.trans b', c.trans c', d.trans d'⟩

theorem normalised_step (p : Ph n) (hW : Weights p) (hN : Normalised p) (o : Op n)
    (h : Good p o) : Normalised (step p o).1 := by
  cases o <;> simp only [Good] at h
  case setX x => exact setX_normalised p x hW h
  case setY y => exact setY_normalised p y hW h
  case setMoles N => exact (setMoles_ok p N hW h.1 h.2).1
  case setConc c =>
    cases hc : p.compressible with
    | false => simp only [step, setConc, hc, if_true]; exact hN
    | true =>
      rcases h with h | h
      · rw [hc] at h; cases h
      · exact (setConc_ok p c hW hc h).2.2.1
  case setT t => simp only [step, setT]; split_ifs <;> exact hN
  case setDensity t => simp only [step, setDensity]; split_ifs <;> exact hN
  case setPressure t => simp only [step, setPressure]; split_ifs <;> exact hN

/-- C12 over histories: after any sequence of normalising calls (throwing calls included) the
composition is one normalised composition. -/
theorem normalised_run (os : List (Op n)) : ∀ p : Ph n, Weights p → Normalised p →
    (∀ o ∈ os, Good p o) → Normalised (run p os) := by
  induction os with
  | nil => exact fun p _ h _ => h
  | cons o os ih =>
    intro p hW hN hg
    obtain ⟨a, b, c, d⟩ := frame p o
    refine ih _ ?_ (normalised_step p hW hN o (hg o (by simp))) ?_
    · intro k; rw [a, b]; exact hW k
    · intro o' ho'
      have := hg o' (by simp [ho'])
      cases o' <;> simp only [Good, a, c] at this ⊢ <;> exact this

/-- A two-species phase, weights 2 and 4. -/
noncomputable def ex2 : Ph 2 :=
  ⟨![2, 4], ![1/2, 1/4], ![1, 0], ![1/2, 0], 2, 300, 1, true, .massY⟩

theorem ex2_weights : Weights ex2 := by
  intro k; fin_cases k <;> norm_num [ex2]

theorem ex2_normalised : Normalised ex2 := by
  refine ⟨fun k => ?_, ?_, ?_⟩
  · fin_cases k <;> norm_num [ex2]
  · norm_num [ex2, Fin.sum_univ_two]
  · norm_num [ex2, Fin.sum_univ_two]

example : getX (setX ex2 ![3, -1]) 0 = 1 := by
  rw [setX_getX _ _ ex2_weights]
  · norm_num [clip, Fin.sum_univ_two]
  · norm_num [clip, Fin.sum_univ_two]

example : Normalised (run ex2 [.setX ![1, 1], .setT (-1), .setConc ![-1, 2], .setY ![1, 2]]) := by
  refine normalised_run _ _ ex2_weights ex2_normalised fun o ho => ?_
  simp only [List.mem_cons, List.not_mem_nil, or_false] at ho
  rcases ho with rfl | rfl | rfl | rfl <;> norm_num [Good, clip, Fin.sum_univ_two]

/-- A call that throws can leave the composition fields in disagreement: `setConcentrations` with no
positive entry has already overwritten `m_y` and `m_mmw`. -/
theorem setConc_throw_changes :
    (setConc ex2 ![0, 0]).2 = true ∧ ¬ Normalised (setConc ex2 ![0, 0]).1 ∧
      getY (setConc ex2 ![0, 0]).1 ≠ getY ex2 := by
  have e : (setConc ex2 ![0, 0]) = ({ ex2 with
      y := clip ![0, 0]
      mmw := (∑ j, clip ![0, 0] j * ex2.W j) / ∑ j, clip ![0, 0] j }, true) := by
    simp [setConc, setDensity, ex2, clip, Fin.sum_univ_two]
  rw [e]
  refine ⟨rfl, fun h => ?_, fun h => ?_⟩
  · have := h.2.1
    norm_num [clip, Fin.sum_univ_two] at this
  · have := congrFun h 0
    norm_num [getY, clip, ex2] at this

/-! ### C13 -/

/-- Setting mole fractions, reading mass fractions and setting those gives the same phase. -/
theorem roundtrip_X (p : Ph n) (x : Fin n → ℝ) (hW : Weights p) (hs : 0 < ∑ k, clip x k) :
    getX (setY (setX p x) (getY (setX p x))) = getX (setX p x) ∧
      (setY (setX p x) (getY (setX p x))).mmw = (setX p x).mmw := by
  have hN := setX_normalised p x hW hs
  have hy : ∀ k, 0 ≤ getY (setX p x) k := fun k => by
    have hp := wsum_pos (fun k => (hW k).1) (clip_nonneg x) hs
    simp only [getY, setX, wsum_comm]
    exact mul_nonneg (mul_nonneg (clip_nonneg x k) (one_div_pos.2 hp).le) (hW k).1.le
  have hc := clip_of_nonneg hy
  have hsum : ∑ k, getY (setX p x) k = 1 := hN.2.1
  have hym : ∀ k, (setY (setX p x) (getY (setX p x))).ym k = (setX p x).ym k := fun k => by
    show clip _ k * (1 / ∑ j, clip _ j) * p.rW k = _
    rw [hc, hsum, hN.1 k, (hW k).2]
    show (setX p x).y k * (1 / 1) * (1 / p.W k) = (setX p x).y k / p.W k
    ring
  have hm : (setY (setX p x) (getY (setX p x))).mmw = (setX p x).mmw := by
    have : (setY (setX p x) (getY (setX p x))).mmw
        = 1 / ∑ k, (setY (setX p x) (getY (setX p x))).ym k := rfl
    rw [this, Finset.sum_congr rfl fun k _ => hym k]
    have h3 := hN.2.2
    have hne : ∑ k, (setX p x).ym k ≠ 0 := fun h => by rw [h, mul_zero] at h3; norm_num at h3
    field_simp; linarith
  refine ⟨?_, hm⟩
  funext k
  simp only [getX, hm, hym]

/-- ... and the other way round. -/
theorem roundtrip_Y (p : Ph n) (y : Fin n → ℝ) (hW : Weights p) (hs : 0 < ∑ k, clip y k) :
    getY (setX (setY p y) (getX (setY p y))) = getY (setY p y) ∧
      (setX (setY p y) (getX (setY p y))).mmw = (setY p y).mmw := by
  have hN := setY_normalised p y hW hs
  obtain ⟨s1, s2, s3, _⟩ := normalised_spec (setY p y) hW hN
  have hy : ∀ k, 0 ≤ getY (setY p y) k := fun k => ((setY_sum p y hs).1 k).1
  have hym : ∀ k, 0 ≤ (setY p y).ym k := fun k => by
    rw [hN.1 k]; exact div_nonneg (hy k) (hW k).1.le
  have h3 := hN.2.2
  have hsp : 0 ≤ ∑ k, (setY p y).ym k := Finset.sum_nonneg fun k _ => hym k
  have hmp : 0 < (setY p y).mmw := by
    by_contra h
    nlinarith [not_lt.1 h]
  have hx : ∀ k, 0 ≤ getX (setY p y) k := fun k => mul_nonneg hmp.le (hym k)
  have hc := clip_of_nonneg hx
  have e1 : ∑ j, p.W j * clip (getX (setY p y)) j = (setY p y).mmw := by
    rw [hc, wsum_comm]; exact s2.symm
  constructor
  · funext k
    show clip _ k * (1 / ∑ j, p.W j * clip _ j) * p.W k = _
    rw [e1, hc]
    have := s3 k
    have h' : getX (setY p y) k * p.W k = getY (setY p y) k * (setY p y).mmw := this.symm
    rw [mul_right_comm, h']
    field_simp
  · show (∑ j, p.W j * clip _ j) / ∑ j, clip _ j = _
    rw [e1, hc, s1, div_one]

/-- `moleFractionsToMassFractions` and `massFractionsToMoleFractions` are mutually inverse on
normalised compositions with non-zero mean weight; the outputs always sum to one. -/
theorem xToY_yToX (W x : Fin n → ℝ) (hW : ∀ k, 0 < W k) (hx : ∑ k, x k = 1)
    (hm : ∑ k, x k * W k ≠ 0) :
    ∃ y, xToY W x = .ok y ∧ ∑ k, y k = 1 ∧ yToX W y = .ok x := by
  refine ⟨fun k => x k * W k * (1 / ∑ j, x j * W j), by simp [xToY, hm], ?_, ?_⟩
  · rw [← Finset.sum_mul]; field_simp
  · have e : ∑ k, x k * W k * (1 / ∑ j, x j * W j) / W k = 1 / ∑ j, x j * W j := by
      have : ∀ k, x k * W k * (1 / ∑ j, x j * W j) / W k = x k * (1 / ∑ j, x j * W j) := fun k => by
        have := hW k
        field_simp
      rw [Finset.sum_congr rfl fun k _ => this k, ← Finset.sum_mul, hx, one_mul]
    have h0 : (1 / ∑ j, x j * W j) ≠ 0 := one_div_ne_zero hm
    simp only [yToX, e, h0, if_false, Outcome.ok.injEq]
    funext k
    have := hW k
    field_simp

theorem yToX_xToY (W y : Fin n → ℝ) (hW : ∀ k, 0 < W k) (hy : ∑ k, y k = 1)
    (hm : ∑ k, y k / W k ≠ 0) :
    ∃ x, yToX W y = .ok x ∧ ∑ k, x k = 1 ∧ xToY W x = .ok y := by
  have e0 : ∀ k, y k / ((∑ j, y j / W j) * W k) = (y k / W k) * (1 / ∑ j, y j / W j) := fun k => by
    have := hW k
    field_simp
  refine ⟨fun k => y k / ((∑ j, y j / W j) * W k), by simp [yToX, hm], ?_, ?_⟩
  · simp only [e0]; rw [← Finset.sum_mul]; field_simp
  · have e : ∑ k, y k / ((∑ j, y j / W j) * W k) * W k = 1 / ∑ j, y j / W j := by
      have : ∀ k, y k / ((∑ j, y j / W j) * W k) * W k = y k * (1 / ∑ j, y j / W j) := fun k => by
        have := hW k
        field_simp
      rw [Finset.sum_congr rfl fun k _ => this k, ← Finset.sum_mul, hy, one_mul]
    have h0 : (1 / ∑ j, y j / W j) ≠ 0 := one_div_ne_zero hm
    simp only [xToY, e, h0, if_false, Outcome.ok.injEq]
    funext k
    have := hW k
    field_simp

/-- The free conversion agrees with the phase: converting the mole fractions of a normalised phase
gives its mass fractions. -/
theorem xToY_phase (p : Ph n) (hW : Weights p) (hN : Normalised p) :
    xToY p.W (getX p) = .ok (getY p) ∧ yToX p.W (getY p) = .ok (getX p) := by
  obtain ⟨s1, s2, s3, _⟩ := normalised_spec p hW hN
  have h3 := hN.2.2
  have hne : p.mmw ≠ 0 := fun h => by rw [h, zero_mul] at h3; norm_num at h3
  have hym : ∑ k, getY p k / p.W k = 1 / p.mmw := by
    have : ∑ k, getY p k / p.W k = ∑ k, p.ym k := Finset.sum_congr rfl fun k _ => (hN.1 k).symm
    rw [this]; field_simp; linarith
  constructor
  · simp only [xToY, ← s2, hne, if_false, Outcome.ok.injEq]
    funext k
    rw [← s3 k]; field_simp
  · have h0 : (1 / p.mmw) ≠ 0 := one_div_ne_zero hne
    simp only [yToX, hym, h0, if_false, Outcome.ok.injEq]
    funext k
    have := (hW k).1
    have h4 : getX p k = getY p k * p.mmw / p.W k := by rw [s3 k]; field_simp
    rw [h4]; field_simp

example : ∃ y : Fin 2 → ℝ, xToY ![2, 4] ![1/2, 1/2] = .ok y ∧ ∑ k, y k = 1 ∧
    yToX ![2, 4] y = .ok ![1/2, 1/2] := by
  refine xToY_yToX _ _ (fun k => ?_) ?_ ?_
  · fin_cases k <;> norm_num
  · norm_num [Fin.sum_univ_two]
  · norm_num [Fin.sum_univ_two]

/-- On compositions that are not normalised the conversions are not inverse: they normalise. -/
theorem xToY_not_inverse : ∃ y : Fin 1 → ℝ, xToY ![2] ![3] = .ok y ∧ yToX ![2] y ≠ .ok ![3] := by
  refine ⟨![1], ?_, ?_⟩
  · simp only [xToY, Fin.sum_univ_one, Matrix.cons_val_fin_one]
    norm_num
    funext k; fin_cases k; norm_num
  · intro h
    simp only [yToX, Fin.sum_univ_one, Matrix.cons_val_fin_one] at h
    norm_num at h
    have := congrFun h 0
    norm_num at this

/-! ### C14 -/

theorem tail_save_Y (p : Ph n) (h : p.lay = .massY) : tail (save p) = p.y := by
  funext k
  simp [tail, save, h, getY, Nat.add_comm 2, List.getD_eq_getElem?_getD]

theorem tail_save_X (p : Ph n) (h : p.lay = .moleX) : tail (save p) = getX p := by
  funext k
  simp [tail, save, h, Nat.add_comm 2, List.getD_eq_getElem?_getD]

theorem length_save (p : Ph n) : (save p).length = stateSize p := by
  cases h : p.lay <;> simp [save, stateSize, h]

/-- What the saved composition needs to be restored: the part of the redundant data which is not
saved must agree with the part which is. -/
def Restorable (p : Ph n) : Prop :=
  0 < p.T ∧ (p.compressible = true → 0 < p.dp) ∧ Weights p ∧ (p.lay ≠ .pure → Normalised p)

theorem restore_save_frame (p q : Ph n) (h : Restorable p) (hW : q.W = p.W) (hr : q.rW = p.rW)
    (hc : q.compressible = p.compressible) (hl : q.lay = p.lay)
    (hpure : p.lay = .pure → q.y = p.y ∧ q.ym = p.ym ∧ q.mmw = p.mmw) :
    restore q (save p) = (p, false) := by
  obtain ⟨hT, hd, hw, hN⟩ := h
  have hlen : ¬ (save p).length < stateSize q := by
    rw [length_save]; simp [stateSize, hl]
  have h0 : (save p).getD 0 0 = p.T := by simp [save]
  have h1 : (save p).getD 1 0 = p.dp := by simp [save]
  have hset : setDP { q with T := p.T } p.dp =
      ({ q with
          T := p.T
          dp := p.dp }, false) := by
    cases hq : q.compressible with
    | false => simp [setDP, setPressure]
    | true => simp [setDP, setDensity, hd (hc ▸ hq)]
  simp only [restore, hlen, if_false, h0, h1, setT, hT, if_true, Bool.false_eq_true, hset, andThen]
  simp only [setComp]
  cases hp : p.lay with
  | pure =>
    obtain ⟨a, b, c⟩ := hpure hp
    have hlp := hl.trans hp
    simp only [hlp]
    simp only [hW, hr, hc, a, b, c, ← hp]
  | massY =>
    have hN' := hN (by rw [hp]; simp)
    have hlp := hl.trans hp
    simp only [hlp]
    obtain ⟨n1, n2, n3⟩ := hN'
    have e : ∀ k, p.y k * p.rW k = p.ym k := fun k => by rw [n1 k, (hw k).2]; ring
    have hne : ∑ k, p.ym k ≠ 0 := fun h => by rw [h, mul_zero] at n3; norm_num at n3
    have hm : 1 / ∑ k, p.ym k = p.mmw := by field_simp; linarith
    simp only [setYNoNorm, tail_save_Y p hp, hr, e, hm, hW, hc, ← hp]
  | moleX =>
    have hN' := hN (by rw [hp]; simp)
    have hlp := hl.trans hp
    simp only [hlp]
    obtain ⟨s1, s2, s3, _⟩ := normalised_spec p hw hN'
    obtain ⟨n1, n2, n3⟩ := hN'
    have hne : p.mmw ≠ 0 := fun h => by rw [h, zero_mul] at n3; norm_num at n3
    have e1 : ∀ k, getX p k * (1 / p.mmw) = p.ym k := fun k => by simp only [getX]; field_simp
    have e2 : ∀ k, p.ym k * p.W k = p.y k := fun k => by
      have := (hw k).1
      rw [n1]; field_simp
    simp only [setXNoNorm, tail_save_X p hp, hW, ← s2, e1, e2, hr, hc, ← hp]

/-- C14: after any calls, restoring the saved state gives back exactly the saved phase (phases with a
composition). -/
theorem restore_save (p : Ph n) (h : Restorable p) (hl : p.lay ≠ .pure) (os : List (Op n)) :
    restore (run p os) (save p) = (p, false) := by
  obtain ⟨a, b, c, d⟩ := frame_run os p
  exact restore_save_frame p _ h a b c d fun e => absurd e hl

/-- Pure phases: temperature and density (pressure) are restored. -/
theorem restore_save_pure (p : Ph n) (h : Restorable p) (hl : p.lay = .pure) (os : List (Op n)) :
    (restore (run p os) (save p)).2 = false ∧ (restore (run p os) (save p)).1.T = p.T ∧
      (restore (run p os) (save p)).1.dp = p.dp := by
  obtain ⟨a, b, c, d⟩ := frame_run os p
  have := restore_save_frame { p with
      y := (run p os).y
      ym := (run p os).ym
      mmw := (run p os).mmw } (run p os) ⟨h.1, h.2.1, h.2.2.1, fun e => absurd hl e⟩ a b c d
      (fun _ => ⟨rfl, rfl, rfl⟩)
  have e : save { p with
      y := (run p os).y
      ym := (run p os).ym
      mmw := (run p os).mmw } = save p := by simp [save, hl]
  rw [e] at this
  rw [this]
  exact ⟨rfl, rfl, rfl⟩

example : restore (run ex2 [.setX ![1, 5], .setT 7, .setConcNoNorm ![-1, 2], .restore [1]]) (save ex2) =
    (ex2, false) :=
  restore_save ex2 ⟨by norm_num [ex2], fun _ => by norm_num [ex2], ex2_weights,
    fun _ => ex2_normalised⟩ (by simp [ex2]) _

/-- A too short vector raises an error and changes nothing. -/
theorem restore_short (p : Ph n) (s : List ℝ) (h : s.length < stateSize p) :
    restore p s = (p, true) := by
  simp [restore, h]

example : restore ex2 [300, 1] = (ex2, true) := restore_short _ _ (by simp [stateSize, ex2])

/-- `restoreState` succeeds exactly for long enough vectors with positive temperature and (if
compressible) density. -/
theorem restore_ok_iff (p : Ph n) (s : List ℝ) :
    (restore p s).2 = false ↔ stateSize p ≤ s.length ∧ 0 < s.getD 0 0 ∧
      (p.compressible = true → 0 < s.getD 1 0) := by
  have hc : ∀ q : Ph n, (setComp q s).2 = false := fun q => by simp only [setComp]; split <;> rfl
  simp only [restore]
  generalize s.getD 0 0 = t
  generalize s.getD 1 0 = d
  by_cases h1 : s.length < stateSize p
  · simp [h1]
  have hl : stateSize p ≤ s.length := not_lt.1 h1
  by_cases h2 : 0 < t
  · cases hq : p.compressible with
    | false => simp [h1, setT, h2, andThen, setDP, setPressure, hc, hl, hq]
    | true =>
      by_cases h3 : 0 < d <;> simp [h1, setT, h2, andThen, setDP, hq, setDensity, h3, hc, hl]
  · simp [h1, setT, h2, andThen]

/-- A successful `restoreState` sets temperature, density (pressure) and composition from the vector;
entries beyond `stateSize()` are ignored. -/
theorem restore_massY (p : Ph n) (s : List ℝ) (h : (restore p s).2 = false) (hl : p.lay = .massY) :
    (restore p s).1 = setYNoNorm { p with
      T := s.getD 0 0
      dp := s.getD 1 0 } (tail s) := by
  obtain ⟨h1, h2, h3⟩ := (restore_ok_iff p s).1 h
  have h1' := not_lt.2 h1
  simp only [restore, h1', if_false, setT, h2, if_true, andThen, Bool.false_eq_true]
  cases hq : p.compressible with
  | false => simp [setDP, setPressure, setComp, hl, setYNoNorm]
  | true =>
    have h3' := h3 hq
    simp only [setDP, setDensity, h3', setComp, hl, setYNoNorm, if_true, Bool.true_eq_false,
      Bool.false_eq_true, if_false]

/-- When `restoreState` fails because of the density, the temperature has already been changed. -/
theorem restore_throw_changes : (restore ex2 [500, -1, 1, 0]).2 = true ∧
    (restore ex2 [500, -1, 1, 0]).1.T = 500 ∧ ex2.T = 300 := by
  have h : ¬ ([500, -1, 1, 0] : List ℝ).length < stateSize ex2 := by
    have : stateSize ex2 = 4 := rfl
    rw [this]; simp
  simp only [restore, h, if_false]
  norm_num [setT, andThen, setDP, setDensity, ex2]

/-- Without normalisation the round trip fails: a composition set with `setMoleFractions_NoNorm`
whose sum is not one is not restored (`m_mmw` is recomputed from the mass fractions). -/
theorem restore_not_normalised :
    ∃ p : Ph 2, Weights p ∧ 0 < p.T ∧ 0 < p.dp ∧ p = setXNoNorm ex2 ![1, 1] ∧
      getX p 0 = 1 ∧ (restore p (save p)).2 = false ∧ getX (restore p (save p)).1 0 = 1 / 2 := by
  have hok : (restore (setXNoNorm ex2 ![1, 1]) (save (setXNoNorm ex2 ![1, 1]))).2 = false := by
    rw [restore_ok_iff, length_save]
    exact ⟨le_rfl, by norm_num [save, setXNoNorm, ex2], fun _ => by norm_num [save, setXNoNorm, ex2]⟩
  refine ⟨setXNoNorm ex2 ![1, 1], ex2_weights, by norm_num [setXNoNorm, ex2],
    by norm_num [setXNoNorm, ex2], rfl, ?_, hok, ?_⟩
  · norm_num [getX, setXNoNorm, ex2, Fin.sum_univ_two]
  · have ht := tail_save_Y (setXNoNorm ex2 ![1, 1]) rfl
    rw [restore_massY _ _ hok rfl, ht]
    norm_num [getX, setYNoNorm, setXNoNorm, ex2, Fin.sum_univ_two]

/-- The pointer overload of `saveState` writes past a buffer shorter than `stateSize()`. -/
theorem saveRaw_ub (p : Ph n) (len : ℕ) : saveRaw p len = .ub ↔ len < stateSize p := by
  simp only [saveRaw]; split_ifs with h <;> simp [h]

end Verif.Comp
