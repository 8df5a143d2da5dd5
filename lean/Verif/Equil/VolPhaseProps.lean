import Verif.Equil.VolPhase
import Mathlib.Algebra.BigOperators.Ring.Finset
import Mathlib.Algebra.BigOperators.Field
import Mathlib.Algebra.Order.BigOperators.Group.Finset
import Mathlib.Tactic.Ring
import Mathlib.Tactic.FieldSimp
import Mathlib.Tactic.Positivity
import Mathlib.Tactic.Linarith
import Mathlib.Tactic.NormNum

/-!
# Properties of the phases of the multiphase equilibrium solver (C107)
-/

namespace Verif.VolPhase

open Finset

/-! ## setMoleFractions -/

theorem setX_keeps {x : ℕ → ℝ} {s : VP} (h : |(∑ k ∈ range s.n, x k) - 1| ≤ 1 / 10 ^ 13) :
    (setX x s).X = x ∧ (setX x s).tpX = x ∧ (setX x s).up = false ∧ (setX x s).status = 3 := by
  have e : -1 + ∑ k ∈ range s.n, x k = (∑ k ∈ range s.n, x k) - 1 := by ring
  unfold setX deps
  simp only
  rw [e, if_neg (not_lt.2 h)]
  simp

theorem setX_eq {x : ℕ → ℝ} {s : VP} (h : 1 / 10 ^ 13 < |(∑ k ∈ range s.n, x k) - 1|) :
    (setX x s).X = fun k => x k / ((∑ k ∈ range s.n, x k) - 1) := by
  have e : -1 + ∑ k ∈ range s.n, x k = (∑ k ∈ range s.n, x k) - 1 := by ring
  unfold setX deps
  simp only
  rw [e, if_pos h]

/-- Whenever the fractions are scaled at all, their sum afterwards is not one. -/
theorem setX_not_normal {x : ℕ → ℝ} {s : VP} (h : 1 / 10 ^ 13 < |(∑ k ∈ range s.n, x k) - 1|) :
    ∑ k ∈ range s.n, (setX x s).X k ≠ 1 := by
  rw [setX_eq h]
  simp only
  rw [← Finset.sum_div]
  have h0 : (∑ k ∈ range s.n, x k) - 1 ≠ 0 := by
    intro h1
    rw [h1, abs_zero] at h
    norm_num at h
  rw [Ne, div_eq_one_iff_eq h0]
  intro h1
  linarith

/-- Fractions with a sum below one become negative. -/
theorem setX_negative {x : ℕ → ℝ} {s : VP} (h : ∑ k ∈ range s.n, x k < 1 - 1 / 10 ^ 13) {k : ℕ} (hk : 0 < x k) :
    (setX x s).X k < 0 := by
  have : 1 / 10 ^ 13 < |(∑ k ∈ range s.n, x k) - 1| := by
    rw [abs_of_neg (by linarith [show (0 : ℝ) < 1 / 10 ^ 13 by positivity])]
    linarith
  rw [setX_eq this]
  exact div_neg_of_pos_of_neg hk (by linarith [show (0 : ℝ) < 1 / 10 ^ 13 by positivity])

/-! ## setMoleFractionsState -/

theorem setFrac_ok_iff {tot : ℝ} {x : ℕ → ℝ} {st : ℤ} {s : VP} : (setFrac tot x st s).2 = true ↔
    (tot = 0 ∨ (st = 3 ∧ s.ex ≠ -6)) ∧ (s.inert ≤ 0 ∨ s.inert ≤ tot) ∧ ∑ k ∈ range s.n, x k ≠ 0 := by
  unfold setFrac
  by_cases h1 : tot ≠ 0 ∧ st ≠ TMP
  · rw [if_pos h1]
    simp only [Bool.false_eq_true, false_iff]
    rintro ⟨h | ⟨h, _⟩, _⟩
    · exact h1.1 h
    · exact h1.2 h
  rw [if_neg h1]
  by_cases h2 : tot ≠ 0 ∧ s.ex = ZEROED
  · rw [if_pos h2]
    simp only [Bool.false_eq_true, false_iff]
    rintro ⟨h | ⟨_, h⟩, _⟩
    · exact h2.1 h
    · exact h h2.2
  rw [if_neg h2]
  simp only
  by_cases h3 : s.inert > 0 ∧ s.inert > tot
  · rw [if_pos h3]
    simp only [Bool.false_eq_true, false_iff]
    rintro ⟨_, h | h, _⟩
    · linarith [h3.1]
    · linarith [h3.2]
  rw [if_neg h3]
  by_cases h4 : ∑ k ∈ range s.n, x k = 0
  · rw [if_pos h4]
    simp only [Bool.false_eq_true, false_iff]
    rintro ⟨_, _, h⟩
    exact h h4
  rw [if_neg h4]
  simp only [true_iff]
  refine ⟨?_, ?_, h4⟩
  · by_cases h0 : tot = 0
    · exact Or.inl h0
    · right
      constructor
      · by_contra hc
        exact h1 ⟨h0, hc⟩
      · intro hc
        exact h2 ⟨h0, hc⟩
  · by_contra hc
    push Not at hc
    exact h3 hc

/-- The fractions are those given up to a factor, and the species hold all moles that are not inert. -/
theorem setFrac_sum {tot : ℝ} {x : ℕ → ℝ} {st : ℤ} {s : VP} (h : (setFrac tot x st s).2 = true) (hi : 0 ≤ s.inert)
    (ht : 0 < tot ∨ s.inert = 0) : (setFrac tot x st s).1.total = tot ∧
      tot * ∑ k ∈ range s.n, (setFrac tot x st s).1.X k = tot - s.inert ∧
      (∃ c, ∀ k, (setFrac tot x st s).1.X k = c * x k) ∧ (setFrac tot x st s).1.tpX = (setFrac tot x st s).1.X := by
  have hok := setFrac_ok_iff.1 h
  obtain ⟨o1, o2, o3⟩ := hok
  have n1 : ¬(tot ≠ 0 ∧ st ≠ TMP) := by
    rintro ⟨a, b⟩
    rcases o1 with h | ⟨h, _⟩
    · exact a h
    · exact b h
  have n2 : ¬(tot ≠ 0 ∧ s.ex = ZEROED) := by
    rintro ⟨a, b⟩
    rcases o1 with h | ⟨_, h⟩
    · exact a h
    · exact h b
  have n3 : ¬(s.inert > 0 ∧ s.inert > tot) := by
    rintro ⟨a, b⟩
    rcases o2 with h | h <;> linarith
  have hf : tot * (if s.inert > 0 then 1 - s.inert / tot else 1) = tot - s.inert := by
    split_ifs with hp
    · rcases ht with h | h
      · field_simp
      · linarith
    · have : s.inert = 0 := le_antisymm (not_lt.1 hp) hi
      rw [this]
      ring
  unfold setFrac
  simp only
  rw [if_neg n1, if_neg n2, if_neg n3, if_neg o3]
  generalize (if s.inert > 0 then 1 - s.inert / tot else 1) = f at hf
  simp only [deps]
  refine ⟨trivial, ?_, ?_, trivial⟩
  · split_ifs with hs
    · rw [← sum_mul, mul_div_cancel₀ _ o3]
      exact hf
    · rw [not_not.1 hs]
      exact hf
  · split_ifs with hs
    · exact ⟨f / ∑ k ∈ range s.n, x k, fun k => mul_comm _ _⟩
    · exact ⟨1, fun k => (one_mul _).symm⟩

/-- Phases with inert moles cannot be set to zero moles: the call throws after it has stored the zero. -/
theorem setFrac_inert {x : ℕ → ℝ} {st : ℤ} {s : VP} (hi : 0 < s.inert) :
    (setFrac 0 x st s).2 = false ∧ (setFrac 0 x st s).1.total = 0 ∧ (setFrac 0 x st s).1.up = true := by
  unfold setFrac
  simp only
  rw [if_neg (by simp), if_neg (by simp), if_pos ⟨hi, hi⟩, if_neg (by simp)]
  simp

/-! ## setMolesFromVCS -/

theorem setMoles_total (st : ℤ) (mol : ℕ → ℝ) (s : VP) : (setMoles st mol s).total =
    s.inert + ∑ k ∈ range s.n, (if s.volt k then 0 else max 0 (mol (s.ind k))) ∧
    (setMoles st mol s).up = true ∧ (setMoles st mol s).status = st := by
  exact ⟨rfl, rfl, rfl⟩

theorem molesOf_nonneg (mol : ℕ → ℝ) (s : VP) : 0 ≤ molesOf mol s := by
  unfold molesOf
  apply sum_nonneg
  intro k _
  split_ifs
  · exact le_rfl
  · exact le_max_left _ _

/-- Without a voltage unknown: fractions times total moles are the moles of the species. -/
theorem setMoles_X {st : ℤ} {mol : ℕ → ℝ} {s : VP} (hq : s.phiIdx = none) (hp : 0 < (setMoles st mol s).total) {k : ℕ}
    (hk : k < s.n) (hv : s.volt k = false) :
    (setMoles st mol s).X k * (setMoles st mol s).total = max 0 (mol (s.ind k)) := by
  have hp' : s.inert + molesOf mol s > 0 := hp
  show molesX mol s k * (s.inert + molesOf mol s) = _
  unfold molesX
  rw [hq, if_pos hp']
  simp only
  rw [if_pos ⟨hk, hv⟩, div_mul_cancel₀ _ hp'.ne']

/-- The species and the inert moles make up the phase. -/
theorem setMoles_sum {st : ℤ} {mol : ℕ → ℝ} {s : VP} (hq : s.phiIdx = none) (hp : 0 < (setMoles st mol s).total)
    (hv : ∀ k < s.n, s.volt k = false) :
    (∑ k ∈ range s.n, (setMoles st mol s).X k) = 1 - s.inert / (setMoles st mol s).total := by
  have ht := (setMoles_total st mol s).1
  have e : ∀ k ∈ range s.n, (setMoles st mol s).X k * (setMoles st mol s).total =
      if s.volt k then 0 else max 0 (mol (s.ind k)) := by
    intro k hk
    have hk := mem_range.1 hk
    rw [setMoles_X hq hp hk (hv k hk), hv k hk]
    simp
  have h2 : (∑ k ∈ range s.n, (setMoles st mol s).X k) * (setMoles st mol s).total =
      (setMoles st mol s).total - s.inert := by
    rw [sum_mul, sum_congr rfl e]
    linarith
  rw [eq_sub_iff_add_eq, ← mul_left_inj' hp.ne', add_mul, h2, div_mul_cancel₀ _ hp.ne']
  ring

/-- Existence after the call, without a voltage unknown. -/
theorem setMoles_exists {st : ℤ} {mol : ℕ → ℝ} {s : VP} (hq : s.phiIdx = none) : (setMoles st mol s).ex =
    if 0 < s.inert then 3 else if 0 < (setMoles st mol s).total then 2 else 0 := by
  show (if s.inert > 0 then ALWAYS
      else if s.phiIdx.isSome = true ∧ s.n = 1 then YES
      else if s.inert + molesOf mol s > 0 then YES else NO) =
    if 0 < s.inert then 3 else if 0 < s.inert + molesOf mol s then 2 else 0
  rw [hq]
  simp

/-- A phase without moles keeps its mole fractions. -/
theorem setMoles_zero {st : ℤ} {mol : ℕ → ℝ} {s : VP} (hq : s.phiIdx = none) (hi : s.inert = 0)
    (hm : ∀ k < s.n, mol (s.ind k) ≤ 0) : (setMoles st mol s).total = 0 ∧ (setMoles st mol s).X = s.X ∧
      (setMoles st mol s).creation = s.creation := by
  have h0 : molesOf mol s = 0 := by
    unfold molesOf
    apply sum_eq_zero
    intro k hk
    rw [max_eq_left (hm k (mem_range.1 hk))]
    simp
  have e : (setMoles st mol s).total = 0 := by
    have : (setMoles st mol s).total = s.inert + molesOf mol s := (setMoles_total st mol s).1
    rw [this, hi, h0, add_zero]
  have hn : ¬(s.inert + molesOf mol s > 0) := by
    rw [hi, h0]
    norm_num
  refine ⟨e, ?_, ?_⟩
  · show molesX mol s = s.X
    unfold molesX
    simp only
    rw [hq, if_neg hn]
  · show (if st = OLD ∧ s.inert + molesOf mol s > 0 then molesX mol s else s.creation) = s.creation
    rw [if_neg (fun h => hn h.2)]

/-- The species that stands for the potential: its number is the potential, its fraction is 0 or 1. -/
theorem setMoles_voltage {st : ℤ} {mol : ℕ → ℝ} {s : VP} {q : ℕ} (hq : s.phiIdx = some q) :
    (setMoles st mol s).phi = mol (s.ind q) ∧ (setMoles st mol s).X q = (if s.n = 1 then 1 else 0) ∧
    (setMoles st mol s).uGS = false ∧ (s.n = 1 → s.inert ≤ 0 → (setMoles st mol s).ex = 2) := by
  refine ⟨?_, ?_, ?_, ?_⟩
  · unfold setMoles
    simp [hq]
  · show molesX mol s q = _
    unfold molesX
    rw [hq]
    simp
  · unfold setMoles
    simp [hq]
  · intro hn hi
    unfold setMoles
    simp [hq, hn, not_lt.2 hi]

theorem doubleEqual_iff (a b : ℝ) : doubleEqual a b = true ↔ |a - b| ≤ 1 / 10 ^ 10 * (|a| + |b| + 1) := by
  have : 0 < |a| + |b| + 1 := by positivity
  unfold doubleEqual
  split_ifs with h
  · rw [gt_iff_lt, lt_div_iff₀ this] at h
    simp only [Bool.false_eq_true, false_iff, not_le]
    exact h
  · rw [gt_iff_lt, lt_div_iff₀ this] at h
    simp only [true_iff]
    exact not_lt.1 h

theorem doubleEqual_symm (a b : ℝ) : doubleEqual a b = doubleEqual b a := by
  unfold doubleEqual
  rw [abs_sub_comm, add_comm |a| |b|]

theorem setMolesCheck_iff {st : ℤ} {mol : ℕ → ℝ} {tp : ℝ} {s : VP} : (setMolesCheck st mol tp s).2 = true ↔
    |tp - (setMoles st mol s).total| ≤ 1 / 10 ^ 10 * (|tp| + |(setMoles st mol s).total| + 1) := by
  unfold setMolesCheck
  simp only
  split_ifs with h
  · exact doubleEqual_iff _ _
  · rw [not_not.1 h, sub_self, abs_zero]
    simp only [true_iff]
    positivity

/-! ## Volume -/

/-- The volume computed: the partial molar volumes times the moles, and the ideal gas volume of inert moles. -/
theorem updPM_vol (R : ℝ) (tp : TP) (s : VP) (h : s.inert ≤ 0 ∨ s.gas = true) : (updPM R tp s).2 = true ∧
    (updPM R tp s).1.uPM = true ∧ (updPM R tp s).1.vol =
      (∑ k ∈ range s.n, tp.pmVol s.T s.P s.tpX k * (s.X k * s.total)) +
        (if 0 < s.inert then s.inert * R * s.T / s.P else 0) := by
  have e : (∑ k ∈ range s.n, tp.pmVol s.T s.P s.tpX k * s.X k) * s.total =
      ∑ k ∈ range s.n, tp.pmVol s.T s.P s.tpX k * (s.X k * s.total) := by
    rw [sum_mul]
    exact sum_congr rfl (fun k _ => by ring)
  unfold updPM
  simp only
  rw [e]
  by_cases hi : s.inert > 0
  · have hg : s.gas = true := by
      rcases h with h | h
      · linarith
      · exact h
    rw [if_pos hi, if_pos hg, if_pos hi]
    exact ⟨rfl, rfl, rfl⟩
  · rw [if_neg hi, if_neg hi]
    exact ⟨rfl, rfl, (add_zero _).symm⟩

theorem updPM_throw (R : ℝ) (tp : TP) {s : VP} : (updPM R tp s).2 = false ↔ 0 < s.inert ∧ s.gas = false := by
  unfold updPM
  simp only
  split_ifs with h1 h2
  · simp [h2]
  · simp only [true_iff]
    exact ⟨h1, by simpa using h2⟩
  · simp only [Bool.true_eq_false, false_iff]
    rintro ⟨a, _⟩
    exact h1 a

theorem setMoles_flags {st : ℤ} {mol : ℕ → ℝ} {s : VP} (hq : s.phiIdx = none) :
    (setMoles st mol s).uPM = (s.uPM && s.ideal) ∧ (setMoles st mol s).uAC = (s.uAC && s.ideal) ∧
    (setMoles st mol s).vol = s.vol := by
  unfold setMoles
  simp [hq]

/-- Solutions that are not ideal: the volume is computed anew after the mole numbers have changed. -/
theorem volume_fresh {st : ℤ} {mol : ℕ → ℝ} {s : VP} (hq : s.phiIdx = none) (hi : s.ideal = false) :
    (setMoles st mol s).uPM = false := by
  rw [(setMoles_flags hq).1, hi, Bool.and_false]

/-- Ideal solutions: once a volume has been computed it is returned for any later mole numbers. -/
theorem volume_stale (R : ℝ) (tp : TP) (st : ℤ) (mol : ℕ → ℝ) {s : VP} (hq : s.phiIdx = none) (hi : s.ideal = true)
    (hu : s.uPM = true) : (sendVol R tp (setMoles st mol s)).2 = some s.vol := by
  have h := setMoles_flags (st := st) (mol := mol) hq
  unfold sendVol
  rw [h.1, hu, hi]
  simp [h.2.2]

/-! ## Temperature, potential and phase -/

theorem setTP_eq (T P : ℝ) (s : VP) : (setTP T P s).T = T ∧ (setTP T P s).P = P ∧
    ((s.T ≠ T ∨ s.P ≠ P) → (setTP T P s).uGS = false ∧ (setTP T P s).uPM = false ∧ (setTP T P s).uAC = false) := by
  unfold setTP
  split_ifs with h
  · refine ⟨h.1, h.2, ?_⟩
    rintro (h1 | h1)
    · exact absurd h.1 h1
    · exact absurd h.2 h1
  · exact ⟨rfl, rfl, fun _ => ⟨rfl, rfl, rfl⟩⟩

/-- After a change of temperature or pressure standard potentials are those of the new state. -/
theorem gstar_fresh {T P : ℝ} {s : VP} (h : s.T ≠ T ∨ s.P ≠ P) (tp : TP) (k : ℕ) :
    (gstar tp k (setTP T P s)).2 = tp.gstar T P k := by
  obtain ⟨a, b, c⟩ := setTP_eq T P s
  unfold gstar
  rw [(c h).1, a, b]
  simp

/-- A new phase object does not make cached potentials out of date, whatever its temperature. -/
theorem setPtr_stale {T P phi : ℝ} {X : ℕ → ℝ} {ideal : Bool} {s : VP} (hu : s.uGS = true) (tp : TP) (k : ℕ) :
    (gstar tp k (setPtr T P phi X ideal s)).2 = s.gs k := by
  unfold setPtr setTP
  simp only [and_self, if_true, deps]
  unfold gstar
  simp [hu]

/-! ## Derivatives of the activity coefficients -/

/-- Ordinary phases: the derivative by moles times total moles, and the state stays. -/
theorem jac_ok {tp : TP} {s : VP} (ht : 1 / 10 ^ 14 ≤ s.total) (hs : |(∑ k ∈ range s.n, s.X k) - 1| ≤ 1 / 10 ^ 13) :
    (jacState tp s).X = s.X ∧ (jacState tp s).total = s.total ∧
    ∀ k j, 1 / 10 ^ 200 ≤ s.total * s.X j → jacMat tp s k j = tp.dln s.T s.P s.tpX k j / s.X j := by
  have e : jacMoles s = s.total := by
    unfold jacMoles
    rw [if_neg (not_lt.2 ht)]
  refine ⟨?_, ?_, ?_⟩
  · show (setX s.X { s with total := jacMoles s }).X = s.X
    exact (setX_keeps (s := { s with total := jacMoles s }) hs).1
  · show jacMoles s = s.total
    exact e
  · intro k j hj
    have hp : 0 < s.total := lt_of_lt_of_le (by positivity) ht
    unfold jacMat
    simp only
    rw [e, if_neg (not_lt.2 hj), mul_comm s.total (s.X j), mul_div_mul_right _ _ hp.ne']

/-- A phase without moles has one mole afterwards. -/
theorem jac_creates_moles (tp : TP) {s : VP} (ht : s.total = 0) : (jacState tp s).total = 1 := by
  show jacMoles s = 1
  unfold jacMoles
  rw [ht, if_pos (by positivity)]

/-- In a phase with inert moles the mole fractions are negative afterwards. -/
theorem jac_inert (tp : TP) {st : ℤ} {mol : ℕ → ℝ} {s : VP} (hq : s.phiIdx = none) (hv : ∀ k < s.n, s.volt k = false)
    (hp : 0 < (setMoles st mol s).total) (hi : 1 / 10 ^ 13 * (setMoles st mol s).total < s.inert) {k : ℕ} (hk : k < s.n)
    (hm : 0 < mol (s.ind k)) (hn : (setMoles st mol s).n = s.n) : (jacState tp (setMoles st mol s)).X k < 0 := by
  have hs := setMoles_sum (st := st) (mol := mol) hq hp hv
  have hx := setMoles_X (st := st) (mol := mol) hq hp hk (hv k hk)
  rw [max_eq_right hm.le] at hx
  have hx0 : 0 < (setMoles st mol s).X k := by
    by_contra hc
    push Not at hc
    nlinarith
  show (setX (setMoles st mol s).X { setMoles st mol s with total := jacMoles (setMoles st mol s) }).X k < 0
  apply setX_negative _ hx0
  show ∑ k ∈ range (setMoles st mol s).n, (setMoles st mol s).X k < 1 - 1 / 10 ^ 13
  rw [hn, hs]
  have : 1 / 10 ^ 13 < s.inert / (setMoles st mol s).total := by
    rw [lt_div_iff₀ hp]
    exact hi
  linarith

theorem setMoles_n (st : ℤ) (mol : ℕ → ℝ) (s : VP) : (setMoles st mol s).n = s.n := rfl

/-! ## Existence -/

theorem setTotal_eq (t : ℝ) (s : VP) : (setTotal t s).1.total = t ∧
    (setTotal t s).1.ex = (if 0 < s.inert ∨ (s.single = true ∧ s.phiIdx = some 0) then 3 else if 0 < t then 2 else 0) ∧
    ((setTotal t s).2 = false ↔ 0 < s.inert ∧ t < s.inert) := by
  unfold setTotal
  by_cases h1 : s.inert > 0
  · rw [if_pos h1, if_pos (Or.inl h1)]
    refine ⟨rfl, rfl, ?_⟩
    simp [h1]
  · rw [if_neg h1]
    by_cases h2 : s.single = true ∧ s.phiIdx = some 0
    · rw [if_pos h2, if_pos (Or.inr h2)]
      refine ⟨rfl, rfl, ?_⟩
      simp [h1]
    · rw [if_neg h2, if_neg (not_or.2 ⟨h1, h2⟩)]
      refine ⟨rfl, rfl, ?_⟩
      simp [h1]

/-- A phase may be declared absent only without moles, present only with moles, inert moles or as electron phase. -/
theorem setExistence_ok {e : ℤ} {s : VP} : (∃ t, setExistence e s = .ok t) ↔
    if e = 0 ∨ e = -6 then s.total = 0 ∧ ¬(s.single = true ∧ s.phiIdx = some 0)
    else s.inert ≠ 0 ∨ s.total ≠ 0 ∨ (s.single = true ∧ s.phiIdx = some 0) := by
  unfold setExistence
  by_cases he : e = 0 ∨ e = -6
  · rw [if_pos he]
    by_cases ht : s.total = 0
    · rw [if_neg (fun h => h.2 ht), if_neg (fun h => h.1 he)]
      by_cases h3 : s.single = true ∧ s.phiIdx = some 0
      · rw [if_pos ⟨h3.1, h3.2, he⟩]
        simp [h3.1, h3.2]
      · rw [if_neg (fun h => h3 ⟨h.1, h.2.1⟩)]
        simp only [Outcome.ok.injEq, exists_eq', true_iff]
        exact ⟨ht, h3⟩
    · rw [if_pos ⟨he, ht⟩]
      simp [ht]
  · rw [if_neg he, if_neg (fun h => he h.1)]
    by_cases h2 : s.inert = 0 ∧ s.total = 0 ∧ (s.single = false ∨ s.phiIdx ≠ some 0)
    · rw [if_pos ⟨he, h2⟩]
      simp only [reduceCtorEq, exists_false, false_iff]
      rintro (h | h | ⟨h, h'⟩)
      · exact h h2.1
      · exact h h2.2.1
      · rcases h2.2.2 with q | q
        · rw [h] at q
          cases q
        · exact q h'
    · rw [if_neg (fun h => h2 h.2), if_neg (fun h => he h.2.2)]
      simp only [Outcome.ok.injEq, exists_eq', true_iff]
      by_contra hc
      push Not at hc
      apply h2
      refine ⟨hc.1, hc.2.1, ?_⟩
      by_cases hs : s.single = true
      · exact Or.inr (hc.2.2 hs)
      · exact Or.inl (by simpa using hs)

theorem setInert_eq (m : ℝ) (s : VP) : (setInert m s).inert = m ∧ (setInert m s).total = s.total + (m - s.inert) ∧
    (setInert m s).X = s.X ∧
    (setInert m s).ex = (if 0 < m ∨ (s.single = true ∧ s.phiIdx = some 0) then 3 else
      if 0 < s.total + (m - s.inert) then 2 else 0) := by
  have ht : (if s.inert ≠ m then s.total + (m - s.inert) else s.total) = s.total + (m - s.inert) := by
    split_ifs with h
    · rfl
    · rw [not_not.1 h]
      ring
  refine ⟨rfl, ht, rfl, ?_⟩
  show (if m > 0 then ALWAYS else if s.single = true ∧ s.phiIdx = some 0 then ALWAYS
      else if (if s.inert ≠ m then s.total + (m - s.inert) else s.total) > 0 then YES else NO) = _
  rw [ht]
  by_cases h1 : m > 0
  · rw [if_pos h1, if_pos (Or.inl h1)]
  · rw [if_neg h1]
    by_cases h2 : s.single = true ∧ s.phiIdx = some 0
    · rw [if_pos h2, if_pos (Or.inr h2)]
    · rw [if_neg h2, if_neg (not_or.2 ⟨h1, h2⟩)]

/-! ## Elements -/

/-- The charge neutrality constraint and the element `E` are opposite, and the latter is switched off. -/
theorem transfer_charge {a : Elems} {e : ℕ} (he : a.iE = some e) (hl : e < a.ne) (hc : ∃ k < a.ns, a.charge k ≠ 0)
    (hn : a.need = true) : ∃ M act, transfer a = .ok (a.ne + 1, M, act) ∧ (∀ k, M k a.ne = a.charge k) ∧
      (∀ k, M k e = -a.charge k) ∧ (∀ k i, i < a.ne → i ≠ e → M k i = a.atoms k i) ∧ act e = false ∧
      ∀ i ≠ e, act i = true := by
  have h1 : charged a = true := by
    unfold charged
    obtain ⟨k, hk, hk'⟩ := hc
    rw [List.any_eq_true]
    exact ⟨k, List.mem_range.2 hk, by simpa using hk'⟩
  have h2 : neutral a = true := by
    unfold neutral
    rw [hn, h1]
    rfl
  unfold transfer
  simp only
  rw [h1, if_pos rfl, he, h2]
  refine ⟨_, _, rfl, ?_, ?_, ?_, ?_, ?_⟩
  · intro k
    simp
  · intro k
    simp [hl.ne]
  · intro k i hi hie
    simp [hi.ne, hie, hi]
  · simp
  · intro i hi
    simp [hi]

theorem transfer_neutral {a : Elems} (hc : ∀ k < a.ns, a.charge k = 0) : ∃ M act, transfer a = .ok (a.ne, M, act) ∧
    (∀ k i, i < a.ne → M k i = a.atoms k i) ∧ ∀ i, act i = true := by
  have h1 : charged a = false := by
    unfold charged
    rw [List.any_eq_false]
    intro k hk
    simpa using hc k (List.mem_range.1 hk)
  have h2 : neutral a = false := by
    unfold neutral
    rw [h1, Bool.and_false]
  unfold transfer
  simp only
  rw [h1, h2]
  refine ⟨_, _, rfl, ?_, fun _ => rfl⟩
  intro k i hi
  simp [hi]

/-- Ions but no element `E`: memory behind the arrays is written. -/
theorem transfer_ub {a : Elems} (he : a.iE = none) (hc : ∃ k < a.ns, a.charge k ≠ 0) : transfer a = .ub := by
  have h1 : charged a = true := by
    unfold charged
    obtain ⟨k, hk, hk'⟩ := hc
    rw [List.any_eq_true]
    exact ⟨k, List.mem_range.2 hk, by simpa using hk'⟩
  unfold transfer
  simp only
  rw [h1, he]
  rfl

/-! ## The assumptions can be met -/

/-- A phase of two species, with one mole of inert gas. -/
noncomputable def sample : VP where
  n := 2
  X := fun _ => 1 / 2
  total := 1
  inert := 1
  ex := 3
  single := false
  phiIdx := none
  phi := 0
  ind := id
  volt := fun _ => false
  ideal := true
  gas := true
  T := 300
  P := 100000
  tpX := fun _ => 1 / 2
  creation := fun _ => 1 / 2
  up := true
  status := 0
  uAC := true
  uPM := true
  uGS := true
  ac := fun _ => 1
  pm := fun _ => 1
  gs := fun _ => 7
  vol := 5

theorem sample_total : (setMoles 0 (fun _ => 1) sample).total = 3 := by
  rw [(setMoles_total _ _ _).1]
  simp [sample]
  norm_num

example (tp : TP) : (jacState tp (setMoles 0 (fun _ => 1) sample)).X 0 < 0 :=
  jac_inert tp (s := sample) rfl (fun _ _ => rfl) (by rw [sample_total]; norm_num) (by
    rw [sample_total]
    show _ < (1 : ℝ)
    norm_num) (k := 0) (by show 0 < 2; norm_num) (by norm_num) (setMoles_n _ _ _)

example (R : ℝ) (tp : TP) : (sendVol R tp (setMoles 0 (fun _ => 1) sample)).2 = some 5 :=
  volume_stale R tp 0 _ (s := sample) rfl rfl rfl

example (tp : TP) : (gstar tp 0 (setPtr 1000 100000 0 (fun _ => 1 / 2) true sample)).2 = 7 :=
  setPtr_stale (s := sample) rfl tp 0

example : (setX (fun _ => 1 / 4) sample).X 0 = -(1 / 2) := by
  have : ∑ k ∈ range sample.n, (1 / 4 : ℝ) = 1 / 2 := by
    show ∑ k ∈ range 2, (1 / 4 : ℝ) = 1 / 2
    simp
    norm_num
  rw [setX_eq (by rw [this]; norm_num [abs_of_neg])]
  simp only
  rw [this]
  norm_num

example : (setFrac 2 (fun _ => 1) 3 sample).2 = true := by
  rw [setFrac_ok_iff]
  refine ⟨Or.inr ⟨rfl, by norm_num [sample]⟩, Or.inr (by norm_num [sample]), ?_⟩
  show ∑ k ∈ range 2, (1 : ℝ) ≠ 0
  simp

/-! ## Flags of the cached values -/

/-- New mole fractions invalidate activity coefficients and partial molar volumes unless the solution is ideal; the
standard state potentials stay valid. -/
theorem setX_flags (x : ℕ → ℝ) (s : VP) : (setX x s).uAC = (s.uAC && s.ideal) ∧ (setX x s).uPM = (s.uPM && s.ideal) ∧
    (setX x s).uGS = s.uGS ∧ (setX x s).up = false ∧ (setX x s).status = 3 ∧ (setX x s).tpX = (setX x s).X :=
  ⟨rfl, rfl, rfl, rfl, rfl, rfl⟩

theorem setFrac_flags {tot : ℝ} {x : ℕ → ℝ} {st : ℤ} {s : VP} (h : (setFrac tot x st s).2 = true) :
    (setFrac tot x st s).1.uAC = (s.uAC && s.ideal) ∧ (setFrac tot x st s).1.uPM = (s.uPM && s.ideal) ∧
    (setFrac tot x st s).1.total = tot ∧ ((setFrac tot x st s).1.up = true ↔ tot = 0) := by
  unfold setFrac at h ⊢
  by_cases ht : tot = 0
  · simp only [ht, ne_eq, not_true_eq_false, false_and, if_false] at h ⊢
    split_ifs at h ⊢ <;> simp_all [deps]
  · simp only [ht, ne_eq, not_false_eq_true, true_and, if_true] at h ⊢
    split_ifs at h ⊢ <;> simp_all [deps]

/-- A new potential invalidates everything that is cached. -/
theorem setPhi_eq (phi : ℝ) (s : VP) : (setPhi phi s).phi = phi ∧ (setPhi phi s).uAC = false ∧
    (setPhi phi s).uPM = false ∧ (setPhi phi s).uGS = false := ⟨rfl, rfl, rfl, rfl⟩

/-- Activity coefficients come from the phase at its own state; those of an ideal solution stay. -/
theorem updAC_eq (tp : TP) (s : VP) : (updAC tp s).uAC = true ∧ (s.ideal = true → (updAC tp s).ac = s.ac) ∧
    (s.ideal = false → (updAC tp s).ac = tp.ac s.T s.P s.tpX) := by
  refine ⟨rfl, fun h => ?_, fun h => ?_⟩ <;> simp [updAC, h]

example : (setX (fun _ => 1 / 2) { sample with ideal := false }).uPM = false := by
  rw [(setX_flags _ _).2.1]
  rfl

end Verif.VolPhase
