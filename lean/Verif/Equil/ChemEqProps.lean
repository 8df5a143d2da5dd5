import Verif.Equil.ChemEq
import Mathlib.Tactic.Linarith
import Mathlib.Tactic.NormNum
import Mathlib.Tactic.Positivity
import Mathlib.Tactic.FieldSimp
import Mathlib.Tactic.Ring
import Mathlib.Algebra.BigOperators.Field
import Mathlib.Algebra.BigOperators.Ring.Finset
import Mathlib.Algebra.Order.BigOperators.Group.Finset

/-!
# Properties of the element potential solver (C108)
-/

namespace Verif.ChemEq

open Finset

/-! ## Property pairs -/

/-- Exactly six pairs are accepted, in one order only. -/
theorem pair_ok_iff (s : String) : (∃ r, (flag s).bind pair = some r) ↔
    s = "TP" ∨ s = "TV" ∨ s = "HP" ∨ s = "UV" ∨ s = "SP" ∨ s = "SV" := by
  unfold flag
  split_ifs with h1 h2 h3 h4 h5 h6 h7 <;> simp_all [pair]

theorem pair_values : (flag "TP").bind pair = some (.T, .P, true) ∧ (flag "TV").bind pair = some (.T, .D, true) ∧
    (flag "HP").bind pair = some (.H, .P, false) ∧ (flag "UV").bind pair = some (.U, .D, false) ∧
    (flag "SP").bind pair = some (.S, .P, false) ∧ (flag "SV").bind pair = some (.S, .D, false) := by
  refine ⟨?_, ?_, ?_, ?_, ?_, ?_⟩ <;> simp [flag, pair]

/-- The pairs in reverse order have cases of their own in the `switch`, but no string leads to them. -/
theorem reverse_unreachable (s : String) (f : ℤ) (h : flag s = some f) : 0 < f := by
  unfold flag at h
  split_ifs at h <;> simp_all <;> omega

example : (flag "PT").bind pair = none ∧ (pair (-104)).isSome = true := by
  constructor
  · simp [flag]
  · simp [pair]

theorem tempOk_iff (T lo hi : ℝ) : tempOk T lo hi = true ↔ lo - 1 ≤ T ∧ T ≤ hi + 1 := by
  unfold tempOk
  simp only [Bool.not_eq_true', decide_eq_false_iff_not, not_or, not_lt, gt_iff_lt]
  tauto

/-! ## Elements -/

theorem findNeg_ok {atoms : ℕ → ℕ → ℝ} {kk mm : ℕ} {r : Option ℕ} : findNeg atoms kk mm = some r ↔
    ((r = none ∧ ∀ m < mm, ∀ k < kk, 0 ≤ atoms k m) ∨
      ∃ e < mm, r = some e ∧ (∃ k < kk, atoms k e < 0) ∧ ∀ m < mm, m ≠ e → ∀ k < kk, 0 ≤ atoms k m) := by
  induction mm generalizing r with
  | zero => simp [findNeg, eq_comm]
  | succ n ih =>
    simp only [findNeg, Option.bind_eq_some_iff]
    constructor
    · rintro ⟨a, ha, hs⟩
      rw [ih] at ha
      unfold negStep at hs
      split_ifs at hs with h1 h2
      · obtain rfl : some n = r := by simpa using hs
        have ea : a = none := by
          by_contra hc
          refine h2 ⟨hc, ?_⟩
          rintro rfl
          rcases ha with ⟨h, -⟩ | ⟨e, he, h, -⟩
          · cases h
          · cases h
            omega
        subst ea
        rcases ha with ⟨-, ha⟩ | ⟨e, he, h, -⟩
        · exact Or.inr ⟨n, by omega, rfl, h1, fun m hm hne => ha m (by omega)⟩
        · cases h
      · obtain rfl : a = r := by simpa using hs
        push Not at h1
        rcases ha with ⟨h, ha⟩ | ⟨e, he, h, hk, ha⟩
        · refine Or.inl ⟨h, fun m hm => ?_⟩
          rcases Nat.lt_succ_iff_lt_or_eq.1 hm with h3 | rfl
          · exact ha m h3
          · exact h1
        · refine Or.inr ⟨e, by omega, h, hk, fun m hm hne => ?_⟩
          rcases Nat.lt_succ_iff_lt_or_eq.1 hm with h3 | rfl
          · exact ha m h3 hne
          · exact h1
    · rintro (⟨rfl, h⟩ | ⟨e, he, rfl, ⟨k, hk, hn⟩, h⟩)
      · refine ⟨none, ih.2 (Or.inl ⟨rfl, fun m hm => h m (by omega)⟩), ?_⟩
        unfold negStep
        rw [if_neg]
        push Not
        exact h n (by omega)
      · rcases Nat.lt_succ_iff_lt_or_eq.1 he with h3 | rfl
        · refine ⟨some e, ih.2 (Or.inr ⟨e, h3, rfl, ⟨k, hk, hn⟩, fun m hm => h m (by omega)⟩), ?_⟩
          unfold negStep
          rw [if_neg]
          push Not
          exact h n (by omega) (by omega)
        · refine ⟨none, ih.2 (Or.inl ⟨rfl, fun m hm => h m (by omega) (by omega)⟩), ?_⟩
          unfold negStep
          rw [if_pos ⟨k, hk, hn⟩, if_neg (by simp)]

/-- Two elements with negative numbers of atoms are refused. -/
theorem findNeg_throw {atoms : ℕ → ℕ → ℝ} {kk mm m n : ℕ} (hm : m < mm) (hn : n < mm) (hmn : m ≠ n)
    (h1 : ∃ k < kk, atoms k m < 0) (h2 : ∃ k < kk, atoms k n < 0) : findNeg atoms kk mm = none := by
  rcases h : findNeg atoms kk mm with _ | r
  · rfl
  · obtain ⟨k, hk, h1⟩ := h1
    obtain ⟨j, hj, h2⟩ := h2
    rcases findNeg_ok.1 h with ⟨-, h⟩ | ⟨e, he, -, -, h⟩
    · linarith [h m hm k hk]
    · by_cases hme : m = e
      · linarith [h n hn (by omega) j hj]
      · linarith [h m hm hme k hk]

/-- The chemical potential of a reaction that conserves elements vanishes. -/
theorem mu_equilibrium {atoms : ℕ → ℕ → ℝ} {mm kk : ℕ} {nu : ℕ → ℝ} (lam : ℕ → ℝ)
    (h : ∀ m < mm, ∑ k ∈ range kk, nu k * atoms k m = 0) : ∑ k ∈ range kk, nu k * mu atoms mm lam k = 0 := by
  unfold mu
  simp only [Finset.mul_sum]
  rw [Finset.sum_comm]
  apply Finset.sum_eq_zero
  intro m hm
  have : ∀ k ∈ range kk, nu k * (lam m * atoms k m) = lam m * (nu k * atoms k m) := fun k _ => by ring
  rw [Finset.sum_congr rfl this, ← Finset.mul_sum, h m (Finset.mem_range.1 hm), mul_zero]

/-- `update` gives the elemental mole fractions, with sum one. -/
theorem update_ok {atoms : ℕ → ℕ → ℝ} {mm kk : ℕ} {X : ℕ → ℝ} {f : ℕ → ℝ} (hm : 0 < mm)
    (h : update atoms mm kk X = .ok f) : ∑ m ∈ range mm, f m = 1 ∧ (∀ k < kk, 0 ≤ X k) ∧
    ∀ m, f m * (∑ i ∈ range mm, ∑ k ∈ range kk, atoms k i * X k) = ∑ k ∈ range kk, atoms k m * X k := by
  unfold update at h
  split_ifs at h with h1 h2
  push Not at h1 h2
  obtain rfl := (Outcome.ok.inj h).symm
  refine ⟨?_, h1 hm, fun m => ?_⟩
  · simp only
    rw [← Finset.sum_div, div_self (h2 hm)]
  · exact div_mul_cancel₀ _ (h2 hm)

theorem update_throw {atoms : ℕ → ℕ → ℝ} {mm kk : ℕ} {X : ℕ → ℝ} : update atoms mm kk X = .throw ↔
    0 < mm ∧ ∃ k < kk, X k < 0 := by
  unfold update
  split_ifs with h1 h2 <;> simp_all

/-- The loop finds the first of the largest goals. -/
theorem skipLoop_max (goal : ℕ → ℝ) (mm : ℕ) : (∀ m < mm, goal m ≤ (skipLoop goal mm).2) ∧
    -1 ≤ (skipLoop goal mm).2 ∧ ∀ e, (skipLoop goal mm).1 = some e → e < mm ∧ goal e = (skipLoop goal mm).2 ∧
      ∀ m < e, goal m < goal e := by
  induction mm with
  | zero => simp [skipLoop]
  | succ n ih =>
    obtain ⟨h1, h2, h3⟩ := ih
    simp only [skipLoop]
    split_ifs with h
    · refine ⟨fun m hm => ?_, by simp only; linarith, ?_⟩
      · rcases Nat.lt_succ_iff_lt_or_eq.1 hm with h4 | rfl
        · exact (h1 m h4).trans (le_of_lt h)
        · exact le_refl _
      · rintro e he
        obtain rfl : n = e := by simpa using he
        exact ⟨by omega, rfl, fun m hm => lt_of_le_of_lt (h1 m hm) h⟩
    · push Not at h
      refine ⟨fun m hm => ?_, h2, fun e he => ?_⟩
      · rcases Nat.lt_succ_iff_lt_or_eq.1 hm with h4 | rfl
        · exact h1 m h4
        · exact h
      · obtain ⟨a, b, c⟩ := h3 e he
        exact ⟨by omega, b, c⟩

theorem skipLoop_none (goal : ℕ → ℝ) (mm : ℕ) (h : (skipLoop goal mm).1 = none) : (skipLoop goal mm).2 = -1 := by
  induction mm with
  | zero => rfl
  | succ n ih =>
    simp only [skipLoop] at h ⊢
    split_ifs at h ⊢ with h1
    exact ih h

/-- An element is skipped if some goal is positive, and it has the largest goal. -/
theorem skip_ok {goal : ℕ → ℝ} {mm : ℕ} (h : ∃ m < mm, 0 < goal m) : ∃ e < mm, skip goal mm = .ok (some e) ∧
    0 < goal e ∧ (∀ m < mm, goal m ≤ goal e) ∧ ∀ m < e, goal m < goal e := by
  obtain ⟨m, hm, h0⟩ := h
  obtain ⟨h1, h2, h3⟩ := skipLoop_max goal mm
  have hp : 0 < (skipLoop goal mm).2 := lt_of_lt_of_le h0 (h1 m hm)
  rcases he : (skipLoop goal mm).1 with _ | e
  · linarith [skipLoop_none goal mm he]
  · obtain ⟨a, b, c⟩ := h3 e he
    refine ⟨e, a, ?_, b ▸ hp, fun m hm => b ▸ h1 m hm, c⟩
    unfold skip
    rw [if_neg (not_le.2 hp), he]

theorem skip_throw {goal : ℕ → ℝ} {mm : ℕ} : skip goal mm = .throw ↔ ∀ m < mm, goal m ≤ 0 := by
  constructor
  · intro h m hm
    by_contra hc
    obtain ⟨e, -, he, -⟩ := skip_ok ⟨m, hm, not_le.1 hc⟩
    rw [h] at he
    cases he
  · intro h
    unfold skip
    rw [if_pos]
    rcases he : (skipLoop goal mm).1 with _ | e
    · rw [skipLoop_none goal mm he]
      norm_num
    · obtain ⟨a, b, -⟩ := (skipLoop_max goal mm).2.2 e he
      rw [← b]
      exact h e a

/-! ## Search of the temperature -/

/-- The first bracket from a temperature below the upper limit. -/
theorem bracket_eq {T lo hi : ℝ} (h : lo ≤ hi) (hT : T ≤ hi) :
    (bracket T lo hi).1 = max T lo ∧ (bracket T lo hi).2 = min (max T lo + 10) hi := by
  have h1 : max T lo ≤ hi := max_le hT h
  unfold bracket
  simp only
  rw [if_neg (not_lt.2 h1), if_neg]
  · exact ⟨rfl, rfl⟩
  · rw [not_lt]
    exact le_min (by linarith [le_max_right T lo]) h

theorem bracket_hot {T lo hi : ℝ} (h : lo + 20 ≤ hi) (hT : hi < T) :
    bracket T lo hi = (hi - 20, hi - 10) := by
  have h1 : hi < max T lo := lt_of_lt_of_le hT (le_max_left _ _)
  unfold bracket
  simp only
  rw [if_pos h1, min_eq_left (by linarith), if_neg (by linarith)]
  congr 1
  ring

/-- Each temperature tried lies inside the range of the phase, is at least 100 K and at most 200 K from the last. -/
theorem nextT_next {lo hi t0 t : ℝ} {dt : Option ℝ} (h0 : lo ≤ t0) (h1 : t0 ≤ hi) (h : nextT lo hi t0 dt = .next t) :
    lo < t ∧ t < hi ∧ 100 ≤ t ∧ |t - t0| ≤ 200 := by
  unfold nextT at h
  simp only at h
  have hc : -200 ≤ clip dt (-200) 200 ∧ clip dt (-200) 200 ≤ 200 := by
    unfold clip
    cases dt with
    | none => norm_num
    | some v => exact ⟨le_max_left _ _, max_le (by norm_num) (min_le_left _ _)⟩
  generalize clip dt (-200) 200 = d at h hc
  split_ifs at h with g1 g2 g3 g3 g2 g3 g3
  all_goals
    injection h with h
    subst h
    push Not at g3
    refine ⟨g3.1, g3.2.1, g3.2.2, ?_⟩
    rw [abs_le]
    constructor <;> linarith [hc.1, hc.2]

/-- The step is not cut inside the range. -/
theorem nextT_plain {lo hi t0 d : ℝ} (hd : |d| ≤ 200) (h0 : lo < t0 + d) (h1 : t0 + d < hi) (h2 : 100 ≤ t0 + d) :
    nextT lo hi t0 (some d) = .next (t0 + d) := by
  obtain ⟨ha, hb⟩ := abs_le.1 hd
  unfold nextT clip
  simp only
  rw [min_eq_right hb, max_eq_right ha, if_neg (show ¬ t0 + d < lo by linarith), if_neg (show ¬ t0 + d > hi by linarith),
    if_neg (show ¬ (t0 + d ≤ lo ∨ t0 + d ≥ hi ∨ t0 + d < 100) by
      push Not
      exact ⟨h0, h1, h2⟩)]

/-- The secant step. -/
theorem search_stop {p : ℝ → ℝ} {xval lo hi t0 tmin tmax : ℝ} (hp : p t0 < xval) (hl : t0 < tmax) (hm : p t0 < p tmax) :
    search p xval lo hi t0 tmin tmax = .stop ↔ (xval - p t0) * (tmax - t0) < 50 * (p tmax - p t0) := by
  have h1 : 0 < p tmax - p t0 := by linarith
  have h2 : 0 < tmax - t0 := by linarith
  have h3 : 0 < xval - p t0 := by linarith
  have e : (xval - p t0) / ((p tmax - p t0) / (tmax - t0)) = (xval - p t0) * (tmax - t0) / (p tmax - p t0) := by
    field_simp
  have hpos : 0 < (xval - p t0) * (tmax - t0) / (p tmax - p t0) := by positivity
  unfold search quot
  simp only
  simp only [if_neg (show ¬ p t0 > xval by linarith)]
  rw [if_neg h2.ne', Option.bind_some, if_neg (div_pos h1 h2).ne', e]
  have : (∃ d, some ((xval - p t0) * (tmax - t0) / (p tmax - p t0)) = some d ∧ |d| < 50) ↔
      (xval - p t0) * (tmax - t0) < 50 * (p tmax - p t0) := by
    simp only [Option.some.injEq, exists_eq_left']
    rw [abs_of_pos hpos, div_lt_iff₀ h1]
  by_cases hc : (xval - p t0) * (tmax - t0) < 50 * (p tmax - p t0)
  · rw [if_pos (this.2 hc)]
    exact iff_of_true rfl hc
  · rw [if_neg (fun h => hc (this.1 h))]
    refine iff_of_false ?_ hc
    unfold nextT
    simp only
    split_ifs <;> simp

/-- The secant step from above: the slope is taken between the lower bound and the present temperature. -/
theorem search_stop_down {p : ℝ → ℝ} {xval lo hi t0 tmin tmax : ℝ} (hp : xval < p t0) (hl : tmin < t0)
    (hm : p tmin < p t0) :
    search p xval lo hi t0 tmin tmax = .stop ↔ (p t0 - xval) * (t0 - tmin) < 50 * (p t0 - p tmin) := by
  have h1 : 0 < p t0 - p tmin := by linarith
  have h2 : 0 < t0 - tmin := by linarith
  have h3 : 0 < p t0 - xval := by linarith
  have e : (xval - p t0) / ((p t0 - p tmin) / (t0 - tmin)) = -((p t0 - xval) * (t0 - tmin) / (p t0 - p tmin)) := by
    field_simp
    ring
  have hpos : 0 < (p t0 - xval) * (t0 - tmin) / (p t0 - p tmin) := by positivity
  unfold search quot
  simp only
  simp only [if_pos (show p t0 > xval from hp)]
  rw [if_neg h2.ne', Option.bind_some, if_neg (div_pos h1 h2).ne', e]
  have : (∃ d, some (-((p t0 - xval) * (t0 - tmin) / (p t0 - p tmin))) = some d ∧ |d| < 50) ↔
      (p t0 - xval) * (t0 - tmin) < 50 * (p t0 - p tmin) := by
    simp only [Option.some.injEq, exists_eq_left']
    rw [abs_neg, abs_of_pos hpos, div_lt_iff₀ h1]
  by_cases hc : (p t0 - xval) * (t0 - tmin) < 50 * (p t0 - p tmin)
  · rw [if_pos (this.2 hc)]
    exact iff_of_true rfl hc
  · rw [if_neg (fun h => hc (this.1 h))]
    refine iff_of_false ?_ hc
    unfold nextT
    simp only
    split_ifs <;> simp

example : search (fun t => t) 490 200 3000 500 300 1000 = .stop :=
  (search_stop_down (p := fun t => t) (by norm_num) (by norm_num) (by norm_num)).2 (by norm_num)

/-- A phase at the upper limit of its temperature range: the bracket has no width and the search ends with an
exception. -/
theorem search_at_max (p : ℝ → ℝ) (xval : ℝ) {lo hi : ℝ} (h : lo ≤ hi) :
    bracket hi lo hi = (hi, hi) ∧ search p xval lo hi hi hi hi = .throw := by
  constructor
  · have := bracket_eq h (le_refl hi)
    rw [max_eq_left h, min_eq_right (by linarith)] at this
    exact Prod.ext this.1 this.2
  · unfold search quot
    simp only [ite_self, sub_self, if_true, Option.bind_none]
    rw [if_neg (by simp)]
    unfold nextT clip
    simp only
    rw [if_neg (show ¬ hi + 200 < lo by linarith), if_pos (show hi + 200 > hi by linarith), if_pos (by
      right
      left
      linarith)]

/-! ## Residuals and convergence -/

/-- Residuals of zero: both properties and all elements have their goal, including the element without equation. -/
theorem resid_zero {c : Sys} {x goal frac : ℕ → ℝ} {xval yval xx yy : ℝ} (hx : xval ≠ 0) (hy : yval ≠ 0)
    (hs : c.skip < c.mm) (hg : ∑ m ∈ range c.mm, goal m = 1) (hf : ∑ m ∈ range c.mm, frac m = 1)
    (hc : ∀ m < c.mm, c.comp m = true) (hp : ∀ m < c.mm, c.cut ≤ goal m ∨ c.eloc = some m)
    (h : ∀ m ≤ c.mm, resid c x goal frac xval yval xx yy m = 0) :
    xx = xval ∧ yy = yval ∧ ∀ m < c.mm, frac m = goal m := by
  have key : ∀ m < c.mm, m ≠ c.skip → frac m = goal m := by
    intro m hm hne
    have := h m hm.le
    unfold resid at this
    rw [if_neg hne, if_neg hm.ne, if_neg (by
      rintro ⟨h1, h2⟩
      rcases hp m hm with h3 | h3
      · linarith
      · exact h2 h3), if_neg (by rw [hc m hm]; simp)] at this
    split_ifs at this with h1
    · linarith
    · push Not at h1
      have h2 : 0 < 1 + goal m := by linarith [h1.1, show (0 : ℝ) < 1 / 10 ^ 10 by positivity]
      have h3 : 0 < 1 + frac m := by linarith [h1.2.1, show (0 : ℝ) < 1 / 10 ^ 10 by positivity]
      have h4 := Real.eq_one_of_pos_of_log_eq_zero (div_pos h2 h3) this
      rw [div_eq_one_iff_eq h3.ne'] at h4
      linarith
  refine ⟨?_, ?_, fun m hm => ?_⟩
  · have := h c.mm (le_refl _)
    unfold resid at this
    rw [if_neg hs.ne', if_pos rfl, sub_eq_zero, div_eq_one_iff_eq hx] at this
    exact this
  · have := h c.skip hs.le
    unfold resid at this
    rw [if_pos rfl, sub_eq_zero, div_eq_one_iff_eq hy] at this
    exact this
  · by_cases hne : m = c.skip
    · subst hne
      have hmem : c.skip ∈ range c.mm := Finset.mem_range.2 hs
      rw [← Finset.add_sum_erase _ _ hmem] at hg hf
      have : ∑ m ∈ (range c.mm).erase c.skip, frac m = ∑ m ∈ (range c.mm).erase c.skip, goal m :=
        Finset.sum_congr rfl fun m hm => key m (Finset.mem_range.1 (Finset.mem_of_mem_erase hm)) (Finset.ne_of_mem_erase hm)
      linarith
    · exact key m hm hne

/-- What convergence means. -/
theorem conv_iff {c : Sys} {iter : ℕ} {goal res : ℕ → ℝ} {xval yval xx yy : ℝ} :
    conv c iter goal res xval yval xx yy = true ↔ 1 ≤ iter ∧
      (∀ m < c.mm, |res m| ≤ goal m * c.rtol + c.atol + (if c.eloc = some m then 1 / 10 ^ 13 else 0)) ∧
      |res c.mm| ≤ c.rtol ∧ (xval ≠ 0 ∧ |xx - xval| < c.rtol * |xval|) ∧ (yval ≠ 0 ∧ |yy - yval| < c.rtol * |yval|) := by
  unfold conv
  rw [decide_eq_true_iff]
  have q : ∀ a v : ℝ, (v ≠ 0 ∧ |a / v| < c.rtol) ↔ (v ≠ 0 ∧ |a| < c.rtol * |v|) := by
    intro a v
    refine and_congr_right fun hv => ?_
    rw [abs_div, div_lt_iff₀ (abs_pos.2 hv)]
  rw [q, q]
  have r : (∀ m ≤ c.mm, |res m| ≤ tolOf c goal m) ↔
      (∀ m < c.mm, |res m| ≤ goal m * c.rtol + c.atol + (if c.eloc = some m then 1 / 10 ^ 13 else 0)) ∧
        |res c.mm| ≤ c.rtol := by
    constructor
    · intro h
      refine ⟨fun m hm => ?_, ?_⟩
      · have := h m hm.le
        unfold tolOf at this
        rw [if_pos hm] at this
        split_ifs at this ⊢ <;> linarith
      · have := h c.mm (le_refl _)
        unfold tolOf at this
        rwa [if_neg (lt_irrefl _)] at this
    · rintro ⟨h1, h2⟩ m hm
      unfold tolOf
      rcases lt_or_eq_of_le hm with h3 | rfl
      · rw [if_pos h3]
        have := h1 m h3
        split_ifs at this ⊢ <;> linarith
      · rwa [if_neg (lt_irrefl _)]
  rw [r]
  simp only [Nat.succ_le_iff, and_assoc]

/-- On convergence the elemental mole fractions agree with the goals within the tolerance. -/
theorem conv_elements {c : Sys} {iter : ℕ} {x goal frac : ℕ → ℝ} {xval yval xx yy : ℝ}
    (h : conv c iter goal (resid c x goal frac xval yval xx yy) xval yval xx yy = true) {m : ℕ} (hm : m < c.mm)
    (hs : m ≠ c.skip) (hc : c.comp m = true) (hp : c.cut ≤ goal m) (he : c.eloc ≠ some m) :
    |goal m - frac m| ≤ goal m * c.rtol + c.atol ∨
      (|Real.log (1 + goal m) - Real.log (1 + frac m)| ≤ goal m * c.rtol + c.atol ∧ 1 / 10 ^ 10 ≤ frac m) := by
  have h1 := (conv_iff.1 h).2.1 m hm
  rw [if_neg he, add_zero] at h1
  unfold resid at h1
  rw [if_neg hs, if_neg hm.ne, if_neg (by rintro ⟨h, -⟩; linarith), if_neg (by rw [hc]; simp)] at h1
  split_ifs at h1 with h2
  · exact Or.inl h1
  · push Not at h2
    right
    rw [Real.log_div (by linarith) (by linarith [h2.2.1, show (0 : ℝ) < 1 / 10 ^ 10 by positivity])] at h1
    exact ⟨h1, h2.2.1⟩

/-- A mixture with a positive charge above a bound never converges: the tolerance for electrons is negative. -/
theorem conv_charged {c : Sys} {e : ℕ} (he : c.eloc = some e) (hm : e < c.mm) {goal : ℕ → ℝ}
    (hg : goal e * c.rtol + c.atol + 1 / 10 ^ 13 < 0) (iter : ℕ) (res : ℕ → ℝ) (xval yval xx yy : ℝ) :
    conv c iter goal res xval yval xx yy = false := by
  rw [Bool.eq_false_iff]
  intro h
  have := (conv_iff.1 h).2.1 e hm
  rw [if_pos he] at this
  linarith [abs_nonneg (res e)]

/-- A property of value zero, for example the enthalpy of elements at 298.15 K, never converges. -/
theorem conv_zero {c : Sys} (iter : ℕ) (goal res : ℕ → ℝ) (yval xx yy : ℝ) : conv c iter goal res 0 yval xx yy = false := by
  rw [Bool.eq_false_iff]
  intro h
  exact (conv_iff.1 h).2.2.2.1.1 rfl

/-- The difference quotient is exact for a residual that is affine in the unknown. -/
theorem jac_affine {r : (ℕ → ℝ) → ℕ → ℝ} {x : ℕ → ℝ} {m n : ℕ} {s : ℝ}
    (h : ∀ d, r (Function.update x n (x n + d)) m = r x m + s * d) : jac r x m n = s := by
  have hp : (0 : ℝ) < max (1 / 10 ^ 10) (|x n| * (1 / 10 ^ 7)) := lt_max_of_lt_left (by positivity)
  unfold jac
  simp only
  rw [h]
  field_simp
  ring

/-- The increment used. -/
theorem jac_eq (r : (ℕ → ℝ) → ℕ → ℝ) (x : ℕ → ℝ) (m n : ℕ) : ∃ d, d ≥ 1 / 10 ^ 10 ∧ d ≥ |x n| / 10 ^ 7 ∧
    (d = 1 / 10 ^ 10 ∨ d = |x n| / 10 ^ 7) ∧ jac r x m n = (r (Function.update x n (x n + d)) m - r x m) / d := by
  refine ⟨max (1 / 10 ^ 10) (|x n| * (1 / 10 ^ 7)), le_max_left _ _, ?_, ?_, ?_⟩
  · refine le_trans (le_of_eq ?_) (le_max_right _ _)
    ring
  · rcases max_choice (1 / 10 ^ 10 : ℝ) (|x n| * (1 / 10 ^ 7)) with h | h
    · left
      exact h
    · right
      rw [h]
      ring
  · unfold jac
    simp only
    rw [mul_one_div]

/-! ## Step control -/

section step

variable {c : Sys} {above below x r : ℕ → ℝ}

theorem facStep_bounds {m : ℕ} {f : ℝ} (h0 : 0 ≤ f) (hb : below m ≤ x m) :
    0 ≤ facStep c above below x r m f ∧ facStep c above below x r m f ≤ f := by
  unfold facStep
  simp only
  have key : ∀ g : ℝ, 0 ≤ g ∧ g ≤ f →
      0 ≤ (if m = c.mm ∧ |stepAdj c above below x r m| > 0.2 then min g (0.2 / |stepAdj c above below x r m|) else g) ∧
      (if m = c.mm ∧ |stepAdj c above below x r m| > 0.2 then min g (0.2 / |stepAdj c above below x r m|) else g) ≤ f := by
    rintro g ⟨h1, h2⟩
    split_ifs
    · exact ⟨le_min h1 (by positivity), (min_le_left _ _).trans h2⟩
    · exact ⟨h1, h2⟩
  apply key
  split_ifs with h1 h2
  · exact ⟨le_max_left _ _, max_le h0 (min_le_left _ _)⟩
  · refine ⟨le_min h0 (div_nonneg ?_ ?_), min_le_left _ _⟩
    · have : 0 ≤ x m - below m := by linarith
      positivity
    · linarith [h2.1]
  · exact ⟨h0, le_refl _⟩

theorem fac_bounds (hb : ∀ m ≤ c.mm, below m ≤ x m) {n : ℕ} (hn : n ≤ c.mm + 1) :
    0 ≤ fac c above below x r n ∧ fac c above below x r n ≤ 1 ∧
    ∀ m < n, fac c above below x r n ≤ facStep c above below x r m (fac c above below x r m) ∧
      0 ≤ fac c above below x r m := by
  induction n with
  | zero => simp [fac]
  | succ n ih =>
    obtain ⟨h0, h1, h2⟩ := ih (by omega)
    obtain ⟨h3, h4⟩ := facStep_bounds (c := c) (above := above) (r := r) h0 (hb n (by omega))
    refine ⟨h3, h4.trans h1, fun m hm => ?_⟩
    rcases Nat.lt_succ_iff_lt_or_eq.1 hm with h5 | rfl
    · exact ⟨h4.trans (h2 m h5).1, (h2 m h5).2⟩
    · exact ⟨le_refl _, h0⟩

/-- The scaled step stays within the bounds, for every further damping, and changes the logarithm of the temperature
by 0.2 at most. -/
theorem scaled_bounds (hb : ∀ m ≤ c.mm, below m ≤ x m) (ha : ∀ m ≤ c.mm, x m ≤ above m) {d : ℝ} (hd : 0 ≤ d) (hd1 : d ≤ 1)
    {m : ℕ} (hm : m ≤ c.mm) : below m ≤ x m + d * scaled c above below x r m ∧
    x m + d * scaled c above below x r m ≤ above m := by
  obtain ⟨h0, h1, h2⟩ := fac_bounds (c := c) (above := above) (r := r) hb (le_refl (c.mm + 1))
  obtain ⟨h3, h4⟩ := h2 m (by omega)
  have hbm := hb m hm
  have ham := ha m hm
  unfold scaled
  set F := fac c above below x r (c.mm + 1) with hF
  have hdF : 0 ≤ d * F := mul_nonneg hd h0
  have hdF1 : d * F ≤ 1 := by nlinarith
  have hdFF : d * F ≤ F := by nlinarith
  have e : d * (stepAdj c above below x r m * F) = d * F * stepAdj c above below x r m := by ring
  rw [e]
  by_cases g1 : x m + r m > above m
  · have hr : 0 < r m := by linarith
    have hs : stepAdj c above below x r m = r m := by
      unfold stepAdj
      rw [if_pos g1]
    have hq : F ≤ 0.8 * (above m - x m) / r m := by
      refine h3.trans ?_
      have hnn : 0 ≤ 0.8 * (above m - x m) / r m := by
        have : 0 ≤ above m - x m := by linarith
        positivity
      unfold facStep
      simp only
      rw [if_pos g1, add_sub_cancel_left]
      have hmx : max 0 (min (fac c above below x r m) (0.8 * (above m - x m) / r m)) ≤ 0.8 * (above m - x m) / r m :=
        max_le hnn (min_le_right _ _)
      split_ifs
      · exact (min_le_left _ _).trans hmx
      · exact hmx
    rw [le_div_iff₀ hr] at hq
    rw [hs]
    constructor
    · nlinarith
    · nlinarith
  · by_cases g2 : x m + r m < below m
    · have hr : r m < 0 := by linarith
      by_cases g3 : m < c.mm ∧ m ≠ c.skip
      · unfold stepAdj
        rw [if_neg g1, if_pos ⟨g2, g3⟩]
        split_ifs with g4
        · constructor <;> nlinarith
        · constructor <;> nlinarith
      · have hs : stepAdj c above below x r m = r m := by
          unfold stepAdj
          rw [if_neg g1, if_neg (fun h => g3 h.2)]
        have hq : F ≤ 0.8 * (x m - below m) / -r m := by
          refine h3.trans ?_
          unfold facStep
          simp only
          rw [if_neg g1, if_pos (show x m + r m < below m ∧ ¬(m < c.mm ∧ m ≠ c.skip) from ⟨g2, g3⟩)]
          have e2 : x m - (x m + r m) = -r m := by ring
          rw [e2]
          split_ifs
          · exact (min_le_left _ _).trans (min_le_right _ _)
          · exact min_le_right _ _
        rw [le_div_iff₀ (by linarith)] at hq
        rw [hs]
        constructor <;> nlinarith
    · have hs : stepAdj c above below x r m = r m := by
        unfold stepAdj
        rw [if_neg g1, if_neg (fun h => g2 h.1)]
      rw [hs]
      push Not at g1 g2
      constructor
      · rcases le_total 0 (r m) with h | h
        · nlinarith [mul_nonneg hdF h]
        · nlinarith
      · rcases le_total 0 (r m) with h | h
        · nlinarith
        · nlinarith [mul_nonneg hdF (neg_nonneg.2 h)]

theorem scaled_temperature (hb : ∀ m ≤ c.mm, below m ≤ x m) : |scaled c above below x r c.mm| ≤ 0.2 := by
  obtain ⟨h0, h1, h2⟩ := fac_bounds (c := c) (above := above) (r := r) hb (le_refl (c.mm + 1))
  obtain ⟨h3, h4⟩ := h2 c.mm (by omega)
  unfold scaled
  rw [abs_mul, abs_of_nonneg h0]
  by_cases hg : |stepAdj c above below x r c.mm| > 0.2
  · have hp : 0 < |stepAdj c above below x r c.mm| := by linarith [show (0 : ℝ) < 0.2 by norm_num]
    have : fac c above below x r (c.mm + 1) ≤ 0.2 / |stepAdj c above below x r c.mm| := by
      refine h3.trans ?_
      unfold facStep
      simp only
      rw [if_pos (show True ∧ |stepAdj c above below x r c.mm| > 0.2 from ⟨trivial, hg⟩)]
      exact min_le_right _ _
    rw [le_div_iff₀ hp] at this
    linarith
  · push Not at hg
    nlinarith [abs_nonneg (stepAdj c above below x r c.mm)]

/-- A Newton step that violates no bound and changes the temperature little is taken in full. -/
theorem fac_one (ha : ∀ m ≤ c.mm, x m + r m ≤ above m) (hb : ∀ m ≤ c.mm, below m ≤ x m + r m) (ht : |r c.mm| ≤ 0.2)
    {m : ℕ} (hm : m ≤ c.mm) : scaled c above below x r m = r m := by
  have hs : ∀ m ≤ c.mm, stepAdj c above below x r m = r m := by
    intro m hm
    unfold stepAdj
    rw [if_neg (not_lt.2 (ha m hm)), if_neg (fun h => absurd h.1 (not_lt.2 (hb m hm)))]
  have hf : ∀ n ≤ c.mm + 1, fac c above below x r n = 1 := by
    intro n
    induction n with
    | zero => intro _; rfl
    | succ n ih =>
      intro hn
      simp only [fac]
      rw [ih (by omega)]
      unfold facStep
      simp only
      have g1 : ¬ x n + r n > above n := not_lt.2 (ha n (by omega))
      have g2 : ¬ (x n + r n < below n ∧ ¬(n < c.mm ∧ n ≠ c.skip)) := fun h => absurd h.1 (not_lt.2 (hb n (by omega)))
      have g3 : ¬ (n = c.mm ∧ |stepAdj c above below x r n| > 0.2) := by
        rintro ⟨h1, h2⟩
        rw [hs n (by omega), h1] at h2
        linarith
      rw [if_neg g1, if_neg g2, if_neg g3]
  unfold scaled
  rw [hs m hm, hf _ (le_refl _), mul_one]

end step

theorem dampOne_bounds {c : Sys} {step : ℕ → ℝ} {m : ℕ} {d : ℝ} (hd : 0 < d) :
    0 < dampOne c step m d ∧ dampOne c step m d ≤ d ∧
    dampOne c step m d * |step m| ≤ max (if c.eloc = some m then 1.25 else 0.75) (d * 0) ∨
    0 < dampOne c step m d ∧ dampOne c step m d ≤ d ∧ |step m| ≤ (if c.eloc = some m then 1.25 else 0.75) := by
  have hl : (0 : ℝ) < (if c.eloc = some m then 1.25 else 0.75) := by split_ifs <;> norm_num
  unfold dampOne
  simp only
  generalize (if c.eloc = some m then (1.25 : ℝ) else 0.75) = l at hl
  by_cases h1 : step m > l
  · left
    have hs : 0 < step m := by linarith
    rw [if_pos h1, if_neg (by linarith), abs_of_pos hs]
    refine ⟨lt_min hd (by positivity), min_le_left _ _, le_max_of_le_left ?_⟩
    calc min d (l / step m) * step m ≤ l / step m * step m := mul_le_mul_of_nonneg_right (min_le_right _ _) hs.le
      _ = l := div_mul_cancel₀ _ hs.ne'
  · rw [if_neg h1]
    push Not at h1
    by_cases h2 : step m < -l
    · left
      have hs : step m < 0 := by linarith
      have e : -l / step m = l / -step m := by rw [neg_div, div_neg]
      rw [if_pos h2, abs_of_neg hs, e]
      have hn : 0 < -step m := by linarith
      refine ⟨lt_min hd (by positivity), min_le_left _ _, le_max_of_le_left ?_⟩
      calc min d (l / -step m) * -step m ≤ l / -step m * -step m := mul_le_mul_of_nonneg_right (min_le_right _ _) hn.le
        _ = l := div_mul_cancel₀ _ hn.ne'
    · right
      rw [if_neg h2]
      push Not at h2
      exact ⟨hd, le_refl _, abs_le.2 ⟨h2, h1⟩⟩

/-- Damping: a factor of at most one, and no element potential changes by more than 0.75 (electrons: 1.25). -/
theorem damp_bounds (c : Sys) (step : ℕ → ℝ) (n : ℕ) : 0 < damp c step n ∧ damp c step n ≤ 1 ∧
    ∀ m < n, damp c step n * |step m| ≤ if c.eloc = some m then 1.25 else 0.75 := by
  induction n with
  | zero => simp [damp]
  | succ n ih =>
    obtain ⟨h0, h1, h2⟩ := ih
    simp only [damp]
    have key : 0 < dampOne c step n (damp c step n) ∧ dampOne c step n (damp c step n) ≤ damp c step n ∧
        dampOne c step n (damp c step n) * |step n| ≤ if c.eloc = some n then 1.25 else 0.75 := by
      have hl : (0 : ℝ) < (if c.eloc = some n then 1.25 else 0.75) := by split_ifs <;> norm_num
      rcases dampOne_bounds (c := c) (step := step) (m := n) h0 with ⟨a, b, d⟩ | ⟨a, b, d⟩
      · rw [mul_zero, max_eq_left hl.le] at d
        exact ⟨a, b, d⟩
      · refine ⟨a, b, ?_⟩
        nlinarith [abs_nonneg (step n)]
    obtain ⟨a, b, d⟩ := key
    refine ⟨a, b.trans h1, fun m hm => ?_⟩
    rcases Nat.lt_succ_iff_lt_or_eq.1 hm with h | rfl
    · exact (mul_le_mul_of_nonneg_right b (abs_nonneg _)).trans (h2 m h)
    · exact d

theorem newX_change (c : Sys) (x step : ℕ → ℝ) {m : ℕ} (hm : m < c.mm) :
    |newX c x step m - x m| ≤ if c.eloc = some m then 1.25 else 0.75 := by
  obtain ⟨h0, -, h2⟩ := damp_bounds c step c.mm
  unfold newX
  rw [add_sub_cancel_left, abs_mul, abs_of_pos h0]
  exact h2 m hm

/-- Small steps are not damped. -/
theorem newX_plain {c : Sys} {step : ℕ → ℝ} (x : ℕ → ℝ) (h : ∀ m < c.mm, |step m| ≤ 0.75) (m : ℕ) :
    newX c x step m = x m + step m := by
  have : ∀ n ≤ c.mm, damp c step n = 1 := by
    intro n
    induction n with
    | zero => intro _; rfl
    | succ n ih =>
      intro hn
      simp only [damp]
      rw [ih (by omega)]
      obtain ⟨h1, h2⟩ := abs_le.1 (h n (by omega))
      unfold dampOne
      simp only
      split_ifs with a b b <;> first | rfl | (exfalso; linarith)
  unfold newX
  rw [this _ (le_refl _), one_mul]

/-- All bounds hold again after the whole step. -/
theorem newX_bounds {c : Sys} {above below x r : ℕ → ℝ} (hb : ∀ m ≤ c.mm, below m ≤ x m) (ha : ∀ m ≤ c.mm, x m ≤ above m)
    {m : ℕ} (hm : m ≤ c.mm) : below m ≤ newX c x (scaled c above below x r) m ∧
    newX c x (scaled c above below x r) m ≤ above m := by
  obtain ⟨h0, h1, -⟩ := damp_bounds c (scaled c above below x r) c.mm
  exact scaled_bounds hb ha h0.le h1 hm

/-! ## Mole numbers and charge -/

/-- Mole numbers obey the equation of element potentials where neither limit is met. -/
theorem calcN_eq {atoms : ℕ → ℕ → ℝ} {mm : ℕ} {x muSS ac : ℕ → ℝ} {nt : ℝ} {k : ℕ} (ha : 0 < ac k) (hn : 0 < nt)
    (h1 : -300 ≤ ∑ m ∈ range mm, atoms k m * x m - muSS k - Real.log (ac k))
    (h2 : ∑ m ∈ range mm, atoms k m * x m - muSS k - Real.log (ac k) ≤ 100) :
    0 < calcN atoms mm x muSS ac nt k ∧
    muSS k + Real.log (ac k * (calcN atoms mm x muSS ac nt k / nt)) = ∑ m ∈ range mm, atoms k m * x m := by
  unfold calcN
  simp only
  rw [min_eq_left (by linarith), if_neg (by linarith)]
  refine ⟨by positivity, ?_⟩
  rw [mul_div_assoc, mul_comm nt, div_mul_cancel₀ _ hn.ne'] <;> try skip
  all_goals
    first
    | (rw [Real.log_mul ha.ne' (Real.exp_pos _).ne', Real.log_exp]; ring)
    | skip

theorem calcN_nonneg {atoms : ℕ → ℕ → ℝ} {mm : ℕ} {x muSS ac : ℕ → ℝ} {nt : ℝ} (hn : 0 ≤ nt) (k : ℕ) :
    0 ≤ calcN atoms mm x muSS ac nt k ∧ calcN atoms mm x muSS ac nt k ≤ nt * Real.exp 100 := by
  unfold calcN
  simp only
  split_ifs
  · exact ⟨le_refl _, by positivity⟩
  · exact ⟨by positivity, mul_le_mul_of_nonneg_left (Real.exp_le_exp.2 (min_le_right _ _)) hn⟩

theorem split_sum (kk : ℕ) (a X : ℕ → ℝ) : ∑ k ∈ range kk, a k * X k =
    (∑ k ∈ range kk, if a k > 0 then a k * X k else 0) + ∑ k ∈ range kk, if a k < 0 then a k * X k else 0 := by
  rw [← Finset.sum_add_distrib]
  apply Finset.sum_congr rfl
  intro k _
  rcases lt_trichotomy (a k) 0 with h | h | h
  · rw [if_neg (by linarith), if_pos h, zero_add]
  · simp [h]
  · rw [if_pos h, if_neg (by linarith), add_zero]

/-- After the adjustment the charge has its goal. -/
theorem adjust_charge {kk : ℕ} {a X Y : ℕ → ℝ} {goal : ℝ} (h : adjust kk a X goal = some Y) (hX : ∀ k < kk, 0 ≤ X k) :
    ∑ k ∈ range kk, a k * Y k = goal := by
  unfold adjust at h
  simp only at h
  have hpos : 0 ≤ ∑ k ∈ range kk, if a k > 0 then a k * X k else 0 := by
    apply Finset.sum_nonneg
    intro k hk
    split_ifs with hc
    · exact mul_nonneg hc.le (hX k (Finset.mem_range.1 hk))
    · exact le_refl _
  split_ifs at h with h1 h2 h3
  · obtain rfl := (Option.some.inj h).symm
    push Not at h3
    rw [split_sum]
    have e1 : (∑ k ∈ range kk, if a k > 0 then a k * (if a k > 0 then X k * ((goal +
        -∑ k ∈ range kk, if a k < 0 then a k * X k else 0) / ∑ k ∈ range kk, if a k > 0 then a k * X k else 0) else X k)
        else 0) = goal + -∑ k ∈ range kk, if a k < 0 then a k * X k else 0 := by
      have : ∀ k ∈ range kk, (if a k > 0 then a k * (if a k > 0 then X k * ((goal +
          -∑ k ∈ range kk, if a k < 0 then a k * X k else 0) / ∑ k ∈ range kk, if a k > 0 then a k * X k else 0) else X k)
          else 0) = (if a k > 0 then a k * X k else 0) * ((goal +
          -∑ k ∈ range kk, if a k < 0 then a k * X k else 0) / ∑ k ∈ range kk, if a k > 0 then a k * X k else 0) := by
        intro k _
        split_ifs
        · ring
        · ring
      rw [Finset.sum_congr rfl this, ← Finset.sum_mul, mul_div_cancel₀ _ h3.ne']
    have e2 : (∑ k ∈ range kk, if a k < 0 then a k * (if a k > 0 then X k * ((goal +
        -∑ k ∈ range kk, if a k < 0 then a k * X k else 0) / ∑ k ∈ range kk, if a k > 0 then a k * X k else 0) else X k)
        else 0) = ∑ k ∈ range kk, if a k < 0 then a k * X k else 0 := by
      apply Finset.sum_congr rfl
      intro k _
      split_ifs with g1 g2
      · linarith
      · rfl
      · rfl
    rw [e1, e2]
    ring
  · obtain rfl := (Option.some.inj h).symm
    push Not at h2
    have hneg : 0 < -∑ k ∈ range kk, if a k < 0 then a k * X k else 0 := lt_of_le_of_lt hpos h2
    rw [split_sum]
    have e1 : (∑ k ∈ range kk, if a k > 0 then a k * (if a k < 0 then X k * ((-goal +
        ∑ k ∈ range kk, if a k > 0 then a k * X k else 0) / -∑ k ∈ range kk, if a k < 0 then a k * X k else 0) else X k)
        else 0) = ∑ k ∈ range kk, if a k > 0 then a k * X k else 0 := by
      apply Finset.sum_congr rfl
      intro k _
      split_ifs with g1 g2
      · linarith
      · rfl
      · rfl
    have e2 : (∑ k ∈ range kk, if a k < 0 then a k * (if a k < 0 then X k * ((-goal +
        ∑ k ∈ range kk, if a k > 0 then a k * X k else 0) / -∑ k ∈ range kk, if a k < 0 then a k * X k else 0) else X k)
        else 0) = -(-goal + ∑ k ∈ range kk, if a k > 0 then a k * X k else 0) := by
      have : ∀ k ∈ range kk, (if a k < 0 then a k * (if a k < 0 then X k * ((-goal +
          ∑ k ∈ range kk, if a k > 0 then a k * X k else 0) / -∑ k ∈ range kk, if a k < 0 then a k * X k else 0) else X k)
          else 0) = (if a k < 0 then a k * X k else 0) * ((-goal +
          ∑ k ∈ range kk, if a k > 0 then a k * X k else 0) / -∑ k ∈ range kk, if a k < 0 then a k * X k else 0) := by
        intro k _
        split_ifs
        · ring
        · ring
      rw [Finset.sum_congr rfl this, ← Finset.sum_mul, div_neg, mul_neg, mul_div_cancel₀]
      linarith
    rw [e1, e2]
    ring

/-- Neutral species keep their mole fractions; so do all species if the goal is not zero. -/
theorem adjust_neutral {kk : ℕ} {a X Y : ℕ → ℝ} {goal : ℝ} (h : adjust kk a X goal = some Y) :
    |goal| ≤ 1 / 10 ^ 20 ∧ ∀ k, a k = 0 → Y k = X k := by
  unfold adjust at h
  simp only at h
  split_ifs at h with h1 h2 h3
  · obtain rfl := (Option.some.inj h).symm
    exact ⟨not_lt.1 h1, fun k hk => by simp [hk]⟩
  · obtain rfl := (Option.some.inj h).symm
    exact ⟨not_lt.1 h1, fun k hk => by simp [hk]⟩

/-- The adjustment changes the other elements: with sodium and chloride ions and electrons, chlorine is lost. -/
theorem adjust_changes_elements : ∃ Y, adjust 2 (fun k => if k = 0 then -1 else 1) (fun k => if k = 0 then 0.4 else 0.6) 0 =
    some Y ∧ Y 1 = 0.4 := by
  have hp : (∑ k ∈ range 2, if (if k = 0 then (-1 : ℝ) else 1) > 0 then
      (if k = 0 then (-1 : ℝ) else 1) * (if k = 0 then 0.4 else 0.6) else 0) = 0.6 := by
    norm_num [Finset.sum_range_succ]
  have hn : (∑ k ∈ range 2, if (if k = 0 then (-1 : ℝ) else 1) < 0 then
      (if k = 0 then (-1 : ℝ) else 1) * (if k = 0 then 0.4 else 0.6) else 0) = -0.4 := by
    norm_num [Finset.sum_range_succ]
  unfold adjust
  simp only [hp, hn]
  rw [if_neg (by norm_num), if_pos (by norm_num), if_neg (by norm_num)]
  exact ⟨_, rfl, by norm_num⟩

/-! ## The assumptions can be met -/

/-- Two elements and an electron with default tolerances (ChemEquil.h:29-31, 296). -/
noncomputable def sample : Sys where
  mm := 3
  skip := 0
  eloc := some 2
  comp := fun _ => true
  cut := 1 / 10 ^ 100
  rtol := 1 / 10 ^ 8
  atol := 1 / 10 ^ 70

/-- Half of the elements as in a plasma with a net charge: no result satisfies the test. -/
example (iter : ℕ) (res : ℕ → ℝ) (xval yval xx yy : ℝ) :
    conv sample iter (fun m => if m = 2 then -0.001 else 0.5005) res xval yval xx yy = false :=
  conv_charged (c := sample) (e := 2) rfl (by show 2 < 3; norm_num) (by norm_num [sample]) _ _ _ _ _ _

example : conv sample 1 (fun m => if m = 2 then 0 else 0.5) (fun _ => 0) 300 100000 300 100000 = true := by
  rw [conv_iff]
  refine ⟨le_refl _, fun m _ => ?_, ?_, ?_, ?_⟩
  · simp only [abs_zero]
    split_ifs <;> norm_num [sample]
  · norm_num [sample]
  · norm_num [sample]
  · norm_num [sample]

example : findNeg (fun k m => if k = 1 ∧ m = 1 then -1 else 1) 2 2 = some (some 1) := by
  rw [findNeg_ok]
  refine Or.inr ⟨1, by norm_num, rfl, ⟨1, by norm_num, by norm_num⟩, fun m _ hne k _ => ?_⟩
  rw [if_neg (fun h => hne h.2)]
  norm_num

example : ∃ e < 2, skip (fun m => if m = 1 then 0.7 else 0.3) 2 = .ok (some e) ∧ 0 < (if e = 1 then (0.7 : ℝ) else 0.3) := by
  obtain ⟨e, he, h, hp, -⟩ := skip_ok (goal := fun m => if m = 1 then (0.7 : ℝ) else 0.3) (mm := 2) ⟨1, by norm_num, by norm_num⟩
  exact ⟨e, he, h, hp⟩

/-- A large step of the logarithm of the temperature is cut. -/
example : |scaled sample (fun _ => 10) (fun _ => 0) (fun _ => 5) (fun _ => 3) 3| ≤ 0.2 :=
  scaled_temperature (c := sample) (fun _ _ => by norm_num)

end Verif.ChemEq
