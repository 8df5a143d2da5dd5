import Verif.Kinetics.SolveSP
import Mathlib.Tactic.IntervalCases

/-!
# C99: theorems on the residual, Jacobian, damping, weights and time step of solveSP
-/

namespace Verif.SolveSP

open Verif Finset

/-! ## Largest species -/

theorem largeLoop_spec (c : ℕ → ℝ) (m : ℕ) : (largeLoop c m).1 = c (largeLoop c m).2 ∧ (largeLoop c m).2 ≤ m ∧
    (∀ k ≤ m, c k ≤ (largeLoop c m).1) ∧ ∀ k < (largeLoop c m).2, c k < (largeLoop c m).1 := by
  induction m with
  | zero => simp [largeLoop]
  | succ m ih =>
    obtain ⟨h1, h2, h3, h4⟩ := ih
    simp only [largeLoop]
    split_ifs with h
    · refine ⟨rfl, le_refl _, fun k hk => ?_, fun k hk => ?_⟩
      · rcases Nat.lt_or_ge m k with g | g
        · rw [show k = m + 1 by omega]
        · exact (h3 k g).trans h.le
      · exact lt_of_le_of_lt (h3 k (by simp only at hk; omega)) h
    · refine ⟨h1, by omega, fun k hk => ?_, h4⟩
      rcases Nat.lt_or_ge m k with g | g
      · rw [show k = m + 1 by omega]
        exact not_lt.1 h
      · exact h3 k g

/-- evalSurfLarge gives the first species of largest concentration. -/
theorem evalLarge_spec {n : ℕ} (h : 0 < n) (c : ℕ → ℝ) : evalLarge n c < n ∧
    (∀ k < n, c k ≤ c (evalLarge n c)) ∧ ∀ k < evalLarge n c, c k < c (evalLarge n c) := by
  obtain ⟨h1, h2, h3, h4⟩ := largeLoop_spec c (n - 1)
  unfold evalLarge
  rw [← h1]
  exact ⟨by omega, fun k hk => h3 k (by omega), h4⟩

/-! ## Residual -/

variable {nsp : ℕ → ℕ} {sd : ℕ → ℝ} {large : ℕ → ℕ} {rate : Vec → Vec} {c old : Vec} {dt : ℝ}

/-- The steady residual vanishes on a surface iff all rates but that of the special species vanish and the
concentrations sum to the site density. -/
theorem steady_iff (p : ℕ) (hl : large p < nsp p) :
    (∀ k < nsp p, funEval nsp sd large rate c old false dt p k = 0) ↔
      (∀ k < nsp p, k ≠ large p → rate c p k = 0) ∧ ∑ k ∈ range (nsp p), c p k = sd p := by
  constructor
  · intro h
    refine ⟨fun k hk hn => ?_, ?_⟩
    · have := h k hk
      simp only [funEval, if_neg hn, Bool.false_eq_true, if_false] at this
      linarith
    · have := h _ hl
      simp only [funEval, if_true] at this
      linarith
  · rintro ⟨h1, h2⟩ k hk
    unfold funEval
    split_ifs with h
    · rw [h2, sub_self]
    · simp at *
    · rw [h1 k hk h, neg_zero]

/-- Then the rate of the special species vanishes too if reactions conserve sites (sizes `size`). -/
theorem steady_all {size : ℕ → ℝ} (p : ℕ) (hl : large p < nsp p)
    (hc : ∑ k ∈ range (nsp p), rate c p k * size k = 0) (hs : size (large p) ≠ 0)
    (h : ∀ k < nsp p, funEval nsp sd large rate c old false dt p k = 0) : ∀ k < nsp p, rate c p k = 0 := by
  have h1 := ((steady_iff p hl).1 h).1
  intro k hk
  by_cases hn : k = large p
  · rw [sum_eq_single_of_mem (large p) (mem_range.2 hl) (fun b hb hb' => by
      rw [h1 b (mem_range.1 hb) hb', zero_mul])] at hc
    rw [hn]
    exact (mul_eq_zero.1 hc).resolve_right hs
  · exact h1 k hk hn

/-- With time derivative: species other than the special one make an implicit Euler step. -/
theorem euler_iff (p : ℕ) (hl : large p < nsp p) (hdt : dt ≠ 0) :
    (∀ k < nsp p, funEval nsp sd large rate c old true dt p k = 0) ↔
      (∀ k < nsp p, k ≠ large p → c p k = old p k + dt * rate c p k) ∧
      ∑ k ∈ range (nsp p), c p k = sd p := by
  constructor
  · intro h
    refine ⟨fun k hk hn => ?_, ?_⟩
    · have := h k hk
      simp only [funEval, if_neg hn, if_true] at this
      field_simp at this
      linarith
    · have := h _ hl
      simp only [funEval, if_true] at this
      linarith
  · rintro ⟨h1, h2⟩ k hk
    unfold funEval
    split_ifs with h
    · rw [h2, sub_self]
    · rw [h1 k hk h]
      field_simp
      ring
    · simp at *

/-- If the rates sum to zero and the old concentrations fill the sites, so does the special species. -/
theorem euler_all (p : ℕ) (hl : large p < nsp p) (hdt : dt ≠ 0)
    (hc : ∑ k ∈ range (nsp p), rate c p k = 0) (ho : ∑ k ∈ range (nsp p), old p k = sd p)
    (h : ∀ k < nsp p, funEval nsp sd large rate c old true dt p k = 0) :
    ∀ k < nsp p, c p k = old p k + dt * rate c p k := by
  obtain ⟨h1, h2⟩ := (euler_iff p hl hdt).1 h
  intro k hk
  by_cases hn : k = large p
  · have e : ∑ j ∈ range (nsp p), (c p j - old p j - dt * rate c p j) = 0 := by
      rw [sum_sub_distrib, sum_sub_distrib, ← mul_sum, h2, ho, hc]
      ring
    rw [sum_eq_single_of_mem (large p) (mem_range.2 hl) (fun b hb hb' => by
      rw [h1 b (mem_range.1 hb) hb']; ring)] at e
    rw [hn]
    linarith
  · exact h1 k hk hn

/-- With species of different size sites are conserved but the sum of concentrations is not: the special
species then does not follow its rate.  Species 1 occupies two sites and forms from two of species 0. -/
theorem multisite_wrong : ∃ (size : ℕ → ℝ) (c old rate : ℕ → ℝ), ∑ k ∈ range 2, rate k * size k = 0 ∧
    (∀ k < 2, funEval (fun _ => 2) (fun _ => 1) (fun _ => 0) (fun _ _ => rate) (fun _ => c) (fun _ => old) true 1 0 k = 0) ∧
    ∑ k ∈ range 2, old k = 1 ∧ c 0 ≠ old 0 + 1 * rate 0 := by
  refine ⟨fun k => if k = 0 then 1 else 2, fun k => if k = 0 then 0.75 else 0.25, fun k => if k = 0 then 1 else 0,
    fun k => if k = 0 then -0.5 else 0.25, ?_, ?_, ?_, ?_⟩
  · norm_num [sum_range_succ]
  · intro k hk
    interval_cases k <;> norm_num [funEval, sum_range_succ]
  · norm_num [sum_range_succ]
  · norm_num

/-- A surface given mole fractions c / sd has exactly these concentrations, as its molar density is the
site density. -/
theorem moleFrac_spec {sd : ℝ} (h : sd ≠ 0) (c : ℕ → ℝ) (k : ℕ) : moleFrac sd c k * sd = c k := by
  unfold moleFrac
  field_simp

example : ∀ k < 2, funEval (fun _ => 2) (fun _ => 3) (fun _ => 1) (fun _ _ _ => 0) (fun _ k => k + 1) (fun _ _ => 0)
    false 1 0 k = 0 := by
  refine (steady_iff (nsp := fun _ => 2) 0 (by norm_num)).2 ?_
  norm_num [sum_range_succ]

/-! ## Jacobian -/

theorem dc_pos {s x : ℝ} (h : 0 < s) : 0 < dc s x ∧ 1e-10 * s ≤ dc s x ∧ 1e-7 * |x| ≤ dc s x := by
  unfold dc
  refine ⟨lt_max_of_lt_left (by positivity), le_max_left _ _, ?_⟩
  rw [mul_comm]
  exact le_max_right _ _

/-- The row of the special species: minus one for the species of its surface, zero for other surfaces. -/
theorem jac_special {time : Bool} {p q j : ℕ} (hj : j < nsp q) (hs : 0 < sd q) :
    jac nsp sd large rate c old time dt p (large p) q j = if p = q then -1 else 0 := by
  have hd := (dc_pos (x := c q j) hs).1.ne'
  unfold jac
  generalize dc (sd q) (c q j) = d at *
  simp only [funEval, if_true]
  split_ifs with h
  · subst h
    have e : ∑ i ∈ range (nsp p), bump c p j d p i = ∑ i ∈ range (nsp p), c p i + d := by
      rw [← sum_erase_add _ _ (mem_range.2 hj), ← sum_erase_add _ _ (mem_range.2 hj)]
      rw [sum_congr rfl (fun i hi => show bump c p j d p i = c p i by simp [bump, (mem_erase.1 hi).1])]
      simp only [bump, true_and, if_true]
      ring
    rw [e]
    field_simp
    ring
  · have e : ∑ i ∈ range (nsp p), bump c q j d p i = ∑ i ∈ range (nsp p), c p i :=
      sum_congr rfl fun i _ => by simp [bump, h]
    rw [e, sub_self, zero_div]

/-- The other rows: the difference quotient of the rate, and with time derivative one over the time step on
the diagonal. -/
theorem jac_row {p k q j : ℕ} (hk : k ≠ large p) (hs : 0 < sd q) (hdt : dt ≠ 0) :
    jac nsp sd large rate c old false dt p k q j
      = -(rate (bump c q j (max (1e-10 * sd q) (|c q j| * 1e-7))) p k - rate c p k) / max (1e-10 * sd q) (|c q j| * 1e-7) ∧
    jac nsp sd large rate c old true dt p k q j
      = (if p = q ∧ k = j then 1 / dt else 0) + jac nsp sd large rate c old false dt p k q j := by
  have hd := (dc_pos (x := c q j) hs).1.ne'
  constructor
  · simp only [jac, funEval, if_neg hk, Bool.false_eq_true, if_false, dc]
    ring
  · unfold jac
    generalize dc (sd q) (c q j) = d at *
    simp only [funEval, if_neg hk, Bool.false_eq_true, if_false, if_true]
    have e : bump c q j d p k = if p = q ∧ k = j then c p k + d else c p k := rfl
    rw [e]
    split_ifs with h
    · field_simp
      ring
    · rw [zero_add]
      congr 1
      ring

/-- The perturbation changes one concentration only, upwards. -/
theorem bump_spec (d : ℝ) (q j p k : ℕ) : bump c q j d p k = c p k + if p = q ∧ k = j then d else 0 := by
  unfold bump
  split_ifs <;> simp

/-! ## Damping -/

/-- For an unknown between zero and one: the factor does not grow and stays nonnegative, the divisor is not
zero, and the step with the new factor ends between zero (less 1e-16) and one. -/
theorem dampStep_spec {a x d : ℝ} (h0 : 0 ≤ x) (h1 : x ≤ 1) (ha : 0 ≤ a) :
    0 ≤ dampStep a x d ∧ dampStep a x d ≤ a ∧ -1e-16 ≤ x - dampStep a x d * d ∧ x - dampStep a x d * d ≤ 1 ∧
    (dampStep a x d ≠ a → d ≠ 0) := by
  have hm : (0 : ℝ) < max x 1e-10 := lt_max_of_lt_right (by norm_num)
  have hx := le_max_left x 1e-10
  unfold dampStep
  simp only [abs_of_nonneg (sub_nonneg.2 h1), abs_of_nonneg (show 0 ≤ x * 0.1 by positivity)]
  split_ifs with g1 g2 g3
  · have hd : d < 0 := by
      by_contra hd
      have := mul_nonneg ha (not_lt.1 hd)
      linarith
    have e : -0.8 * (1 - x) / d * d = -0.8 * (1 - x) := div_mul_cancel₀ _ hd.ne
    have p : 0 ≤ -0.8 * (1 - x) / d := div_nonneg_of_nonpos (by linarith) hd.le
    refine ⟨p, ?_, by rw [e]; linarith, by rw [e]; linarith, fun _ => hd.ne⟩
    by_contra hc
    have : -0.8 * (1 - x) / d * d < a * d := mul_lt_mul_of_neg_right (not_le.1 hc) hd
    rw [e] at this
    linarith
  · have hd : 0 < d := by
      by_contra hd
      have := mul_nonpos_of_nonneg_of_nonpos ha (not_lt.1 hd)
      linarith
    have e : 0.8 * x / d * d = 0.8 * x := div_mul_cancel₀ _ hd.ne'
    refine ⟨by positivity, ?_, by rw [e]; linarith, by rw [e]; linarith, fun _ => hd.ne'⟩
    by_contra hc
    have : a * d < 0.8 * x / d * d := mul_lt_mul_of_pos_right (not_le.1 hc) hd
    rw [e] at this
    linarith
  · have hd : d < 0 := by
      by_contra hd
      have := mul_nonneg ha (not_lt.1 hd)
      linarith
    have e : -2 * max x 1e-10 / d * d = -2 * max x 1e-10 := div_mul_cancel₀ _ hd.ne
    have p : 0 ≤ -2 * max x 1e-10 / d := div_nonneg_of_nonpos (by linarith) hd.le
    refine ⟨p, ?_, by rw [e]; linarith, ?_, fun _ => hd.ne⟩
    · by_contra hc
      have : -2 * max x 1e-10 / d * d < a * d := mul_lt_mul_of_neg_right (not_le.1 hc) hd
      rw [e] at this
      linarith
    · rw [e]
      linarith
  · refine ⟨ha, le_refl _, by linarith, by linarith, fun h => absurd rfl h⟩

theorem dampLoop_spec (l : List (ℝ × ℝ)) : ∀ {a : ℝ}, 0 ≤ a → (∀ q ∈ l, 0 ≤ q.1 ∧ q.1 ≤ 1) →
    0 ≤ dampLoop l a ∧ dampLoop l a ≤ a ∧
    ∀ q ∈ l, -1e-16 ≤ q.1 - dampLoop l a * q.2 ∧ q.1 - dampLoop l a * q.2 ≤ 1 := by
  induction l with
  | nil => intro a ha _; exact ⟨ha, le_refl _, by simp⟩
  | cons q l ih =>
    intro a ha h
    obtain ⟨x0, x1⟩ := h q (by simp)
    obtain ⟨g1, g2, g3, g4, -⟩ := dampStep_spec (d := q.2) x0 x1 ha
    obtain ⟨i1, i2, i3⟩ := ih g1 (fun r hr => h r (by simp [hr]))
    have e : dampLoop (q :: l) a = dampLoop l (dampStep a q.1 q.2) := rfl
    rw [e]
    refine ⟨i1, i2.trans g2, ?_⟩
    intro r hr
    rcases List.mem_cons.1 hr with rfl | hr
    · generalize dampLoop l (dampStep a r.1 r.2) = b at *
      generalize dampStep a r.1 r.2 = a' at *
      rcases le_total 0 r.2 with hd | hd
      · have := mul_le_mul_of_nonneg_right i2 hd
        have := mul_nonneg i1 hd
        constructor <;> linarith
      · have := mul_le_mul_of_nonpos_right i2 hd
        have := mul_nonneg_of_nonpos_of_nonpos (neg_nonpos.2 i1) hd
        constructor <;> linarith
    · exact i3 r hr

/-- The damping factor: between 0.01 and 1 and at most three times the previous one. -/
theorem damping_range {l : List (ℝ × ℝ)} {old : ℝ} (h : ∀ q ∈ l, 0 ≤ q.1 ∧ q.1 ≤ 1) (ho : 0.01 ≤ old) :
    0.01 ≤ calcDamping l old ∧ calcDamping l old ≤ 1 ∧ calcDamping l old ≤ 3 * old := by
  obtain ⟨g1, g2, g3⟩ := dampLoop_spec l zero_le_one h
  have m1 : max (dampLoop l 1) 1e-2 ≤ 1 := max_le g2 (by norm_num)
  have m2 : (0.01 : ℝ) ≤ max (dampLoop l 1) 1e-2 := le_trans (by norm_num) (le_max_right _ _)
  unfold calcDamping
  simp only
  split_ifs with q
  · exact ⟨by linarith, by linarith, by linarith⟩
  · exact ⟨m2, m1, by linarith⟩

/-- If the lower limit of the factor is not used, the step keeps all unknowns between zero (less 1e-16) and
one. -/
theorem damping_keeps {l : List (ℝ × ℝ)} {old : ℝ} (h : ∀ q ∈ l, 0 ≤ q.1 ∧ q.1 ≤ 1) (ho : 0 ≤ old)
    (hr : 0.01 ≤ dampLoop l 1) : ∀ q ∈ l, -1e-16 ≤ q.1 - calcDamping l old * q.2 ∧ q.1 - calcDamping l old * q.2 ≤ 1 := by
  obtain ⟨g1, g2, g3⟩ := dampLoop_spec l zero_le_one h
  have m : max (dampLoop l 1) 1e-2 = dampLoop l 1 := max_eq_left (le_trans (by norm_num) hr)
  have b : 0 ≤ calcDamping l old ∧ calcDamping l old ≤ dampLoop l 1 := by
    unfold calcDamping
    simp only [m]
    split_ifs with q
    · exact ⟨by positivity, q.le⟩
    · exact ⟨g1, le_refl _⟩
  intro q hq
  obtain ⟨x0, x1⟩ := h q hq
  obtain ⟨y0, y1⟩ := g3 q hq
  generalize calcDamping l old = d at *
  rcases le_total 0 q.2 with hd | hd
  · have := mul_le_mul_of_nonneg_right b.2 hd
    have := mul_nonneg b.1 hd
    constructor <;> linarith
  · have := mul_le_mul_of_nonpos_right b.2 hd
    have := mul_nonneg_of_nonpos_of_nonpos (neg_nonpos.2 b.1) hd
    constructor <;> linarith

example : 0.01 ≤ calcDamping [(0.5, 0.1), (0, 1)] 1 := (damping_range (by norm_num) (by norm_num)).1

/-- The lower limit 0.01 lets an unknown leave the interval. -/
theorem damping_limit_breaks : 1 < (0.5 : ℝ) - calcDamping [(0.5, -1000)] 1 * (-1000) := by
  norm_num [calcDamping, dampLoop, dampStep, abs_of_pos]

/-- The unknowns are concentrations, not fractions: on a surface of 2e-8 kmol/m² a species that covers half
of it may be moved to five quarters of it in an undamped step. -/
theorem damping_not_fraction : calcDamping [(1e-8, -1.5e-8)] 1 = 1 ∧
    2e-8 < (1e-8 : ℝ) - calcDamping [(1e-8, -1.5e-8)] 1 * (-1.5e-8) := by
  have e : calcDamping [(1e-8, -1.5e-8)] 1 = 1 := by
    norm_num [calcDamping, dampLoop, dampStep, abs_of_pos]
  rw [e]
  norm_num

/-- The previous factor is a static variable: after a heavily damped solve any later solve, of any object,
starts with at most three times that factor. -/
theorem damping_memory (l : List (ℝ × ℝ)) (old : ℝ) : calcDamping l old ≤ 3 * old := by
  unfold calcDamping
  simp only
  split_ifs with h
  · linarith
  · linarith

/-- An unknown above one that decreases makes the factor grow above one. -/
theorem damping_above_one : dampStep 1 2 0.01 = 80 := by
  norm_num [dampStep, abs_of_neg]

/-- The cases of the loop. -/
theorem dampStep_cases (a x d : ℝ) : (1 - 0.1 * |1 - x| < x - a * d → dampStep a x d = -0.8 * (1 - x) / d) ∧
    (x - a * d ≤ 1 - 0.1 * |1 - x| → x - a * d < 0.1 * |x| - 1e-16 → dampStep a x d = 0.8 * x / d) ∧
    (x - a * d ≤ 1 - 0.1 * |1 - x| → 0.1 * |x| - 1e-16 ≤ x - a * d → 3 * max x 1e-10 < x - a * d →
      dampStep a x d = -2 * max x 1e-10 / d) ∧
    (x - a * d ≤ 1 - 0.1 * |1 - x| → 0.1 * |x| - 1e-16 ≤ x - a * d → x - a * d ≤ 3 * max x 1e-10 →
      dampStep a x d = a) := by
  have e : |x * 0.1| = 0.1 * |x| := by rw [abs_mul, abs_of_pos (show (0 : ℝ) < 0.1 by norm_num), mul_comm]
  unfold dampStep
  simp only [e]
  refine ⟨fun h => if_pos h, fun h g => ?_, fun h g i => ?_, fun h g i => ?_⟩
  · rw [if_neg (not_lt.2 h), if_pos g]
  · rw [if_neg (not_lt.2 h), if_neg (not_lt.2 g), if_pos i]
  · rw [if_neg (not_lt.2 h), if_neg (not_lt.2 g), if_neg (not_lt.2 i)]

/-! ## Weights and norms -/

theorem wtSpecies_pos {a r s c : ℝ} (ha : 0 < a) (hr : 0 ≤ r) (hs : 0 < s) :
    0 < wtSpecies a r s c ∧ wtSpecies a r s c = a * s + r * |c| := by
  exact ⟨by unfold wtSpecies; positivity, rfl⟩

/-- The weight of a residual is zero iff its row of the Jacobian is; the norm then divides by zero. -/
theorem wtResid_zero_iff {n : ℕ} {J : ℕ → ℕ → ℝ} {w : ℕ → ℝ} (hw : ∀ j, w j ≠ 0) (k : ℕ) :
    wtResid n J w k = 0 ↔ ∀ j < n, J k j = 0 := by
  unfold wtResid
  rw [sum_eq_zero_iff_of_nonneg (fun _ _ => abs_nonneg _)]
  simp [hw]

theorem wtResid_eq {n : ℕ} {J : ℕ → ℕ → ℝ} {w : ℕ → ℝ} (hw : ∀ j, 0 ≤ w j) (k : ℕ) :
    wtResid n J w k = ∑ j ∈ range n, |J k j| * w j := by
  unfold wtResid
  exact sum_congr rfl fun j _ => by rw [abs_mul, abs_of_nonneg (hw j)]

/-- The norm is below `b` only if every entry is below `b √n` times its weight; it is the root mean square. -/
theorem wNorm_spec {n : ℕ} (hn : 0 < n) (w d : ℕ → ℝ) :
    (wNorm n w d) ^ 2 * n = ∑ i ∈ range n, (d i / w i) ^ 2 ∧ 0 ≤ wNorm n w d := by
  unfold wNorm
  rw [if_neg hn.ne']
  have hn' : (n : ℝ) ≠ 0 := by exact_mod_cast hn.ne'
  refine ⟨?_, Real.sqrt_nonneg _⟩
  rw [Real.sq_sqrt (div_nonneg (sum_nonneg fun i _ => sq_nonneg _) (Nat.cast_nonneg n))]
  field_simp

theorem wNorm_bound {n i : ℕ} (hi : i < n) {w d : ℕ → ℝ} (hw : 0 < w i) {b : ℝ} (h : wNorm n w d ≤ b) :
    (d i) ^ 2 ≤ b ^ 2 * n * (w i) ^ 2 := by
  obtain ⟨h1, h2⟩ := wNorm_spec (show 0 < n by omega) w d
  have h3 : (d i / w i) ^ 2 ≤ ∑ i ∈ range n, (d i / w i) ^ 2 :=
    single_le_sum (f := fun i => (d i / w i) ^ 2) (fun i _ => sq_nonneg _) (mem_range.2 hi)
  have h4 : (wNorm n w d) ^ 2 ≤ b ^ 2 := by nlinarith
  have h5 : (d i / w i) ^ 2 ≤ b ^ 2 * n := by
    rw [← h1] at h3
    exact h3.trans (mul_le_mul_of_nonneg_right h4 (Nat.cast_nonneg n))
  rw [div_pow, div_le_iff₀ (by positivity)] at h5
  exact h5

theorem wNorm_zero (w d : ℕ → ℝ) : wNorm 0 w d = 0 := by simp [wNorm]

example : wNorm 2 (fun _ => 1) (fun _ => 3) = 3 := by
  norm_num [wNorm, sum_range_succ]
  rw [show (9 : ℝ) = 3 ^ 2 by norm_num, Real.sqrt_sq (by norm_num)]

/-- Concentrations after a step are never negative; one that is not a number becomes zero. -/
theorem crop_spec (x : Option ℝ) : 0 ≤ crop x ∧ (∀ y, x = some y → 0 ≤ y → crop x = y) ∧
    (∀ y, x = some y → y ≤ 0 → crop x = 0) ∧ crop none = 0 := by
  refine ⟨?_, ?_, ?_, rfl⟩
  · cases x with
    | none => exact le_refl _
    | some y => exact le_max_left _ _
  · rintro y rfl h
    exact max_eq_right h
  · rintro y rfl h
    exact max_eq_left h

/-! ## Time step -/

theorem calcTLoop_spec (l : List ℝ) : ∀ (i : ℕ) (s : ℝ × ℕ), s.1 ≤ (calcTLoop l i s).1 ∧
    (∀ t ∈ l, t ≤ (calcTLoop l i s).1) ∧ ((calcTLoop l i s).1 = s.1 ∨ (calcTLoop l i s).1 ∈ l) ∧
    (calcTLoop l i s = s ∨ ∃ j, l[j]? = some (calcTLoop l i s).1 ∧ (calcTLoop l i s).2 = i + j) := by
  induction l with
  | nil => intro i s; simp [calcTLoop]
  | cons t l ih =>
    intro i s
    simp only [calcTLoop]
    split_ifs with h
    · obtain ⟨h1, h2, h3, h4⟩ := ih (i + 1) (t, i)
      refine ⟨h.le.trans h1, ?_, ?_, ?_⟩
      · intro u hu
        rcases List.mem_cons.1 hu with rfl | hu
        · exact h1
        · exact h2 u hu
      · rcases h3 with h3 | h3
        · exact .inr (by rw [h3]; simp)
        · exact .inr (by simp [h3])
      · rcases h4 with h4 | ⟨j, h4, h5⟩
        · exact .inr ⟨0, by rw [h4]; simp, by rw [h4]; simp⟩
        · exact .inr ⟨j + 1, by simpa using h4, by rw [h5]; ring⟩
    · obtain ⟨h1, h2, h3, h4⟩ := ih (i + 1) s
      refine ⟨h1, ?_, ?_, ?_⟩
      · intro u hu
        rcases List.mem_cons.1 hu with rfl | hu
        · exact (not_lt.1 h).trans h1
        · exact h2 u hu
      · rcases h3 with h3 | h3
        · exact .inl h3
        · exact .inr (by simp [h3])
      · rcases h4 with h4 | ⟨j, h4, h5⟩
        · exact .inl h4
        · exact .inr ⟨j + 1, by simpa using h4, by rw [h5]; ring⟩

/-- calc_t: the inverse time step times the factor is the largest inverse time of all species, at least
1e-10; the factor grows by one half while the same species controls the step and is reset to one otherwise. -/
theorem calcT_spec (ts : List ℝ) (lo : Option ℕ) {fac : ℝ} (hf : 1 ≤ fac) :
    1 ≤ (calcT ts lo fac).2.2 ∧ 0 < (calcT ts lo fac).1 ∧
    (calcT ts lo fac).1 * (calcT ts lo fac).2.2 = (calcTLoop ts 0 (1e-10, 0)).1 ∧
    (∀ t ∈ ts, t ≤ (calcT ts lo fac).1 * (calcT ts lo fac).2.2) ∧
    1e-10 ≤ (calcT ts lo fac).1 * (calcT ts lo fac).2.2 ∧
    ((calcT ts lo fac).2.1 = lo → (calcT ts lo fac).2.2 = 1.5 * fac) ∧
    ((calcT ts lo fac).2.1 ≠ lo → (calcT ts lo fac).2.2 = 1) := by
  obtain ⟨h1, h2, h3, h4⟩ := calcTLoop_spec ts 0 (1e-10, 0)
  have hp : (0 : ℝ) < (calcTLoop ts 0 (1e-10, 0)).1 := lt_of_lt_of_le (by norm_num) h1
  have hk : 1 ≤ (calcT ts lo fac).2.2 := by
    unfold calcT
    simp only
    split_ifs
    · linarith
    · exact le_refl _
  have e : (calcT ts lo fac).1 * (calcT ts lo fac).2.2 = (calcTLoop ts 0 (1e-10, 0)).1 := by
    have : (calcT ts lo fac).1 = (calcTLoop ts 0 (1e-10, 0)).1 / (calcT ts lo fac).2.2 := rfl
    rw [this]
    field_simp
  refine ⟨hk, ?_, e, fun t ht => by rw [e]; exact h2 t ht, by rw [e]; exact h1, fun h => ?_, fun h => ?_⟩
  · by_contra hc
    have := mul_nonpos_of_nonpos_of_nonneg (not_lt.1 hc) (zero_le_one.trans hk)
    linarith
  · have h' : some (calcTLoop ts 0 (1e-10, 0)).2 = lo := h
    simp only [calcT, if_pos h']
    ring
  · have h' : ¬some (calcTLoop ts 0 (1e-10, 0)).2 = lo := h
    simp only [calcT, if_neg h']

/-- Species that are formed may change a hundred times more than species that are consumed. -/
theorem invTime_spec {sden rate x : ℝ} (hs : 0 < sden) :
    (0 < rate → invTime sden rate x = rate / (max x 1e-10 * sden) / 100) ∧
    (rate ≤ 0 → invTime sden rate x = -rate / (max x 1e-10 * sden)) ∧ 0 ≤ invTime sden rate x := by
  have hm : (0 : ℝ) < max x 1e-10 * sden := mul_pos (lt_max_of_lt_right (by norm_num)) hs
  unfold invTime
  simp only
  refine ⟨fun h => ?_, fun h => ?_, ?_⟩
  · rw [if_pos h, abs_of_pos (div_pos h hm)]
  · rw [if_neg (not_lt.2 h), abs_of_nonpos (div_nonpos_of_nonpos_of_nonneg h hm.le)]
    ring
  · split_ifs
    · positivity
    · positivity

example : (calcT [3, 5] (some 1) 1).2 = (some 1, 1.5) := by
  norm_num [calcT, calcTLoop]

end Verif.SolveSP
