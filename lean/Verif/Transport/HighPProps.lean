import Verif.Transport.HighP
import Mathlib.Analysis.SpecialFunctions.ExpDeriv
import Mathlib.Analysis.Calculus.Deriv.Slope
import Mathlib.Tactic.Ring
import Mathlib.Tactic.FieldSimp
import Mathlib.Tactic.Positivity
import Mathlib.Tactic.Linarith
import Mathlib.Tactic.LinearCombination
import Mathlib.Tactic.NormNum

/-!
# Properties of transport in dense gases (C105)
-/

namespace Verif.HighP

open Finset

/-! ## Takahashi -/

/-- What the table contains. -/
theorem rows_range : ∀ r ∈ rows, 1.01 ≤ r.DP ∧ r.DP ≤ 1.07 ∧ 0 < r.A ∧ r.A < 0.9 ∧ 0 < r.B ∧ 0 ≤ r.C ∧ r.C < 0.7 ∧
    0 < r.E ∧ 0.1 ≤ r.Pr ∧ r.Pr ≤ 5 := by
  intro r hr
  simp only [rows, List.mem_cons, List.not_mem_nil, or_false] at hr
  rcases hr with rfl | rfl | rfl | rfl | rfl | rfl | rfl | rfl | rfl | rfl | rfl | rfl | rfl | rfl | rfl | rfl | rfl <;>
    norm_num

theorem last_mem : lastRow ∈ rows := by
  simp [rows, lastRow]

theorem search_some {Pr : ℝ} {l : List Row} {a b : Row} (h : search Pr l = some (a, b)) (h0 : ∀ r ∈ l.head?, r.Pr ≤ Pr) :
    a ∈ l ∧ b ∈ l ∧ a.Pr ≤ Pr ∧ Pr < b.Pr := by
  induction l with
  | nil => simp [search] at h
  | cons r t ih =>
    cases t with
    | nil => simp [search] at h
    | cons u t =>
      unfold search at h
      split_ifs at h with hu
      · simp only [Option.some.injEq, Prod.mk.injEq] at h
        obtain ⟨rfl, rfl⟩ := h
        refine ⟨by simp, by simp, h0 _ (by simp), hu⟩
      · have := ih h (by
          intro r' hr'
          simp only [List.head?_cons, Option.mem_def, Option.some.injEq] at hr'
          rw [← hr']
          exact not_lt.1 hu)
        exact ⟨List.mem_cons_of_mem _ this.1, List.mem_cons_of_mem _ this.2.1, this.2.2⟩

theorem search_none {Pr : ℝ} {l : List Row} (h : ∀ r ∈ l, r.Pr ≤ Pr) : search Pr l = none := by
  induction l with
  | nil => rfl
  | cons r t ih =>
    cases t with
    | nil => rfl
    | cons u t =>
      unfold search
      rw [if_neg (not_lt.2 (h u (by simp)))]
      exact ih (fun r hr => h r (List.mem_cons_of_mem _ hr))

theorem search_all {Pr : ℝ} {l : List Row} (h : search Pr l = none) : ∀ r ∈ l.tail, r.Pr ≤ Pr := by
  induction l with
  | nil => simp
  | cons r t ih =>
    cases t with
    | nil => simp
    | cons u t =>
      unfold search at h
      split_ifs at h with hu
      intro q hq
      rw [List.tail_cons, List.mem_cons] at hq
      rcases hq with rfl | hq
      · exact not_lt.1 hu
      · exact ih h q hq

theorem takahashi_low {Pr : ℝ} (h : Pr < 0.1) (Tr : ℝ) : takahashi Pr Tr = 1 := by
  unfold takahashi
  rw [if_pos h]

theorem takahashi_high {Pr : ℝ} (h : 5 ≤ Pr) (Tr : ℝ) : takahashi Pr Tr = 1.07 * (1 - 0.890390 * Tr ^ (-3.13001 : ℝ)) := by
  unfold takahashi
  rw [if_neg (by norm_num; linarith), search_none (fun r hr => (rows_range r hr).2.2.2.2.2.2.2.2.2.trans h)]
  simp only [DPR, lastRow]
  norm_num

/-- Between the ends of the table: linear between two columns around the reduced pressure. -/
theorem takahashi_between {Pr : ℝ} (h0 : 0.1 ≤ Pr) (h1 : Pr < 5) (Tr : ℝ) :
    ∃ a ∈ rows, ∃ b ∈ rows, a.Pr ≤ Pr ∧ Pr < b.Pr ∧
      takahashi Pr Tr = (DPR a Tr * (b.Pr - Pr) + DPR b Tr * (Pr - a.Pr)) / (b.Pr - a.Pr) := by
  rcases hs : search Pr rows with _ | ⟨a, b⟩
  · exfalso
    have := search_all hs lastRow (by simp [rows, lastRow])
    norm_num [lastRow] at this
    linarith
  · obtain ⟨ha, hb, h2, h3⟩ := search_some hs (by
      intro r hr
      simp only [rows, List.head?_cons, Option.mem_def, Option.some.injEq] at hr
      rw [← hr]
      exact h0)
    refine ⟨a, ha, b, hb, h2, h3, ?_⟩
    unfold takahashi
    rw [if_neg (not_lt.2 h0), hs]
    have hd : b.Pr - a.Pr ≠ 0 := by linarith
    simp only
    field_simp
    ring

/-- At the reduced pressures of the table its columns are used. -/
theorem takahashi_first (Tr : ℝ) : takahashi 0.1 Tr = 1.01 * (1 - 0.038042 * Tr ^ (-1.52267 : ℝ)) := by
  unfold takahashi rows
  simp only [search, DPR]
  norm_num

theorem takahashi_one (Tr : ℝ) : takahashi 1 Tr =
    1.02 * (1 - 0.385736 * Tr ^ (-3.07773 : ℝ)) * (1 - 0.141211 * Tr ^ (-13.45454 : ℝ)) := by
  unfold takahashi rows
  simp only [search, DPR]
  norm_num

/-- Between two columns, with all their constants. -/
theorem takahashi_2_75 (Tr : ℝ) : takahashi 2.75 Tr =
    (1.04 * (1 - 0.790770 * Tr ^ (-3.27984 : ℝ)) +
      1.05 * (1 - 0.502100 * Tr ^ (-3.39031 : ℝ)) * (1 - 0.602907 * Tr ^ (-6.19043 : ℝ))) / 2 := by
  unfold takahashi rows
  simp only [search, DPR]
  norm_num
  ring

theorem DPR_range {r : Row} (hr : r ∈ rows) {Tr : ℝ} (h : 1 ≤ Tr) : 0 < DPR r Tr ∧ DPR r Tr ≤ 1.07 := by
  obtain ⟨a1, a2, a3, a4, a5, a6, a7, a8, _, _⟩ := rows_range r hr
  have p : ∀ {B : ℝ}, 0 < B → 0 < Tr ^ (-B) ∧ Tr ^ (-B) ≤ 1 := fun hB =>
    ⟨Real.rpow_pos_of_pos (by linarith) _, Real.rpow_le_one_of_one_le_of_nonpos h (by linarith)⟩
  obtain ⟨b1, b2⟩ := p a5
  obtain ⟨c1, c2⟩ := p a8
  unfold DPR
  generalize Tr ^ (-r.B) = u at b1 b2
  generalize Tr ^ (-r.E) = v at c1 c2
  have hu : 0 < 1 - r.A * u := by nlinarith
  have hu' : 1 - r.A * u ≤ 1 := by nlinarith
  have hv : 0 < 1 - r.C * v := by nlinarith
  have hv' : 1 - r.C * v ≤ 1 := by nlinarith
  have hd : 0 < r.DP := by linarith
  refine ⟨by positivity, ?_⟩
  calc r.DP * (1 - r.A * u) * (1 - r.C * v) ≤ r.DP * (1 - r.A * u) * 1 := by gcongr
    _ ≤ r.DP * 1 * 1 := by gcongr
    _ ≤ 1.07 := by linarith

/-- Above the critical temperature the factor is positive and at most 1.07. -/
theorem takahashi_range (Pr : ℝ) {Tr : ℝ} (h : 1 ≤ Tr) : 0 < takahashi Pr Tr ∧ takahashi Pr Tr ≤ 1.07 := by
  by_cases h0 : Pr < 0.1
  · rw [takahashi_low h0]
    norm_num
  · by_cases h1 : Pr < 5
    · obtain ⟨a, ha, b, hb, h2, h3, e⟩ := takahashi_between (not_lt.1 h0) h1 Tr
      obtain ⟨a1, a2⟩ := DPR_range ha h
      obtain ⟨b1, b2⟩ := DPR_range hb h
      rw [e]
      have hd : 0 < b.Pr - a.Pr := by linarith
      constructor
      · apply div_pos _ hd
        have q1 : 0 < DPR a Tr * (b.Pr - Pr) := mul_pos a1 (by linarith)
        have q2 : 0 ≤ DPR b Tr * (Pr - a.Pr) := mul_nonneg b1.le (by linarith)
        linarith
      · rw [div_le_iff₀ hd]
        have q1 : DPR a Tr * (b.Pr - Pr) ≤ 1.07 * (b.Pr - Pr) := mul_le_mul_of_nonneg_right a2 (by linarith)
        have q2 : DPR b Tr * (Pr - a.Pr) ≤ 1.07 * (Pr - a.Pr) := mul_le_mul_of_nonneg_right b2 (by linarith)
        linarith
    · have e : takahashi Pr Tr = DPR lastRow Tr := by
        rw [takahashi_high (not_lt.1 h1)]
        simp [DPR, lastRow]
      rw [e]
      exact DPR_range last_mem h

/-- The factor jumps at the reduced pressure 0.1: the comment on lines 30-31 speaks of an interpolation. -/
theorem takahashi_jump : (∀ Pr < (0.1 : ℝ), takahashi Pr 1 = 1) ∧ takahashi 0.1 1 < 0.972 := by
  refine ⟨fun Pr h => takahashi_low h 1, ?_⟩
  rw [takahashi_first, Real.one_rpow]
  norm_num

/-- Far below the critical temperature it is negative. -/
theorem takahashi_negative : takahashi 0.1 (1 / 100) < 0 := by
  rw [takahashi_first]
  have h : (100 : ℝ) ≤ (1 / 100 : ℝ) ^ (-1.52267 : ℝ) := by
    rw [one_div, Real.inv_rpow (by norm_num), ← Real.rpow_neg (by norm_num), neg_neg]
    calc (100 : ℝ) = 100 ^ (1 : ℝ) := by rw [Real.rpow_one]
      _ ≤ _ := Real.rpow_le_rpow_of_exponent_le (by norm_num) (by norm_num)
  linarith

/-! ## Correction factors and diffusion coefficients -/

theorem corr_eq (g : Gas) (i j : ℕ) :
    corr g i j = max (takahashi
        (g.p * (max (1 / 10 ^ 20) (g.x i) + max (1 / 10 ^ 20) (g.x j)) /
          (max (1 / 10 ^ 20) (g.x i) * g.Pc i + max (1 / 10 ^ 20) (g.x j) * g.Pc j))
        (g.T * (max (1 / 10 ^ 20) (g.x i) + max (1 / 10 ^ 20) (g.x j)) /
          (max (1 / 10 ^ 20) (g.x i) * g.Tc i + max (1 / 10 ^ 20) (g.x j) * g.Tc j))) 0 ∨ corr g i j = 1 / 10 ^ 20 := by
  unfold corr tiny
  simp only
  have e : ∀ P a b : ℝ, P / (max (1 / 10 ^ 20) (g.x i) / (max (1 / 10 ^ 20) (g.x i) + max (1 / 10 ^ 20) (g.x j)) * a +
      max (1 / 10 ^ 20) (g.x j) / (max (1 / 10 ^ 20) (g.x i) + max (1 / 10 ^ 20) (g.x j)) * b) =
      P * (max (1 / 10 ^ 20) (g.x i) + max (1 / 10 ^ 20) (g.x j)) /
        (max (1 / 10 ^ 20) (g.x i) * a + max (1 / 10 ^ 20) (g.x j) * b) := by
    intro P a b
    rw [div_mul_eq_mul_div, div_mul_eq_mul_div, ← add_div, div_div_eq_mul_div]
  rw [e, e]
  split_ifs with h
  · right; rfl
  · left
    rw [max_eq_left (not_lt.1 h)]

theorem corr_symm (g : Gas) (i j : ℕ) : corr g i j = corr g j i := by
  unfold corr
  simp only
  rw [add_comm (max tiny (g.x i)) (max tiny (g.x j)),
    add_comm (max tiny (g.x i) / _ * g.Pc i), add_comm (max tiny (g.x i) / _ * g.Tc i)]

theorem corr_nonneg (g : Gas) (i j : ℕ) : 0 ≤ corr g i j := by
  unfold corr
  simp only
  split_ifs with h
  · unfold tiny
    positivity
  · exact not_lt.1 h

/-- The weights of a pair. -/
theorem weights (g : Gas) (i j : ℕ) :
    0 < max tiny (g.x i) / (max tiny (g.x i) + max tiny (g.x j)) ∧
    0 < max tiny (g.x j) / (max tiny (g.x i) + max tiny (g.x j)) ∧
    max tiny (g.x i) / (max tiny (g.x i) + max tiny (g.x j)) +
      max tiny (g.x j) / (max tiny (g.x i) + max tiny (g.x j)) = 1 := by
  have ht : (0 : ℝ) < tiny := by unfold tiny; positivity
  have h1 : 0 < max tiny (g.x i) := lt_of_lt_of_le ht (le_max_left _ _)
  have h2 : 0 < max tiny (g.x j) := lt_of_lt_of_le ht (le_max_left _ _)
  refine ⟨by positivity, by positivity, ?_⟩
  rw [← add_div, div_self (by positivity)]

/-- Well below the critical pressures of both species there is no correction. -/
theorem corr_low (g : Gas) {i j : ℕ} (hi : 0 < g.Pc i) (hj : 0 < g.Pc j) (h1 : g.p < 0.1 * g.Pc i)
    (h2 : g.p < 0.1 * g.Pc j) : corr g i j = 1 := by
  obtain ⟨a, b, s⟩ := weights g i j
  unfold corr
  simp only
  generalize max tiny (g.x i) / (max tiny (g.x i) + max tiny (g.x j)) = u at a s
  generalize max tiny (g.x j) / (max tiny (g.x i) + max tiny (g.x j)) = v at b s
  have hd : 0 < u * g.Pc i + v * g.Pc j := by positivity
  have : g.p / (u * g.Pc i + v * g.Pc j) < 0.1 := by
    rw [div_lt_iff₀ hd]
    have q1 : u * g.p < u * (0.1 * g.Pc i) := mul_lt_mul_of_pos_left h1 a
    have q2 : v * g.p < v * (0.1 * g.Pc j) := mul_lt_mul_of_pos_left h2 b
    have q3 : u * g.p + v * g.p = g.p := by rw [← add_mul, s, one_mul]
    linarith
  rw [takahashi_low this]
  norm_num

/-- Above the critical temperatures of both species the factor is positive and at most 1.07. -/
theorem corr_range (g : Gas) {i j : ℕ} (hi : 0 < g.Tc i) (hj : 0 < g.Tc j) (h1 : g.Tc i ≤ g.T) (h2 : g.Tc j ≤ g.T) :
    0 < corr g i j ∧ corr g i j ≤ 1.07 := by
  obtain ⟨a, b, s⟩ := weights g i j
  unfold corr
  simp only
  generalize max tiny (g.x i) / (max tiny (g.x i) + max tiny (g.x j)) = u at a s
  generalize max tiny (g.x j) / (max tiny (g.x i) + max tiny (g.x j)) = v at b s
  have hd : 0 < u * g.Tc i + v * g.Tc j := by positivity
  have ht : 1 ≤ g.T / (u * g.Tc i + v * g.Tc j) := by
    rw [le_div_iff₀ hd]
    have q1 : u * g.Tc i ≤ u * g.T := mul_le_mul_of_nonneg_left h1 a.le
    have q2 : v * g.Tc j ≤ v * g.T := mul_le_mul_of_nonneg_left h2 b.le
    have q3 : u * g.T + v * g.T = g.T := by rw [← add_mul, s, one_mul]
    linarith
  have := takahashi_range (g.p / (u * g.Pc i + v * g.Pc j)) ht
  rw [if_neg (not_lt.2 this.1.le)]
  exact this

theorem binary_eq {ld : ℕ} {g : Gas} (h : g.n ≤ ld) {d : ℕ → ℕ → ℝ} (hd : binary ld g = .ok d) (i j : ℕ) :
    d i j = corr g i j * g.bd i j / g.p := by
  unfold binary at hd
  rw [if_neg (not_lt.2 h)] at hd
  injection hd with hd
  rw [← hd]
  ring

theorem binary_throw {ld : ℕ} {g : Gas} : binary ld g = .throw ↔ ld < g.n := by
  unfold binary
  split_ifs with h <;> simp [h]

/-- At low pressure: the coefficients of an ideal gas mixture. -/
theorem binary_low {ld : ℕ} {g : Gas} (h : g.n ≤ ld) {d : ℕ → ℕ → ℝ} (hd : binary ld g = .ok d) {i j : ℕ}
    (hi : 0 < g.Pc i) (hj : 0 < g.Pc j) (h1 : g.p < 0.1 * g.Pc i) (h2 : g.p < 0.1 * g.Pc j) :
    d i j = g.bd i j / g.p := by
  rw [binary_eq h hd, corr_low g hi hj h1 h2, one_mul]

theorem mixDiffMole_eq {g : Gas} (hn : g.n ≠ 1) {i : ℕ}
    (h : 0 < ∑ j ∈ (range g.n).erase i, g.x j / (corr g i j * g.bd j i)) :
    mixDiffMole g i = (1 - g.x i) / (g.p * ∑ j ∈ (range g.n).erase i, g.x j / (corr g i j * g.bd j i)) ∧
    mixDiff g i = (g.mmw - g.x i * g.mw i) /
      (g.p * g.mmw * ∑ j ∈ (range g.n).erase i, g.x j / (corr g i j * g.bd j i)) := by
  unfold mixDiffMole mixDiff sum2
  rw [if_neg hn, if_neg hn, if_neg (not_le.2 h), if_neg (not_le.2 h)]
  exact ⟨rfl, rfl⟩

theorem mixDiff_pure {g : Gas} {i : ℕ} (h : ∀ j < g.n, j ≠ i → g.x j = 0) (hi : g.n = 1 → i = 0) :
    mixDiff g i = corr g i i * g.bd i i / g.p ∧ mixDiffMole g i = corr g i i * g.bd i i / g.p := by
  have hs : sum2 g i = 0 := by
    unfold sum2
    apply sum_eq_zero
    intro j hj
    rw [h j (mem_range.1 (mem_of_mem_erase hj)) (ne_of_mem_erase hj), zero_div]
  unfold mixDiff mixDiffMole
  by_cases hn : g.n = 1
  · rw [if_pos hn, if_pos hn, hi hn]
    exact ⟨rfl, rfl⟩
  · rw [if_neg hn, if_neg hn, if_pos hs.le, if_pos hs.le]
    exact ⟨rfl, rfl⟩

/-- Two species: the coefficient for mole fractions is the binary one, and that for mass fractions too. -/
theorem two_species {g : Gas} (hn : g.n = 2) (hx : g.x 0 + g.x 1 = 1) (h1 : 0 < g.x 1) (hp : 0 < g.p)
    (hc : 0 < corr g 0 1) (hb : 0 < g.bd 0 1) (hs : g.bd 1 0 = g.bd 0 1) (m1 : 0 < g.mw 1)
    (hm : g.mmw = g.x 0 * g.mw 0 + g.x 1 * g.mw 1) :
    mixDiffMole g 0 = corr g 0 1 * g.bd 0 1 / g.p ∧ mixDiffMass g 0 = corr g 0 1 * g.bd 0 1 / g.p := by
  have hr : (range g.n).erase 0 = {1} := by
    rw [hn]
    rfl
  have hs2 : 0 < ∑ j ∈ (range g.n).erase 0, g.x j / (corr g 0 j * g.bd j 0) := by
    rw [hr, sum_singleton, hs]
    positivity
  constructor
  · rw [(mixDiffMole_eq (by omega) hs2).1, hr, sum_singleton, hs]
    have : 1 - g.x 0 = g.x 1 := by linarith
    rw [this]
    field_simp
  · unfold mixDiffMass
    rw [if_neg (by omega), hr, sum_singleton, sum_singleton]
    have e : g.mmw - g.mw 0 * g.x 0 = g.x 1 * g.mw 1 := by
      rw [hm]
      ring
    rw [e]
    have e2 : g.x 1 / (corr g 0 1 * g.bd 0 1) * g.p +
        g.x 1 * g.mw 1 / (corr g 0 1 * g.bd 0 1) * (g.p * g.x 0 / (g.x 1 * g.mw 1)) =
        g.p / (corr g 0 1 * g.bd 0 1) := by
      field_simp
      linarith
    rw [e2, one_div_div]

theorem mixDiffMass_eq {g : Gas} (hn : g.n ≠ 1) (i : ℕ) : 1 / mixDiffMass g i =
    g.p * ((∑ j ∈ (range g.n).erase i, g.x j / (corr g i j * g.bd i j)) +
      g.x i / (g.mmw - g.mw i * g.x i) * ∑ j ∈ (range g.n).erase i, g.x j * g.mw j / (corr g i j * g.bd i j)) := by
  unfold mixDiffMass
  rw [if_neg hn, one_div_one_div]
  ring

/-! ## Critical properties -/

theorem critLoop_spec (crit : (ℕ → ℝ) → ℝ) (m i : ℕ) (X Tc : ℕ → ℝ) :
    ((∀ k, i ≤ k → k < i + m → crit (unit k) ≤ 10 ^ 4) → ∃ Y, critLoop crit m i X Tc =
      (Y, some fun k => if i ≤ k ∧ k < i + m then crit (unit k) else Tc k)) ∧
    (∀ k, i ≤ k → k < i + m → 10 ^ 4 < crit (unit k) → (∀ l, i ≤ l → l < k → crit (unit l) ≤ 10 ^ 4) →
      critLoop crit m i X Tc = (unit k, none)) := by
  induction m generalizing i X Tc with
  | zero =>
    constructor
    · intro _
      refine ⟨X, ?_⟩
      unfold critLoop
      congr 2
      funext k
      rw [if_neg (by omega)]
    · intro k h1 h2
      omega
  | succ m ih =>
    constructor
    · intro h
      obtain ⟨Y, hY⟩ := (ih (i + 1) (unit i) (Function.update Tc i (crit (unit i)))).1
        (fun k h1 h2 => h k (by omega) (by omega))
      refine ⟨Y, ?_⟩
      unfold critLoop
      rw [if_neg (not_lt.2 (h i le_rfl (by omega))), hY]
      congr 2
      funext k
      by_cases hk : k = i
      · subst hk
        rw [if_neg (by omega), Function.update_self, if_pos (by omega)]
      · rw [Function.update_of_ne hk]
        by_cases h2 : i + 1 ≤ k ∧ k < i + 1 + m
        · rw [if_pos h2, if_pos (by omega)]
        · rw [if_neg h2, if_neg (by omega)]
    · intro k h1 h2 h3 h4
      unfold critLoop
      by_cases hk : k = i
      · subst hk
        rw [if_pos h3]
      · rw [if_neg (not_lt.2 (h4 i le_rfl (by omega)))]
        exact (ih (i + 1) _ _).2 k (by omega) (by omega) h3 (fun l a b => h4 l (by omega) b)

/-- All critical temperatures defined: those of the pure species are stored and the composition is as before. -/
theorem initCrit_ok {crit : (ℕ → ℝ) → ℝ} {n : ℕ} (h : ∀ k < n, crit (unit k) ≤ 10 ^ 4) (X Tc : ℕ → ℝ) :
    ∃ t, initCrit crit n X Tc = (X, some t) ∧ ∀ k < n, t k = crit (unit k) := by
  obtain ⟨Y, hY⟩ := (critLoop_spec crit n 0 X Tc).1 (fun k _ hk => h k (by omega))
  unfold initCrit
  rw [hY]
  refine ⟨_, rfl, fun k hk => ?_⟩
  rw [if_pos (by omega)]

/-- After the exception the phase contains only the first species without critical properties: the composition of the
caller is lost. -/
theorem initCrit_throw {crit : (ℕ → ℝ) → ℝ} {n k : ℕ} (hk : k < n) (h : 10 ^ 4 < crit (unit k))
    (hl : ∀ l < k, crit (unit l) ≤ 10 ^ 4) (X Tc : ℕ → ℝ) : initCrit crit n X Tc = (unit k, none) := by
  unfold initCrit
  rw [(critLoop_spec crit n 0 X Tc).2 k (by omega) (by omega) h (fun l _ b => hl l b)]

example : initCrit (fun X => if X 1 = 1 then 10 ^ 5 else 300) 2 (fun _ => 1 / 2) (fun _ => 0) = (unit 1, none) := by
  apply initCrit_throw (by norm_num)
  · norm_num [unit]
  · intro l hl
    have : l = 0 := by omega
    subst this
    norm_num [unit]

/-! ## Lucas -/

theorem heavy_zero_le (mw x : ℕ → ℝ) (n : ℕ) : (heavy mw x n).2.2 ≤ (heavy mw x n).1 := by
  induction n with
  | zero => exact le_rfl
  | succ n ih =>
    unfold heavy
    simp only
    split_ifs with h1 h2
    · exact ih.trans h1.le
    · exact h2.le.trans ih
    · exact ih

/-- The weights found are the largest and the smallest, the mole fraction belongs to a heaviest species. -/
theorem heavy_spec (mw x : ℕ → ℝ) {n : ℕ} (hn : 0 < n) :
    (∀ k < n, mw k ≤ (heavy mw x n).1 ∧ (heavy mw x n).2.2 ≤ mw k) ∧
    (∃ k < n, mw k = (heavy mw x n).1 ∧ x k = (heavy mw x n).2.1) ∧ ∃ k < n, mw k = (heavy mw x n).2.2 := by
  induction n with
  | zero => omega
  | succ n ih =>
    by_cases h0 : n = 0
    · subst h0
      have : heavy mw x 1 = (mw 0, x 0, mw 0) := by
        unfold heavy
        simp [heavy]
      rw [this]
      refine ⟨fun k hk => ?_, ⟨0, by omega, rfl, rfl⟩, 0, by omega, rfl⟩
      have : k = 0 := by omega
      subst this
      exact ⟨le_rfl, le_rfl⟩
    · obtain ⟨a, ⟨k1, b1, b2, b3⟩, k2, c1, c2⟩ := ih (by omega)
      have hz := heavy_zero_le mw x n
      unfold heavy
      simp only
      split_ifs with h1 h2
      · refine ⟨fun k hk => ?_, ⟨n, by omega, rfl, rfl⟩, k2, by omega, c2⟩
        by_cases e : k = n
        · subst e
          exact ⟨le_rfl, hz.trans h1.le⟩
        · exact ⟨(a k (by omega)).1.trans h1.le, (a k (by omega)).2⟩
      · refine ⟨fun k hk => ?_, ⟨k1, by omega, b2, b3⟩, n, by omega, rfl⟩
        by_cases e : k = n
        · subst e
          exact ⟨not_lt.1 h1, le_rfl⟩
        · exact ⟨(a k (by omega)).1, h2.le.trans (a k (by omega)).2⟩
      · refine ⟨fun k hk => ?_, ⟨k1, by omega, b2, b3⟩, k2, by omega, c2⟩
        by_cases e : k = n
        · subst e
          exact ⟨not_lt.1 h1, not_lt.1 h2⟩
        · exact a k (by omega)

/-- The factor `A` is one unless the weights differ by more than a factor of nine and the heaviest species has a mole
fraction between 0.05 and 0.7. -/
theorem factorA_eq (mw x : ℕ → ℝ) (n : ℕ) :
    ((heavy mw x n).1 ≤ 9 * (heavy mw x n).2.2 → 0 < (heavy mw x n).2.2 → factorA mw x n = 1) ∧
    ((heavy mw x n).2.1 ≤ 0.05 → factorA mw x n = 1) ∧ (0.7 ≤ (heavy mw x n).2.1 → factorA mw x n = 1) ∧
    (9 * (heavy mw x n).2.2 < (heavy mw x n).1 → 0 < (heavy mw x n).2.2 → 0.05 < (heavy mw x n).2.1 →
      (heavy mw x n).2.1 < 0.7 →
      factorA mw x n = 1 - ((heavy mw x n).1 / (heavy mw x n).2.2) ^ (0.87 : ℝ) / 100) := by
  unfold factorA
  simp only
  refine ⟨fun h h0 => ?_, fun h => ?_, fun h => ?_, fun h h0 h1 h2 => ?_⟩
  · rw [if_neg]
    rintro ⟨a, _⟩
    rw [gt_iff_lt, lt_div_iff₀ h0] at a
    linarith
  · rw [if_neg]
    rintro ⟨_, a, _⟩
    linarith
  · rw [if_neg]
    rintro ⟨_, _, a⟩
    linarith
  · rw [if_pos ⟨by rw [gt_iff_lt, lt_div_iff₀ h0]; exact h, h1, h2⟩]
    ring

/-- Species with the same critical properties: the mixture has them. -/
theorem lucas_same {R : ℝ} {n : ℕ} {x Tc Zc Vc : ℕ → ℝ} {T Z V : ℝ} (hx : ∑ i ∈ range n, x i = 1)
    (hT : ∀ i < n, Tc i = T) (hZ : ∀ i < n, Zc i = Z) (hV : ∀ i < n, Vc i = V) :
    lucasTc n x Tc = T ∧ lucasPc R n x Tc Zc Vc = R * T * Z / V := by
  have h1 : lucasTc n x Tc = T := by
    unfold lucasTc
    rw [sum_congr rfl (fun i hi => by rw [hT i (mem_range.1 hi)]), ← mul_sum, hx, mul_one]
  refine ⟨h1, ?_⟩
  unfold lucasPc
  rw [h1, sum_congr rfl (fun i hi => by rw [hZ i (mem_range.1 hi)] : ∀ i ∈ range n, x i * Zc i = x i * Z), ← sum_mul,
    sum_congr rfl (fun i hi => by rw [hV i (mem_range.1 hi)] : ∀ i ∈ range n, x i * Vc i = x i * V), ← sum_mul, hx,
    one_mul, one_mul]

theorem lucas_eq (R : ℝ) (n : ℕ) (x Tc Zc Vc : ℕ → ℝ) :
    lucasTc n x Tc = ∑ i ∈ range n, x i * Tc i ∧ lucasPc R n x Tc Zc Vc * (∑ i ∈ range n, x i * Vc i) =
      if ∑ i ∈ range n, x i * Vc i = 0 then 0 else R * (∑ i ∈ range n, x i * Tc i) * ∑ i ∈ range n, x i * Zc i := by
  have h1 : lucasTc n x Tc = ∑ i ∈ range n, x i * Tc i := by
    unfold lucasTc
    exact sum_congr rfl (fun i _ => mul_comm _ _)
  refine ⟨h1, ?_⟩
  unfold lucasPc
  rw [h1]
  split_ifs with h
  · rw [h, mul_zero]
  · rw [div_mul_cancel₀ _ h]

theorem polarity_ge (mu Tr Zc : ℝ) : 1 ≤ polarity mu Tr Zc := by
  have h : 0 ≤ (max (0.292 - Zc) 0) ^ (1.72 : ℝ) := Real.rpow_nonneg (le_max_right _ _) _
  unfold polarity
  split_ifs
  · exact le_rfl
  · nlinarith
  · have := abs_nonneg (0.96 + 0.1 * (Tr - 0.7))
    have : 0 ≤ 30.55 * (max (0.292 - Zc) 0) ^ (1.72 : ℝ) * |0.96 + 0.1 * (Tr - 0.7)| := by positivity
    linarith

theorem polarity_one {mu Tr Zc : ℝ} (h : mu < 0.022 ∨ 0.292 ≤ Zc) : polarity mu Tr Zc = 1 := by
  unfold polarity
  rcases h with h | h
  · rw [if_pos h]
  · have : max (0.292 - Zc) 0 = 0 := max_eq_right (by linarith)
    rw [this, Real.zero_rpow (by norm_num)]
    simp

theorem polarity_polar {mu Tr Zc : ℝ} (h : Zc ≤ 0.292) :
    (0.022 ≤ mu → mu < 0.075 → polarity mu Tr Zc = 1 + 30.55 * (0.292 - Zc) ^ (1.72 : ℝ)) ∧
    (0.075 ≤ mu → polarity mu Tr Zc = 1 + 30.55 * (0.292 - Zc) ^ (1.72 : ℝ) * |0.89 + 0.1 * Tr|) := by
  have hm : max (0.292 - Zc) 0 = 0.292 - Zc := max_eq_left (by linarith)
  unfold polarity
  rw [hm]
  constructor
  · intro a b
    rw [if_neg (not_lt.2 a), if_pos b]
  · intro a
    rw [if_neg (by norm_num; linarith), if_neg (not_lt.2 a)]
    congr 3
    ring

/-- The dilute gas viscosity is positive at every temperature. -/
theorem lowNd_pos {Tr FP FQ : ℝ} (h : 0 < Tr) (hP : 0 < FP) (hQ : 0 < FQ) : 0 < lowNd Tr FP FQ := by
  unfold lowNd
  apply mul_pos (mul_pos _ hP) hQ
  have e2 : 0 < Real.exp (-4.058 * Tr) := Real.exp_pos _
  have e1 : Real.exp (-0.449 * Tr) ≤ 1 := Real.exp_le_one_iff.2 (by linarith)
  by_cases h1 : 1 ≤ Tr
  · have : 1 ≤ Tr ^ (0.618 : ℝ) := Real.one_le_rpow h1 (by norm_num)
    linarith
  · push Not at h1
    set s := Tr ^ (1 / 3 : ℝ) with hs
    have s0 : 0 < s := Real.rpow_pos_of_pos h _
    have s1 : s < 1 := Real.rpow_lt_one h.le h1 (by norm_num)
    have s3 : s ^ 3 = Tr := by
      rw [hs, ← Real.rpow_natCast, ← Real.rpow_mul h.le]
      norm_num
    have s2 : s ^ 2 ≤ Tr ^ (0.618 : ℝ) := by
      rw [hs, ← Real.rpow_natCast, ← Real.rpow_mul h.le]
      exact Real.rpow_le_rpow_of_exponent_ge h h1.le (by norm_num)
    have b1 : 1 - 4.058 * Tr ≤ Real.exp (-4.058 * Tr) := by
      have := Real.add_one_le_exp (-4.058 * Tr)
      linarith
    have b2 : Real.exp (-0.449 * Tr) * (1 + 0.449 * Tr) ≤ 1 := by
      have := Real.add_one_le_exp (0.449 * Tr)
      have e : Real.exp (-0.449 * Tr) * Real.exp (0.449 * Tr) = 1 := by
        rw [← Real.exp_add]
        norm_num
      nlinarith [Real.exp_pos (-0.449 * Tr)]
    have e3 := Real.exp_pos (-0.449 * Tr)
    generalize Real.exp (-4.058 * Tr) = u at *
    generalize Real.exp (-0.449 * Tr) = v at *
    generalize Tr ^ (0.618 : ℝ) = w at *
    by_cases hc : s ≤ 0.63
    · have ht : Tr ≤ 0.2501 := by
        rw [← s3]
        nlinarith [mul_nonneg s0.le (sub_nonneg.2 hc), mul_nonneg (mul_nonneg s0.le s0.le) (sub_nonneg.2 hc)]
      have hv : v ≤ 1 - 0.398 * Tr := by
        have : 1 ≤ (1 - 0.398 * Tr) * (1 + 0.449 * Tr) := by nlinarith
        have p : 0 < 1 + 0.449 * Tr := by linarith
        exact le_of_mul_le_mul_right (b2.trans this) p
      have hpoly : 1.2377 * Tr ≤ 0.807 * s ^ 2 := by
        rw [← s3]
        nlinarith [mul_nonneg (mul_nonneg s0.le s0.le) (sub_nonneg.2 hc)]
      nlinarith
    · push Not at hc
      have q2 : 0.3969 ≤ s ^ 2 := by nlinarith
      have q3 : 0.25 ≤ Tr := by
        rw [← s3]
        nlinarith
      have hv : v ≤ 0.8992 := by
        by_contra hc
        push Not at hc
        nlinarith
      linarith

theorem Z2_throw {Tr Pr Z1 Pv Pc : ℝ} : Z2 Tr Pr Z1 Pv Pc = .throw ↔
    (Tr ≤ 1 ∧ Pv / Pc ≤ Pr) ∨ (1 < Tr ∧ Tr < 40 ∧ (Pr ≤ 0 ∨ 100 < Pr)) ∨ 40 ≤ Tr := by
  unfold Z2
  split_ifs with h1 h2 h3 h4
  · simp only [false_iff]
    rintro (⟨_, a⟩ | ⟨a, _⟩ | a) <;> linarith
  · simp only [true_iff]
    exact Or.inl ⟨h1, not_lt.1 h2⟩
  · simp only [false_iff]
    rintro (⟨a, _⟩ | ⟨_, _, a | a⟩ | a)
    · exact h1 a
    · linarith [h4.1]
    · linarith [h4.2]
    · linarith
  · simp only [true_iff]
    refine Or.inr (Or.inl ⟨not_le.1 h1, h3, ?_⟩)
    by_contra hc
    push Not at hc
    exact h4 hc
  · simp only [true_iff]
    exact Or.inr (Or.inr (not_lt.1 h3))

theorem highNd_throw {Tr Pr FP FQ Pv Pc : ℝ} : highNd Tr Pr FP FQ Pv Pc = .throw ↔
    (Tr ≤ 1 ∧ Pv / Pc ≤ Pr) ∨ (1 < Tr ∧ Tr < 40 ∧ (Pr ≤ 0 ∨ 100 < Pr)) ∨ 40 ≤ Tr := by
  rw [← Z2_throw (Z1 := lowNd Tr FP FQ)]
  unfold highNd
  rcases Z2 Tr Pr (lowNd Tr FP FQ) Pv Pc with z | _ | _ <;> simp

/-- Non polar gases without quantum effects above the critical temperature: pressure raises the viscosity. -/
theorem highNd_exceeds {Tr Pr Pv Pc : ℝ} (h1 : 1 < Tr) (h2 : Tr < 40) (h3 : 0 < Pr) (h4 : Pr ≤ 100) :
    ∃ z, highNd Tr Pr 1 1 Pv Pc = .ok z ∧ lowNd Tr 1 1 < z := by
  have hZ := lowNd_pos (by linarith : 0 < Tr) one_pos one_pos
  have hz : Z2 Tr Pr (lowNd Tr 1 1) Pv Pc = .ok (lowNd Tr 1 1 *
      (1 + la Tr * Pr ^ (1.3088 : ℝ) / (lb Tr * Pr ^ lf Tr + (1 + lc Tr * Pr ^ ld Tr) ^ (-1 : ℝ)))) := by
    unfold Z2
    rw [if_neg (not_le.2 h1), if_pos h2, if_pos ⟨h3, h4⟩]
  have ht : 0 < Tr := by linarith
  have pa : 0 < la Tr := by unfold la; positivity
  have pb : 0 < lb Tr := by
    unfold lb
    exact mul_pos pa (by linarith)
  have pc : 0 < lc Tr := by unfold lc; positivity
  have p1 : 0 < Pr ^ (1.3088 : ℝ) := Real.rpow_pos_of_pos h3 _
  have p2 : 0 < Pr ^ lf Tr := Real.rpow_pos_of_pos h3 _
  have p3 : 0 < Pr ^ ld Tr := Real.rpow_pos_of_pos h3 _
  have p4 : 0 < (1 + lc Tr * Pr ^ ld Tr) ^ (-1 : ℝ) := Real.rpow_pos_of_pos (by positivity) _
  have pf : 0 < la Tr * Pr ^ (1.3088 : ℝ) / (lb Tr * Pr ^ lf Tr + (1 + lc Tr * Pr ^ ld Tr) ^ (-1 : ℝ)) := by positivity
  unfold highNd
  rw [hz]
  refine ⟨_, rfl, ?_⟩
  unfold finish
  norm_num only [sub_self, zero_mul, add_zero, div_one, mul_one]
  nlinarith

/-- The same without polar and quantum corrections, in formulas. -/
theorem highNd_formula {Tr Pr Pv Pc : ℝ} (h1 : 1 < Tr) (h2 : Tr < 40) (h3 : 0 < Pr) (h4 : Pr ≤ 100) :
    highNd Tr Pr 1 1 Pv Pc = .ok (
      (0.807 * Tr ^ (0.618 : ℝ) - 0.357 * Real.exp (-0.449 * Tr) + 0.340 * Real.exp (-4.058 * Tr) + 0.018) *
      (1 + 1.245e-3 * Real.exp (5.1726 * Tr ^ (-0.3286 : ℝ)) / Tr * Pr ^ (1.3088 : ℝ) /
        (1.245e-3 * Real.exp (5.1726 * Tr ^ (-0.3286 : ℝ)) / Tr * (1.6553 * Tr - 1.2723) *
            Pr ^ (0.9425 * Real.exp (-0.1853 * Tr ^ (0.4489 : ℝ))) +
          (1 + 0.4489 * Real.exp (3.0578 * Tr ^ (-37.7332 : ℝ)) / Tr *
            Pr ^ (1.7368 * Real.exp (2.2310 * Tr ^ (-7.6351 : ℝ)) / Tr)) ^ (-1 : ℝ)))) := by
  unfold highNd Z2
  rw [if_neg (not_le.2 h1), if_pos h2, if_pos ⟨h3, h4⟩]
  simp only
  unfold finish lowNd la lb lc ld lf la
  norm_num only [sub_self, zero_mul, add_zero, div_one, mul_one, add_assoc]

/-- Below the critical temperature and below the vapour pressure. -/
theorem highNd_subcritical {Tr Pr Pv Pc : ℝ} (h1 : Tr ≤ 1) (h2 : Pr < Pv / Pc) :
    highNd Tr Pr 1 1 Pv Pc = .ok (0.6 + 0.76 * Pr ^ (3.262 + 14.98 * Pr ^ (5.508 : ℝ)) +
      (0.699 * Pr ^ (1.39 + 5.746 * Pr) - 0.6) * (1 - Tr)) := by
  unfold highNd Z2
  rw [if_pos h1, if_pos h2]
  simp only
  unfold finish
  norm_num only [sub_self, zero_mul, add_zero, div_one, mul_one]

/-- At the ratio one (low pressure limit) the corrections cancel. -/
theorem finish_low {z FP FQ : ℝ} (hz : z ≠ 0) (hP : FP ≠ 0) (hQ : FQ ≠ 0) : finish z z FP FQ = z := by
  unfold finish
  rw [div_self hz, Real.one_rpow, Real.log_one]
  norm_num
  rw [div_self hP, div_self hQ]
  ring

theorem finish_eq (z2 z1 FP FQ : ℝ) : finish z2 z1 FP FQ = z2 *
    ((1 + (FP - 1) * (z2 / z1) ^ (-3 : ℝ)) / FP) *
    ((1 + (FQ - 1) * (z1 / z2 - 7 / 1000 * Real.log (z2 / z1) ^ 4)) / FQ) := by
  unfold finish
  rw [one_div_div]
  norm_num

theorem lucasVisc_pos {R NA Tc MW Pc nd : ℝ} (hR : 0 < R) (hN : 0 < NA) (hT : 0 < Tc) (hM : 0 < MW) (hP : 0 < Pc)
    (h : 0 < nd) : 0 < lucasVisc R NA Tc MW Pc nd ∧
      lucasVisc R NA Tc MW Pc nd ^ 6 * (R * Tc * NA ^ 2) = nd ^ 6 * MW ^ 3 * Pc ^ 4 := by
  have hb : 0 < R * Tc * NA ^ (2 : ℕ) / (MW ^ (3 : ℕ) * Pc ^ (4 : ℕ)) := by positivity
  have hx : ((R * Tc * NA ^ (2 : ℕ) / (MW ^ (3 : ℕ) * Pc ^ (4 : ℕ))) ^ (1 / 6 : ℝ)) ^ 6 =
      R * Tc * NA ^ (2 : ℕ) / (MW ^ (3 : ℕ) * Pc ^ (4 : ℕ)) := by
    rw [← Real.rpow_natCast, ← Real.rpow_mul hb.le]
    norm_num
  unfold lucasVisc
  refine ⟨div_pos h (Real.rpow_pos_of_pos hb _), ?_⟩
  rw [div_pow, hx]
  field_simp

/-! ## Chung -/

section chung

variable (c : Chung)

theorem pair_const {a : ℝ} {f : ℕ → ℕ → ℝ} (hx : ∑ i ∈ range c.n, c.x i = 1)
    (hf : ∀ i < c.n, ∀ j < c.n, f i j = a) : c.pair f = a := by
  unfold Chung.pair
  have : ∀ i ∈ range c.n, ∑ j ∈ range c.n, c.x i * c.x j * f i j = c.x i * a := by
    intro i hi
    have : ∀ j ∈ range c.n, c.x i * c.x j * f i j = c.x i * a * c.x j := by
      intro j hj
      rw [hf i (mem_range.1 hi) j (mem_range.1 hj)]
      ring
    rw [sum_congr rfl this, ← mul_sum, hx, mul_one]
  rw [sum_congr rfl this, ← sum_mul, hx, one_mul]

/-- Species with the same parameters, in any proportion: the mixture has them. -/
theorem chung_same {s e o m d : ℝ} (hs : 0 < s) (he : 0 < e) (hm : 0 < m) (hd : 0 ≤ d)
    (hx : ∑ i ∈ range c.n, c.x i = 1) (h1 : ∀ i < c.n, c.sig i = s) (h2 : ∀ i < c.n, c.eps i = e)
    (h3 : ∀ i < c.n, c.om i = o) (h4 : ∀ i < c.n, c.mw i = m) (h5 : ∀ i < c.n, c.dip i = d) :
    c.sigMix = s ∧ c.epsMix = e ∧ c.omMix = o ∧ c.mwMix = m ∧ c.muMix = d := by
  have es : ∀ i < c.n, ∀ j < c.n, c.sij i j = s := by
    intro i hi j hj
    unfold Chung.sij
    rw [h1 i hi, h1 j hj, Real.sqrt_mul_self hs.le]
  have ee : ∀ i < c.n, ∀ j < c.n, c.eij i j = e := by
    intro i hi j hj
    unfold Chung.eij
    rw [h2 i hi, h2 j hj, Real.sqrt_mul_self he.le]
  have r3 : (s ^ (3 : ℕ)) ^ (1 / 3 : ℝ) = s := by
    rw [← Real.rpow_natCast, ← Real.rpow_mul hs.le]
    norm_num
  have a1 : c.sigMix = s := by
    unfold Chung.sigMix
    rw [pair_const c hx (a := s ^ 3) (fun i hi j hj => by rw [es i hi j hj]), r3]
  have a2 : c.epsMix = e := by
    unfold Chung.epsMix
    rw [pair_const c hx (a := e * s ^ 3) (fun i hi j hj => by rw [es i hi j hj, ee i hi j hj]), a1]
    field_simp
  refine ⟨a1, a2, ?_, ?_, ?_⟩
  · unfold Chung.omMix
    rw [pair_const c hx (a := o * s ^ 3) (fun i hi j hj => by rw [es i hi j hj, h3 i hi, h3 j hj]; ring), a1]
    field_simp
  · unfold Chung.mwMix
    rw [pair_const c hx (a := e * s ^ 2 * Real.sqrt m) (fun i hi j hj => by
      rw [es i hi j hj, ee i hi j hj, h4 i hi, h4 j hj]
      congr 2
      field_simp
      ring), a1, a2]
    have : e * s ^ 2 * Real.sqrt m / (e * s * s) = Real.sqrt m := by field_simp
    rw [this, Real.sq_sqrt hm.le]
  · unfold Chung.muMix
    rw [pair_const c hx (a := (d * d) ^ 2 / s ^ 3) (fun i hi j hj => by rw [es i hi j hj, h5 i hi, h5 j hj]), a1]
    have : s ^ (3 : ℕ) * ((d * d) ^ 2 / s ^ 3) = d ^ (4 : ℕ) := by
      field_simp
    rw [this, ← Real.rpow_natCast, ← Real.rpow_mul hd]
    norm_num

/-- The critical constants of a species are recovered from its parameters (volume in cm³/mol). -/
theorem chung_crit {Tc Vc : ℝ} (hV : 0 < Vc) (hs : c.sigMix = sigmaOf Vc) (he : c.epsMix = epsOf Tc) :
    c.TcMix = Tc ∧ c.VcMix = 1000 * Vc := by
  unfold Chung.TcMix Chung.VcMix
  rw [hs, he]
  unfold sigmaOf epsOf
  constructor
  · rw [mul_div_cancel₀]
    norm_num
  · have hp : 0 < Vc * 1000 := by positivity
    have : (0.809 * (Vc * 1000) ^ (1 / 3 : ℝ) / 0.809) ^ (3 : ℕ) = ((Vc * 1000) ^ (1 / 3 : ℝ)) ^ (3 : ℕ) := by
      congr 1
      norm_num
    rw [this, ← Real.rpow_natCast, ← Real.rpow_mul hp.le]
    norm_num
    ring

end chung

/-- The molar density is taken with the effective molecular weight of the mixture rule, not with the mean one: an equal
mixture of species with weights 1 and 49 and the same size and energy has mean weight 25, effective weight 7.29. -/
theorem chung_density : ∃ c : Chung, c.n = 2 ∧ c.x 0 = 1 / 2 ∧ c.x 1 = 1 / 2 ∧
    (∑ i ∈ range c.n, c.x i * c.mw i) = 25 ∧ c.mwMix = 7.29 ∧
    ∀ rho, c.molarDensity rho = 2500 / 729 * (rho / (∑ i ∈ range c.n, c.x i * c.mw i) / 1000) := by
  let c0 : Chung := ⟨2, fun _ => 1 / 2, fun _ => 1, fun _ => 1, fun _ => 0, fun i => if i = 0 then 1 else 49, fun _ => 0⟩
  have hx : ∑ i ∈ range c0.n, c0.x i = 1 := by
    show ∑ i ∈ range 2, (1 / 2 : ℝ) = 1
    simp
  have es : ∀ i j, c0.sij i j = 1 := by
    intro i j
    unfold Chung.sij
    simp [c0]
  have ee : ∀ i j, c0.eij i j = 1 := by
    intro i j
    unfold Chung.eij
    simp [c0]
  have a1 : c0.sigMix = 1 := by
    unfold Chung.sigMix
    rw [pair_const c0 hx (a := 1) (fun i _ j _ => by rw [es]; norm_num), Real.one_rpow]
  have a2 : c0.epsMix = 1 := by
    unfold Chung.epsMix
    rw [pair_const c0 hx (a := 1) (fun i _ j _ => by rw [es, ee]; norm_num), a1]
    norm_num
  have hm : (∑ i ∈ range c0.n, c0.x i * c0.mw i) = 25 := by
    show ∑ i ∈ range 2, _ = _
    simp only [sum_range_succ, sum_range_zero]
    norm_num [c0]
  have hq : c0.mwMix = 7.29 := by
    have r1 : Real.sqrt (2 * 1 * 49 / (1 + 49)) = 7 / 5 := by
      rw [show (2 * 1 * 49 / (1 + 49) : ℝ) = (7 / 5) * (7 / 5) by norm_num, Real.sqrt_mul_self (by norm_num)]
    have r2 : Real.sqrt (2 * 49 * 1 / (49 + 1)) = 7 / 5 := by
      rw [show (2 * 49 * 1 / (49 + 1) : ℝ) = (7 / 5) * (7 / 5) by norm_num, Real.sqrt_mul_self (by norm_num)]
    have r3 : Real.sqrt (2 * 49 * 49 / (49 + 49)) = 7 := by
      rw [show (2 * 49 * 49 / (49 + 49) : ℝ) = 7 * 7 by norm_num, Real.sqrt_mul_self (by norm_num)]
    have r4 : Real.sqrt (2 * 1 * 1 / (1 + 1)) = 1 := by
      rw [show (2 * 1 * 1 / (1 + 1) : ℝ) = 1 by norm_num, Real.sqrt_one]
    unfold Chung.mwMix
    rw [a1, a2]
    unfold Chung.pair
    simp only [es, ee]
    show ((∑ i ∈ range 2, ∑ j ∈ range 2, _) / _) ^ 2 = _
    simp only [sum_range_succ, sum_range_zero]
    have m0 : c0.mw 0 = 1 := by simp [c0]
    have m1 : c0.mw 1 = 49 := by simp [c0]
    have x0 : ∀ i, c0.x i = 1 / 2 := fun i => rfl
    rw [m0, m1, r1, r2, r3, r4]
    simp only [x0]
    norm_num
  refine ⟨c0, rfl, rfl, rfl, hm, hq, fun rho => ?_⟩
  unfold Chung.molarDensity
  rw [hm, hq]
  ring

theorem neufeld_pos {t : ℝ} (h : 0 < t) : 0 < neufeld t := by
  unfold neufeld
  have := Real.rpow_pos_of_pos h (0.14874 : ℝ)
  positivity

theorem neufeld_anti {t u : ℝ} (h : 0 < t) (hu : t < u) : neufeld u < neufeld t := by
  unfold neufeld
  have h1 : 1.16145 / u ^ (0.14874 : ℝ) < 1.16145 / t ^ (0.14874 : ℝ) :=
    div_lt_div_of_pos_left (by norm_num) (Real.rpow_pos_of_pos h _) (Real.rpow_lt_rpow h.le hu (by norm_num))
  have h2 : 0.52487 / Real.exp (0.77320 * u) < 0.52487 / Real.exp (0.77320 * t) :=
    div_lt_div_of_pos_left (by norm_num) (Real.exp_pos _) (Real.exp_lt_exp.2 (by linarith))
  have h3 : 2.16178 / Real.exp (2.43787 * u) < 2.16178 / Real.exp (2.43787 * t) :=
    div_lt_div_of_pos_left (by norm_num) (Real.exp_pos _) (Real.exp_lt_exp.2 (by linarith))
  linarith

theorem chungLow_pos {T ts MW om mu sigma : ℝ} (hT : 0 < T) (ht : 0 < ts) (hM : 0 < MW) (ho : om < 3.6)
    (hs : sigma ≠ 0) : 0 < chungLow T ts MW om mu sigma := by
  have hF : 0 < Fc om mu := by
    unfold Fc
    have : 0 ≤ mu ^ (4 : ℕ) := by positivity
    linarith
  have hn := neufeld_pos ht
  have hq : 0 < Real.sqrt (MW * T) := Real.sqrt_pos.2 (by positivity)
  have hss : 0 < sigma * sigma := mul_self_pos.2 hs
  unfold chungLow
  positivity

theorem chungLow_eq (T ts MW om mu sigma : ℝ) : chungLow T ts MW om mu sigma =
    26.69 / 10 ^ 7 * (1 - 0.2756 * om + 0.059035 * mu ^ 4) * Real.sqrt (MW * T) / (sigma ^ 2 *
      (1.16145 / ts ^ (0.14874 : ℝ) + 0.52487 * Real.exp (-(0.77320 * ts)) + 2.16178 * Real.exp (-(2.43787 * ts)))) := by
  unfold chungLow Fc neufeld
  rw [Real.exp_neg, Real.exp_neg, pow_two]
  simp only [div_eq_mul_inv]
  ring

open Filter Topology in
/-- The density function of Chung tends to one for vanishing density. -/
theorem G2_limit {e1 e2 e3 e4 e5 : ℝ} (h : e1 * e4 + e2 + e3 ≠ 0) :
    Tendsto (G2 e1 e2 e3 e4 e5) (𝓝[≠] 0) (𝓝 1) := by
  have hd : HasDerivAt (fun y : ℝ => 1 - Real.exp (-e4 * y)) e4 0 := by
    have h1 : HasDerivAt (fun y : ℝ => -e4 * y) (-e4) 0 := by
      simpa using (hasDerivAt_id (0 : ℝ)).const_mul (-e4)
    have h2 := (h1.exp).const_sub 1
    simpa using h2
  have t1 : Tendsto (fun y : ℝ => (1 - Real.exp (-e4 * y)) / y) (𝓝[≠] 0) (𝓝 e4) := by
    have := hasDerivAt_iff_tendsto_slope.1 hd
    refine this.congr' ?_
    filter_upwards with y
    rw [slope_def_field]
    simp
  have t2 : Tendsto G1 (𝓝[≠] 0) (𝓝 1) := by
    have : ContinuousAt G1 0 := by
      unfold G1
      apply ContinuousAt.div
      · fun_prop
      · fun_prop
      · norm_num
    have h1 : G1 0 = 1 := by norm_num [G1]
    have := this.tendsto
    rw [h1] at this
    exact this.mono_left nhdsWithin_le_nhds
  have t3 : Tendsto (fun y : ℝ => Real.exp (e5 * y)) (𝓝[≠] 0) (𝓝 1) := by
    have : ContinuousAt (fun y : ℝ => Real.exp (e5 * y)) 0 := by fun_prop
    have := this.tendsto
    simp only [mul_zero, Real.exp_zero] at this
    exact this.mono_left nhdsWithin_le_nhds
  have := (((t1.const_mul e1).add ((t2.const_mul e2).mul t3)).add (t2.const_mul e3)).div_const (e1 * e4 + e2 + e3)
  have e : (e1 * e4 + e2 * 1 * 1 + e3 * 1) / (e1 * e4 + e2 + e3) = 1 := by
    rw [mul_one, mul_one, mul_one, div_self h]
  rw [e] at this
  exact this

open Filter Topology in
/-- The viscosity of Chung tends to that of the dilute gas. -/
theorem chung_limit {ts MW Vc Tc om mu : ℝ} (hV : 0 < Vc)
    (h : coef 0 om mu * coef 3 om mu + coef 1 om mu + coef 2 om mu ≠ 0) :
    Tendsto (fun rho => chungHigh ts MW rho Vc Tc om mu) (𝓝[≠] 0)
      (𝓝 (36.344 * (1 - 0.2756 * om + 0.059035 * mu ^ 4) * Real.sqrt ts / neufeld ts * Real.sqrt (MW * Tc) /
        Vc ^ (2 / 3 : ℝ))) := by
  have hy : Tendsto (fun rho : ℝ => rho * Vc / 6) (𝓝[≠] 0) (𝓝[≠] 0) := by
    apply tendsto_nhdsWithin_of_tendsto_nhds_of_eventually_within
    · have : ContinuousAt (fun rho : ℝ => rho * Vc / 6) 0 := by fun_prop
      have := this.tendsto
      simp only [zero_mul, zero_div] at this
      exact this.mono_left nhdsWithin_le_nhds
    · filter_upwards [self_mem_nhdsWithin] with r hr
      have : r ≠ 0 := hr
      simp [this, hV.ne']
  have hy0 : Tendsto (fun rho : ℝ => rho * Vc / 6) (𝓝[≠] 0) (𝓝 0) := hy.mono_right nhdsWithin_le_nhds
  have hg := (G2_limit (e5 := coef 4 om mu) h).comp hy
  have hgi := (tendsto_const_nhds (x := (1 : ℝ))).div hg one_ne_zero
  have t1 := ((hgi.add (hy0.const_mul (coef 5 om mu))).const_mul (Fc om mu)).const_mul (Real.sqrt ts / neufeld ts)
  have t2 := ((((hy0.const_mul (coef 6 om mu)).mul hy0).mul hg).mul_const
    (Real.exp (coef 7 om mu + coef 8 om mu / ts + coef 9 om mu / (ts * ts))))
  have t3 := ((((t1.add t2).mul_const (36.344 : ℝ)).mul_const (Real.sqrt (MW * Tc))).div_const (Vc ^ (2 / 3 : ℝ)))
  have e : (Real.sqrt ts / neufeld ts * (Fc om mu * (1 / 1 + coef 5 om mu * 0)) + coef 6 om mu * 0 * 0 * 1 *
      Real.exp (coef 7 om mu + coef 8 om mu / ts + coef 9 om mu / (ts * ts))) * 36.344 * Real.sqrt (MW * Tc) /
      Vc ^ (2 / 3 : ℝ) = 36.344 * (1 - 0.2756 * om + 0.059035 * mu ^ 4) * Real.sqrt ts / neufeld ts *
        Real.sqrt (MW * Tc) / Vc ^ (2 / 3 : ℝ) := by
    unfold Fc
    ring
  rw [e] at t3
  exact t3

/-- The dense gas viscosity for zero acentric factor and dipole, in numbers. -/
theorem chungHigh_simple (ts MW rho Vc Tc : ℝ) : ∃ y G1' G2' : ℝ, y = rho * Vc / 6 ∧
    G1' = (1 - y / 2) / (1 - y) ^ 3 ∧
    G2' = (6.324 * (1 - Real.exp (-6.623 * y)) / y + 1.210e-3 * G1' * Real.exp (19.745 * y) + 5.283 * G1') /
      (6.324 * 6.623 + 1.210e-3 + 5.283) ∧
    chungHigh ts MW rho Vc Tc 0 0 = 36.344 * Real.sqrt (MW * Tc) / Vc ^ (2 / 3 : ℝ) *
      (Real.sqrt ts / neufeld ts * (1 / G2' - 1.900 * y) +
        24.275 * y ^ 2 * G2' * Real.exp (0.7972 - 0.2382 / ts + 0.06863 / (ts * ts))) := by
  have c0 : ∀ k, coef k 0 0 =
      [6.324, 1.210e-3, 5.283, 6.623, 19.745, -1.900, 24.275, 0.7972, -0.2382, 0.06863].getD k 0 := by
    intro k
    unfold coef
    simp
  refine ⟨_, _, _, rfl, rfl, rfl, ?_⟩
  unfold chungHigh G2 G1 Fc
  simp only [c0, List.getD_cons_zero, List.getD_cons_succ]
  generalize rho * Vc / 6 = y
  have e1 : (0.5 : ℝ) * y = y / 2 := by ring
  have e2 : (0.7972 : ℝ) + -0.2382 / ts = 0.7972 - 0.2382 / ts := by ring
  have e3 : (6.324 : ℝ) * ((1 - Real.exp (-6.623 * y)) / y) = 6.324 * (1 - Real.exp (-6.623 * y)) / y := by ring
  rw [e1, e2, e3]
  ring

/-! ## The assumptions can be met -/

/-- Two species far below their critical pressures. -/
noncomputable def sample : Gas where
  n := 2
  T := 300
  p := 1
  mmw := 3
  x := fun _ => 1 / 2
  mw := fun i => if i = 0 then 2 else 4
  Tc := fun _ => 150
  Pc := fun _ => 100
  bd := fun _ _ => 5

example : corr sample 0 1 = 1 ∧ mixDiffMole sample 0 = 5 ∧ mixDiffMass sample 0 = 5 := by
  have hc : corr sample 0 1 = 1 := corr_low sample (by norm_num [sample]) (by norm_num [sample]) (by norm_num [sample])
    (by norm_num [sample])
  obtain ⟨a, b⟩ := two_species (g := sample) rfl (by norm_num [sample]) (by norm_num [sample]) (by norm_num [sample])
    (by rw [hc]; norm_num) (by norm_num [sample]) rfl (by norm_num [sample]) (by norm_num [sample])
  rw [hc] at a b
  refine ⟨hc, ?_, ?_⟩
  · rw [a]
    norm_num [sample]
  · rw [b]
    norm_num [sample]

example : 0 < corr sample 0 1 ∧ corr sample 0 1 ≤ 1.07 :=
  corr_range sample (by norm_num [sample]) (by norm_num [sample]) (by norm_num [sample]) (by norm_num [sample])

example : ∃ d, binary 2 sample = .ok d ∧ d 0 1 = 5 := by
  refine ⟨_, rfl, ?_⟩
  rw [binary_low (ld := 2) (g := sample) le_rfl rfl (by norm_num [sample]) (by norm_num [sample]) (by norm_num [sample])
    (by norm_num [sample])]
  norm_num [sample]

example : binary 1 sample = .throw := binary_throw.2 (by norm_num [sample])

example : ∃ z, highNd 2 1 1 1 0 1 = .ok z ∧ lowNd 2 1 1 < z :=
  highNd_exceeds (by norm_num) (by norm_num) (by norm_num) (by norm_num)

example : highNd 50 1 1 1 0 1 = .throw := highNd_throw.2 (Or.inr (Or.inr (by norm_num)))

example : takahashi 7 1 = 1.07 * (1 - 0.890390) := by
  rw [takahashi_high (by norm_num), Real.one_rpow, mul_one]

example : (heavy (fun i => (i : ℝ) + 1) (fun _ => 1 / 3) 3).1 = 3 := by
  obtain ⟨a, ⟨k, hk, e, _⟩, _⟩ := heavy_spec (fun i => (i : ℝ) + 1) (fun _ => 1 / 3) (n := 3) (by norm_num)
  have h2 := (a 2 (by norm_num)).1
  have : (k : ℝ) ≤ 2 := by exact_mod_cast (by omega : k ≤ 2)
  norm_num at h2 e ⊢
  linarith

/-- A single species. -/
noncomputable def pureGas : Chung where
  n := 1
  x := fun _ => 1
  sig := fun _ => 3
  eps := fun _ => 100
  om := fun _ => 0
  mw := fun _ => 28
  dip := fun _ => 0

example : pureGas.sigMix = 3 ∧ pureGas.mwMix = 28 := by
  have := chung_same pureGas (s := 3) (e := 100) (o := 0) (m := 28) (d := 0) (by norm_num) (by norm_num) (by norm_num)
    le_rfl (by simp [pureGas]) (fun _ _ => rfl) (fun _ _ => rfl) (fun _ _ => rfl) (fun _ _ => rfl) (fun _ _ => rfl)
  exact ⟨this.1, this.2.2.2.1⟩

example : 0 < chungLow 300 2 28 0 0 3 := chungLow_pos (by norm_num) (by norm_num) (by norm_num) (by norm_num) (by norm_num)

example : coef 0 0 0 * coef 3 0 0 + coef 1 0 0 + coef 2 0 0 ≠ 0 := by
  norm_num [coef]

end Verif.HighP
