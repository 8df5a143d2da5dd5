import Verif.Transport.CollInt
import Mathlib.LinearAlgebra.Lagrange
import Mathlib.Tactic.Ring
import Mathlib.Tactic.FieldSimp
import Mathlib.Tactic.Positivity
import Mathlib.Tactic.Linarith
import Mathlib.Tactic.LinearCombination
import Mathlib.Tactic.NormNum

/-!
# Properties of polynomial fits and of the tables of collision integrals (C106)
-/

namespace Verif.CollInt

open Finset

/-! ## polyfit -/

theorem col_pow (x : ℝ) (k : ℕ) : col x k = x ^ k := by
  induction k using Nat.strong_induction_on with
  | _ k ih =>
    match k with
    | 0 => simp [col]
    | 1 => simp [col]
    | k + 2 =>
      rw [col, ih (k + 1) (by omega)]
      ring

theorem factor_none (i : ℕ) : factor none i = 1 := rfl

theorem factor_pos {w : ℕ → ℝ} (h : 0 < w 0) {i : ℕ} (hi : 0 ≤ w i) : factor (some w) i ^ 2 = w i := by
  unfold factor
  simp only
  rw [if_pos h, Real.sq_sqrt hi]

/-- If the first weight is not positive all weights are one; the documentation asks for a negative first weight. -/
theorem factor_off {w : ℕ → ℝ} (h : w 0 ≤ 0) (i : ℕ) : factor (some w) i = 1 := by
  unfold factor
  simp only
  rw [if_neg (not_lt.2 h)]

theorem resid_eq (deg : ℕ) (x y : ℕ → ℝ) (w : Option (ℕ → ℝ)) (p : ℕ → ℝ) (i : ℕ) :
    resid deg x y w p i = factor w i * ((∑ k ∈ range (deg + 1), p k * x i ^ k) - y i) := by
  unfold resid
  rw [mul_sub, mul_sum]
  congr 1
  · apply sum_congr rfl
    intro k _
    rw [col_pow]
    ring
  · ring

theorem sq_eq (n deg : ℕ) (x y : ℕ → ℝ) (w : Option (ℕ → ℝ)) (p : ℕ → ℝ) :
    sq n deg x y w p = ∑ i ∈ range n, factor w i ^ 2 * ((∑ k ∈ range (deg + 1), p k * x i ^ k) - y i) ^ 2 := by
  unfold sq
  apply sum_congr rfl
  intro i _
  rw [resid_eq, mul_pow]

theorem polyfit_throw {qr : ((ℕ → ℝ) → ℝ) → ℕ → ℝ} {n deg : ℕ} {x y : ℕ → ℝ} {w : Option (ℕ → ℝ)} :
    polyfit qr n deg x y w = .throw ↔ n ≤ deg := by
  unfold polyfit
  split_ifs with h <;> simp [h]

/-- The error returned is the root mean square of the (weighted) deviations. -/
theorem polyfit_error {qr : ((ℕ → ℝ) → ℝ) → ℕ → ℝ} {n deg : ℕ} {x y : ℕ → ℝ} {w : Option (ℕ → ℝ)} {p : ℕ → ℝ} {e : ℝ}
    (h : polyfit qr n deg x y w = .ok (p, e)) : 0 ≤ e ∧
    e ^ 2 * n = ∑ i ∈ range n, factor w i ^ 2 * ((∑ k ∈ range (deg + 1), p k * x i ^ k) - y i) ^ 2 := by
  unfold polyfit at h
  split_ifs at h with hn
  injection h with h
  simp only [Prod.mk.injEq] at h
  obtain ⟨h1, h2⟩ := h
  rw [h1] at h2
  have hs : 0 ≤ sq n deg x y w p := sum_nonneg (fun i _ => sq_nonneg _)
  have hp : (0 : ℝ) < n := by exact_mod_cast (by omega : 0 < n)
  refine ⟨by rw [← h2]; positivity, ?_⟩
  rw [← h2, div_pow, Real.sq_sqrt hs, Real.sq_sqrt hp.le, div_mul_cancel₀ _ hp.ne', sq_eq]

/-- If the solver minimises, the deviations are orthogonal to the powers. -/
theorem normal_equations {n deg : ℕ} {x y : ℕ → ℝ} {w : Option (ℕ → ℝ)} {p : ℕ → ℝ}
    (h : ∀ q, sq n deg x y w p ≤ sq n deg x y w q) {m : ℕ} (hm : m ≤ deg) :
    ∑ i ∈ range n, factor w i ^ 2 * x i ^ m * ((∑ k ∈ range (deg + 1), p k * x i ^ k) - y i) = 0 := by
  set a := ∑ i ∈ range n, factor w i ^ 2 * (x i ^ m) ^ 2 with ha
  set b := ∑ i ∈ range n, factor w i ^ 2 * x i ^ m * ((∑ k ∈ range (deg + 1), p k * x i ^ k) - y i) with hb
  have ha0 : 0 ≤ a := sum_nonneg (fun i _ => by positivity)
  have key : ∀ t : ℝ, 0 ≤ a * t ^ 2 + 2 * b * t := by
    intro t
    have := h (fun k => p k + if k = m then t else 0)
    rw [sq_eq, sq_eq] at this
    have e : ∀ i, ∑ k ∈ range (deg + 1), (p k + if k = m then t else 0) * x i ^ k =
        (∑ k ∈ range (deg + 1), p k * x i ^ k) + t * x i ^ m := by
      intro i
      rw [← sum_add_distrib.symm.trans (sum_congr rfl (fun k _ => (add_mul _ _ _).symm))]
      congr 1
      simp only [ite_mul, zero_mul]
      rw [sum_ite_eq' (range (deg + 1)) m, if_pos (mem_range.2 (by omega))]
    have e2 : ∑ i ∈ range n, factor w i ^ 2 * ((∑ k ∈ range (deg + 1), (p k + if k = m then t else 0) * x i ^ k) - y i) ^ 2 =
        (∑ i ∈ range n, factor w i ^ 2 * ((∑ k ∈ range (deg + 1), p k * x i ^ k) - y i) ^ 2) + (a * t ^ 2 + 2 * b * t) := by
      rw [ha, hb, sum_mul, mul_sum, sum_mul, ← sum_add_distrib, ← sum_add_distrib]
      apply sum_congr rfl
      intro i _
      rw [e i]
      ring
    rw [e2] at this
    linarith
  by_contra hb0
  by_cases ha1 : a = 0
  · have := key (-b)
    rw [ha1] at this
    nlinarith [mul_self_pos.2 hb0]
  · have hp : 0 < a := lt_of_le_of_ne ha0 (Ne.symm ha1)
    have := key (-b / a)
    have e : a * (-b / a) ^ 2 + 2 * b * (-b / a) = -(b * b / a) := by
      field_simp
      ring
    rw [e] at this
    have : 0 < b * b / a := div_pos (mul_self_pos.2 hb0) hp
    linarith

/-- Data on a polynomial of the degree are fitted exactly. -/
theorem exact_data {n deg : ℕ} {x y : ℕ → ℝ} {w : Option (ℕ → ℝ)} {p : ℕ → ℝ}
    (h : ∀ q, sq n deg x y w p ≤ sq n deg x y w q) {c : ℕ → ℝ}
    (hc : ∀ i < n, y i = ∑ k ∈ range (deg + 1), c k * x i ^ k) :
    sq n deg x y w p = 0 ∧ ∀ i < n, factor w i ≠ 0 → ∑ k ∈ range (deg + 1), p k * x i ^ k = y i := by
  have h0 : sq n deg x y w c = 0 := by
    rw [sq_eq]
    apply sum_eq_zero
    intro i hi
    rw [hc i (mem_range.1 hi), sub_self]
    ring
  have h1 := h c
  rw [h0] at h1
  have hs : 0 ≤ sq n deg x y w p := sum_nonneg (fun i _ => sq_nonneg _)
  have h2 := le_antisymm h1 hs
  refine ⟨h2, fun i hi hw => ?_⟩
  unfold sq at h2
  have := (sum_eq_zero_iff_of_nonneg (fun i _ => sq_nonneg _)).1 h2 i (mem_range.2 hi)
  rw [resid_eq] at this
  have := pow_eq_zero_iff (two_ne_zero) |>.1 this
  rcases mul_eq_zero.1 this with h3 | h3
  · exact absurd h3 hw
  · linarith

/-- A polynomial of degree `deg` with more than `deg` zeros is zero. -/
theorem coeff_zero {n deg : ℕ} (hn : deg < n) {x : ℕ → ℝ} (hx : ∀ i < n, ∀ j < n, x i = x j → i = j) {c : ℕ → ℝ}
    (h : ∀ i < n, ∑ k ∈ range (deg + 1), c k * x i ^ k = 0) : ∀ k ≤ deg, c k = 0 := by
  classical
  set P : Polynomial ℝ := ∑ k ∈ range (deg + 1), Polynomial.C (c k) * Polynomial.X ^ k with hP
  have hd : P.degree < n := by
    rw [hP]
    apply lt_of_le_of_lt (Polynomial.degree_sum_le _ _)
    rw [Finset.sup_lt_iff (by exact_mod_cast WithBot.bot_lt_coe n)]
    intro k hk
    apply lt_of_le_of_lt (Polynomial.degree_C_mul_X_pow_le _ _)
    exact_mod_cast (by have := mem_range.1 hk; omega : k < n)
  have hz : P = 0 := by
    apply Polynomial.eq_zero_of_degree_lt_of_eval_finset_eq_zero ((range n).image x)
    · rw [card_image_of_injOn]
      · rw [card_range]
        exact hd
      · intro i hi j hj e
        exact hx i (by simpa using hi) j (by simpa using hj) e
    · intro t ht
      obtain ⟨i, hi, rfl⟩ := mem_image.1 ht
      rw [hP, Polynomial.eval_finsetSum]
      simp only [Polynomial.eval_mul, Polynomial.eval_C, Polynomial.eval_pow, Polynomial.eval_X]
      exact h i (mem_range.1 hi)
  intro k hk
  have : P.coeff k = c k := by
    rw [hP, Polynomial.finsetSum_coeff]
    simp only [Polynomial.coeff_C_mul_X_pow]
    rw [sum_ite_eq (range (deg + 1)) k, if_pos (mem_range.2 (by omega))]
  rw [← this, hz, Polynomial.coeff_zero]

/-- With distinct points and weights that are not zero the fit is unique. -/
theorem fit_unique {n deg : ℕ} (hn : deg < n) {x y : ℕ → ℝ} {w : Option (ℕ → ℝ)} {p q : ℕ → ℝ}
    (hx : ∀ i < n, ∀ j < n, x i = x j → i = j) (hw : ∀ i < n, factor w i ≠ 0)
    (hp : ∀ r, sq n deg x y w p ≤ sq n deg x y w r) (hq : ∀ r, sq n deg x y w q ≤ sq n deg x y w r) :
    ∀ k ≤ deg, p k = q k := by
  -- the sum of squares of the difference vanishes
  have hs : ∑ i ∈ range n, factor w i ^ 2 * (∑ k ∈ range (deg + 1), (p k - q k) * x i ^ k) ^ 2 = 0 := by
    have e : ∀ i, (∑ k ∈ range (deg + 1), (p k - q k) * x i ^ k) =
        ((∑ k ∈ range (deg + 1), p k * x i ^ k) - y i) - ((∑ k ∈ range (deg + 1), q k * x i ^ k) - y i) := by
      intro i
      simp only [sub_mul, sum_sub_distrib]
      ring
    have e1 : ∀ i, factor w i ^ 2 * (∑ k ∈ range (deg + 1), (p k - q k) * x i ^ k) ^ 2 =
        ∑ m ∈ range (deg + 1), (p m - q m) *
          (factor w i ^ 2 * x i ^ m * ((∑ k ∈ range (deg + 1), p k * x i ^ k) - y i) -
            factor w i ^ 2 * x i ^ m * ((∑ k ∈ range (deg + 1), q k * x i ^ k) - y i)) := by
      intro i
      rw [pow_two (∑ k ∈ range (deg + 1), (p k - q k) * x i ^ k)]
      nth_rewrite 2 [e i]
      rw [sum_mul, mul_sum]
      apply sum_congr rfl
      intro m _
      ring
    rw [sum_congr rfl (fun i _ => e1 i), sum_comm]
    apply sum_eq_zero
    intro m hm
    rw [← mul_sum, sum_sub_distrib, normal_equations hp (by have := mem_range.1 hm; omega),
      normal_equations hq (by have := mem_range.1 hm; omega)]
    ring
  have hz : ∀ i < n, ∑ k ∈ range (deg + 1), (p k - q k) * x i ^ k = 0 := by
    intro i hi
    have := (sum_eq_zero_iff_of_nonneg (fun i _ => by positivity)).1 hs i (mem_range.2 hi)
    rcases mul_eq_zero.1 this with h | h
    · exact absurd (pow_eq_zero_iff two_ne_zero |>.1 h) (hw i hi)
    · exact pow_eq_zero_iff two_ne_zero |>.1 h
  intro k hk
  exact sub_eq_zero.1 (coeff_zero hn hx hz k hk)

/-- As many coefficients as points: the fit passes through all points. -/
theorem interpolates {deg : ℕ} {x y : ℕ → ℝ} {w : Option (ℕ → ℝ)} {p : ℕ → ℝ}
    (hx : ∀ i < deg + 1, ∀ j < deg + 1, x i = x j → i = j) (hw : ∀ i < deg + 1, factor w i ≠ 0)
    (h : ∀ q, sq (deg + 1) deg x y w p ≤ sq (deg + 1) deg x y w q) :
    ∀ i < deg + 1, ∑ k ∈ range (deg + 1), p k * x i ^ k = y i := by
  have hinj : Set.InjOn x (range (deg + 1) : Set ℕ) := by
    intro i hi j hj e
    exact hx i (by simpa using hi) j (by simpa using hj) e
  have hd := Lagrange.degree_interpolate_lt y hinj
  rw [card_range] at hd
  intro i hi
  refine (exact_data h (c := fun k => (Lagrange.interpolate (range (deg + 1)) x y).coeff k) ?_).2 i hi (hw i hi)
  intro j hj
  rw [← Lagrange.eval_interpolate_at_node y hinj (mem_range.2 hj)]
  have hnd : (Lagrange.interpolate (range (deg + 1)) x y).natDegree < deg + 1 := by
    by_cases h0 : Lagrange.interpolate (range (deg + 1)) x y = 0
    · rw [h0, Polynomial.natDegree_zero]
      omega
    · exact (Polynomial.natDegree_lt_iff_degree_lt h0).2 hd
  rw [Polynomial.eval_eq_sum_range' hnd]

/-! ## Quadratic interpolation -/

theorem quad_nodes {x0 x1 x2 : ℝ} (h1 : x0 ≠ x1) (h2 : x1 ≠ x2) (h3 : x0 ≠ x2) (y0 y1 y2 : ℝ) :
    quad x0 x0 x1 x2 y0 y1 y2 = y0 ∧ quad x1 x0 x1 x2 y0 y1 y2 = y1 ∧ quad x2 x0 x1 x2 y0 y1 y2 = y2 := by
  have a : x1 - x0 ≠ 0 := sub_ne_zero.2 h1.symm
  have b : x2 - x1 ≠ 0 := sub_ne_zero.2 h2.symm
  have c : x1 - x0 + (x2 - x1) ≠ 0 := by
    rw [show x1 - x0 + (x2 - x1) = x2 - x0 by ring]
    exact sub_ne_zero.2 h3.symm
  unfold quad
  refine ⟨?_, ?_, ?_⟩ <;> field_simp <;> ring

/-- Quadratic functions are reproduced everywhere. -/
theorem quad_exact {x0 x1 x2 : ℝ} (h1 : x0 ≠ x1) (h2 : x1 ≠ x2) (h3 : x0 ≠ x2) (a b c t : ℝ) :
    quad t x0 x1 x2 (a + b * x0 + c * x0 ^ 2) (a + b * x1 + c * x1 ^ 2) (a + b * x2 + c * x2 ^ 2) =
      a + b * t + c * t ^ 2 := by
  have d1 : x1 - x0 ≠ 0 := sub_ne_zero.2 h1.symm
  have d2 : x2 - x1 ≠ 0 := sub_ne_zero.2 h2.symm
  have d3 : x1 - x0 + (x2 - x1) ≠ 0 := by
    rw [show x1 - x0 + (x2 - x1) = x2 - x0 by ring]
    exact sub_ne_zero.2 h3.symm
  unfold quad
  field_simp
  ring

/-! ## Tables -/

theorem tstars_length : tstars.length = 37 := rfl

theorem tstars_sorted : tstars.Pairwise (· < ·) := by
  unfold tstars
  simp only [List.pairwise_cons, List.mem_cons, forall_eq_or_imp, List.not_mem_nil, false_imp_iff, implies_true, and_true,
    List.Pairwise.nil]
  norm_num

theorem tstar_get {i : ℕ} (h : i < 37) : tstar i = tstars[i]'(by rw [tstars_length]; exact h) := by
  unfold tstar
  rw [List.getD_eq_getElem?_getD, List.getElem?_eq_getElem, Option.getD_some]

theorem tstar_lt {i j : ℕ} (h : i < j) (hj : j < 37) : tstar i < tstar j := by
  rw [tstar_get hj, tstar_get (by omega)]
  exact List.pairwise_iff_getElem.1 tstars_sorted i j _ _ h

theorem tstar_pos {i : ℕ} (hi : i < 37) : 0 < tstar i := by
  have h0 : tstar 0 = 0.1 := rfl
  rcases Nat.eq_zero_or_pos i with rfl | h
  · rw [h0]
    norm_num
  · have := tstar_lt h hi
    rw [h0] at this
    norm_num at this
    linarith

theorem search_spec {ts : ℝ} {k : ℕ} (hk : k < 37) (h1 : ts < tstar k) (h2 : ∀ j < k, tstar j ≤ ts) : search ts = k := by
  unfold search
  rw [List.findIdx_eq (by rw [tstars_length]; exact hk)]
  refine ⟨by rw [← tstar_get hk]; simpa using h1, fun j hj => ?_⟩
  rw [← tstar_get (by omega)]
  simpa using h2 j hj

theorem search_end {ts : ℝ} (h : 100 ≤ ts) : search ts = 37 := by
  unfold search
  rw [← tstars_length, List.findIdx_eq_length]
  intro t ht
  obtain ⟨i, hi, rfl⟩ := List.mem_iff_getElem.1 ht
  rw [tstars_length] at hi
  rw [← tstar_get hi]
  have : tstar i ≤ 100 := by
    have h36 : tstar 36 = 100 := by
      show (100.0 : ℝ) = 100
      norm_num
    rcases Nat.lt_or_ge i 36 with h | h
    · rw [← h36]
      exact (tstar_lt h (by norm_num)).le
    · have : i = 36 := by omega
      rw [this, h36]
  simp
  linarith

theorem tstar_36 : tstar 36 = 100 := by
  show (100.0 : ℝ) = 100
  norm_num

theorem first_le (ts : ℝ) : first ts ≤ 33 := by
  unfold first
  simp only
  split_ifs <;> omega

/-- Inside the table the temperature lies in the first of the two intervals used, or in the second near the end. -/
theorem first_bracket {ts : ℝ} {k : ℕ} (hk : k < 36) (h1 : tstar k ≤ ts) (h2 : ts < tstar (k + 1)) :
    first ts = min k 33 := by
  have hs : search ts = k + 1 := search_spec (by omega) h2 (fun j hj => by
    rcases Nat.lt_or_ge j k with h | h
    · exact (tstar_lt h (by omega)).le.trans h1
    · have : j = k := by omega
      rw [this]
      exact h1)
  unfold first
  rw [hs]
  simp only
  split_ifs <;> omega

theorem log_ne {i j : ℕ} (h : i < j) (hj : j < 37) : Real.log (tstar i) ≠ Real.log (tstar j) :=
  (Real.log_lt_log (tstar_pos (by omega)) (tstar_lt h hj)).ne

/-- At the temperatures of the table, except the last, the value of the table is returned. -/
theorem interp_node {tab P : ℕ → ℕ → ℝ} {k : ℕ} (hk : k < 36) (d : ℝ) :
    interp tab P (tstar k) d = if d = 0 then tab k 0 else poly6 d (P k) := by
  have hf := first_bracket hk le_rfl (tstar_lt (Nat.lt_succ_self k) (by omega))
  have hm : min k 33 = k ∨ min k 33 + 1 = k ∨ min k 33 + 2 = k := by omega
  show _ = value tab P d k
  unfold interp
  simp only
  rw [hf]
  have h33 : min k 33 ≤ 33 := by omega
  generalize min k 33 = m at hm h33
  obtain ⟨q0, q1, q2⟩ := quad_nodes (log_ne (i := m) (j := m + 1) (by omega) (by omega))
    (log_ne (i := m + 1) (j := m + 2) (by omega) (by omega)) (log_ne (i := m) (j := m + 2) (by omega) (by omega))
    (value tab P d m) (value tab P d (m + 1)) (value tab P d (m + 2))
  rcases hm with rfl | rfl | rfl
  · exact q0
  · exact q1
  · exact q2

/-- The last row of the tables is never used. -/
theorem last_unused {tab tab' P P' : ℕ → ℕ → ℝ} (h : ∀ i < 36, tab i = tab' i) (hP : ∀ i < 36, P i = P' i) (ts d : ℝ) :
    interp tab P ts d = interp tab' P' ts d := by
  have hf := first_le ts
  have hv : ∀ i < 36, value tab P d i = value tab' P' d i := by
    intro i hi
    unfold value
    rw [h i hi, hP i hi]
  unfold interp
  simp only
  rw [hv _ (by omega), hv _ (by omega), hv _ (by omega)]

/-- So that at the last temperature the value of the table is not returned in general. -/
theorem last_wrong (tab P : ℕ → ℕ → ℝ) : ∃ tab', (∀ i ≠ 36, tab' i = tab i) ∧ interp tab' P (tstar 36) 0 ≠ tab' 36 0 := by
  refine ⟨fun i => if i = 36 then fun _ => interp tab P (tstar 36) 0 + 1 else tab i, fun i hi => by simp [hi], ?_⟩
  rw [last_unused (tab' := tab) (P' := P) (fun i hi => by simp [show i ≠ 36 by omega]) (fun _ _ => rfl)]
  simp

theorem omega11_node {o P a Pa : ℕ → ℕ → ℝ} {k : ℕ} (hk : k < 36) : omega11 o P a Pa (tstar k) 0 = o k 0 / a k 0 := by
  unfold omega11
  rw [interp_node hk, interp_node hk, if_pos rfl, if_pos rfl]

/-! ## Range of the fits -/

theorem lastBelow_spec (ts : ℝ) (m : ℕ) :
    (lastBelow ts m = -1 ∧ ∀ n < m, ts ≤ tstar n) ∨
    ∃ n < m, lastBelow ts m = n ∧ tstar n < ts ∧ ∀ k < m, n < k → ts ≤ tstar k := by
  induction m with
  | zero => left; exact ⟨rfl, by intro n hn; omega⟩
  | succ m ih =>
    unfold lastBelow
    split_ifs with h
    · right
      exact ⟨m, by omega, rfl, h, by intro k h1 h2; omega⟩
    · have hm := not_lt.1 h
      rcases ih with ⟨a, b⟩ | ⟨n, a, b, c, d⟩
      · left
        refine ⟨a, fun n hn => ?_⟩
        rcases Nat.lt_or_ge n m with h1 | h1
        · exact b n h1
        · have : n = m := by omega
          rw [this]
          exact hm
      · right
        refine ⟨n, by omega, b, c, fun k h1 h2 => ?_⟩
        rcases Nat.lt_or_ge k m with h3 | h3
        · exact d k h3 h2
        · have : k = m := by omega
          rw [this]
          exact hm

/-- Inside the tables the fitted range encloses the requested one, by less than one entry on each side. -/
theorem init_covers {lo hi : ℝ} (h1 : 0.1 < lo) (h2 : lo ≤ hi) (h3 : hi ≤ 100) : ∃ a b : ℕ, a < b ∧ b ≤ 36 ∧
    init lo hi = ((a : ℤ), (b : ℤ)) ∧ tstar a < lo ∧ lo ≤ tstar (a + 1) ∧ tstar (b - 1) < hi ∧ hi ≤ tstar b := by
  have h0 : tstar 0 = 0.1 := rfl
  rcases lastBelow_spec lo 37 with ⟨_, b⟩ | ⟨a, a1, a2, a3, a4⟩
  · have := b 0 (by norm_num)
    rw [h0] at this
    linarith
  rcases lastBelow_spec hi 37 with ⟨_, b⟩ | ⟨b, b1, b2, b3, b4⟩
  · have := b 0 (by norm_num)
    rw [h0] at this
    linarith
  have hb : b < 36 := by
    by_contra hc
    have : b = 36 := by omega
    rw [this, tstar_36] at b3
    linarith
  have hab : a ≤ b := by
    by_contra hc
    have := b4 a a1 (by omega)
    linarith
  refine ⟨a, b + 1, by omega, by omega, ?_, a3, a4 _ (by omega) (by omega), by simpa using b3, b4 _ (by omega) (by omega)⟩
  unfold init
  simp only
  rw [a2, b2, if_neg (by omega), if_neg (by omega)]
  push_cast
  rfl

/-- Otherwise the whole table is fitted. -/
theorem init_whole {lo hi : ℝ} (h : lo ≤ 0.1 ∨ 100 < hi) : init lo hi = (0, 36) := by
  have h0 : tstar 0 = 0.1 := rfl
  unfold init
  simp only
  rw [if_pos]
  rcases h with h | h
  · left
    rcases lastBelow_spec lo 37 with ⟨b, _⟩ | ⟨a, a1, _, a3, _⟩
    · rw [b]
      norm_num
    · exfalso
      have : tstar 0 ≤ tstar a := by
        rcases Nat.eq_zero_or_pos a with rfl | hp
        · exact le_rfl
        · exact (tstar_lt hp a1).le
      rw [h0] at this
      linarith
  · right; right; right
    rcases lastBelow_spec hi 37 with ⟨_, b⟩ | ⟨a, a1, a2, a3, a4⟩
    · have := b 36 (by norm_num)
      rw [tstar_36] at this
      linarith
    · have : a = 36 := by
        by_contra hc
        have := a4 36 (by norm_num) (by omega)
        rw [tstar_36] at this
        linarith
      rw [a2, this]
      norm_num

/-- The fit throws if the range has too few entries. -/
theorem fit_throw {qr : ((ℕ → ℝ) → ℝ) → ℕ → ℝ} {tab P : ℕ → ℕ → ℝ} {a b degree : ℕ} {d : ℝ} :
    fit qr tab P ((a : ℤ), (b : ℤ)) degree d = .throw ↔ b + 1 ≤ degree + a := by
  unfold fit
  rw [polyfit_throw]
  simp only
  omega

theorem tstar_vals : tstar 14 = 2 ∧ tstar 15 = 2.5 ∧ tstar 20 = 6 ∧ tstar 21 = 7 := by
  refine ⟨?_, rfl, ?_, ?_⟩
  · show (2.0 : ℝ) = 2
    norm_num
  · show (6.0 : ℝ) = 6
    norm_num
  · show (7.0 : ℝ) = 7
    norm_num

/-- Reduced temperatures from 2.2 to 6.6, as for argon between 300 and 900 K: the fit of degree 8 throws. -/
theorem narrow_range (qr : ((ℕ → ℝ) → ℝ) → ℕ → ℝ) (tab P : ℕ → ℕ → ℝ) (d : ℝ) :
    fit qr tab P (init 2.2 6.6) 8 d = .throw := by
  obtain ⟨a, b, _, hb, e, a1, a2, b1, b2⟩ := init_covers (lo := 2.2) (hi := 6.6) (by norm_num) (by norm_num) (by norm_num)
  obtain ⟨v14, v15, v20, v21⟩ := tstar_vals
  have ha : a = 14 := by
    by_contra hc
    rcases Nat.lt_or_ge a 14 with h | h
    · have : tstar (a + 1) ≤ tstar 14 := by
        rcases Nat.lt_or_ge (a + 1) 14 with h' | h'
        · exact (tstar_lt h' (by norm_num)).le
        · rw [show a + 1 = 14 by omega]
      rw [v14] at this
      norm_num at a2
      linarith
    · have : tstar 15 ≤ tstar a := by
        rcases Nat.lt_or_ge 15 a with h' | h'
        · exact (tstar_lt h' (by omega)).le
        · rw [show a = 15 by omega]
      rw [v15] at this
      norm_num at a1 this
      linarith
  have hb : b ≤ 21 := by
    by_contra hc
    have : tstar 21 ≤ tstar (b - 1) := by
      rcases Nat.lt_or_ge 21 (b - 1) with h' | h'
      · exact (tstar_lt h' (by omega)).le
      · rw [show b - 1 = 21 by omega]
    rw [v21] at this
    norm_num at b1
    linarith
  rw [e, fit_throw]
  omega

/-- The fits do not use weights. -/
theorem fit_unweighted (i : ℕ) : factor (some fun i => if i = 0 then -1 else 0) i = 1 :=
  factor_off (by norm_num) i

/-! ## Dependence on delta -/

theorem poly6_eq (x : ℝ) (c : ℕ → ℝ) : poly6 x c = ∑ k ∈ range 7, c k * x ^ k := by
  unfold poly6
  simp only [sum_range_succ, sum_range_zero]
  ring

/-- The entries of the table of omega22 for the lowest temperature are on no polynomial of degree six, so that for
dipoles the fitted polynomial does not return all entries of the table. -/
theorem row0_inexact (c : ℕ → ℝ) : ∃ j < 8, poly6 (deltas.getD j 0) c ≠ row0.getD j 0 := by
  by_contra h
  push Not at h
  have h0 := h 0 (by norm_num)
  have h1 := h 1 (by norm_num)
  have h2 := h 2 (by norm_num)
  have h3 := h 3 (by norm_num)
  have h4 := h 4 (by norm_num)
  have h5 := h 5 (by norm_num)
  have h6 := h 6 (by norm_num)
  have h7 := h 7 (by norm_num)
  simp only [deltas, row0, poly6, List.getD_cons_zero, List.getD_cons_succ] at h0 h1 h2 h3 h4 h5 h6 h7
  norm_num at h0 h1 h2 h3 h4 h5 h6 h7
  linarith

/-! ## Examples -/

example : sq 2 1 (fun i => i) (fun i => 3 + 2 * i) none (fun k => if k = 0 then 3 else 2) = 0 := by
  rw [sq_eq]
  simp [sum_range_succ]

example : ∀ q, sq 2 1 (fun i => i) (fun i => 3 + 2 * i) none (fun k => if k = 0 then 3 else 2) ≤
    sq 2 1 (fun i => i) (fun i => 3 + 2 * i) none q := by
  intro q
  have : sq 2 1 (fun i => i) (fun i => 3 + 2 * i) none (fun k => if k = 0 then 3 else 2) = 0 := by
    rw [sq_eq]
    simp [sum_range_succ]
  rw [this]
  exact sum_nonneg (fun i _ => sq_nonneg _)

example (tab P : ℕ → ℕ → ℝ) : interp tab P 2 0 = tab 14 0 := by
  rw [← tstar_vals.1, interp_node (by norm_num), if_pos rfl]

example : init 0.05 50 = (0, 36) := init_whole (Or.inl (by norm_num))

example : quad 3 1 2 4 1 4 16 = 9 := by
  norm_num [quad]

end Verif.CollInt
