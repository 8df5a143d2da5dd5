import Verif.Thermo.BinaryTab
import Mathlib.Tactic.FieldSimp
import Mathlib.Tactic.Linarith
import Mathlib.Tactic.Ring
import Mathlib.Tactic.NormNum
import Mathlib.Tactic.Positivity

/-!
# Properties of BinarySolutionTabulatedThermo
-/

namespace Verif.BinaryTab

variable {N : ℕ} {xs ys : ℕ → ℝ} {x : ℝ}

/-- The table is sorted, without duplicates. -/
def Sorted (N : ℕ) (xs : ℕ → ℝ) : Prop := ∀ i j, i < j → j < N → xs i < xs j

theorem lowerBound_eq (i : ℕ) (hi : i < N) (h1 : x ≤ xs i)
    (h2 : ∀ j < i, xs j < x) : lowerBound N xs x = i := by
  unfold lowerBound
  have : (List.range N).find? (fun i => decide (¬ xs i < x)) = some i := by
    rw [List.find?_range_eq_some]
    refine ⟨by simpa using h1, by simpa using hi, fun j hj => by simpa using h2 j hj⟩
  rw [this]; rfl

/-- Refuted: at the first point of the table the data before the table are read. -/
theorem interpolate_first (hN : 0 < N) (hs : Sorted N xs) : interpolate N xs ys (xs 0) = .ub := by
  have h1 : ¬ xs (N - 1) < xs 0 := by
    rcases Nat.eq_or_lt_of_le (show 1 ≤ N from hN) with h | h
    · rw [← h]; simp
    · exact not_lt.2 (hs 0 (N - 1) (by omega) (by omega)).le
  have h2 := lowerBound_eq 0 hN (le_refl (xs 0)) (fun j hj => by omega)
  unfold interpolate
  rw [if_neg hN.ne', if_neg h1, if_neg (lt_irrefl _)]
  simp only [h2, if_true]

/-- Between two points the value is that of the straight line through them. -/
theorem interpolate_between (hs : Sorted N xs) (i : ℕ) (hi : i + 1 < N) (h1 : xs i < x)
    (h2 : x ≤ xs (i + 1)) : interpolate N xs ys x =
      .ok (ys i + (ys (i + 1) - ys i) * (x - xs i) / (xs (i + 1) - xs i)) := by
  have hle : ∀ a b, a ≤ b → b < N → xs a ≤ xs b := by
    intro a b hab hb
    rcases Nat.eq_or_lt_of_le hab with h | h
    · rw [h]
    · exact (hs a b h hb).le
  have g1 : ¬ xs (N - 1) < x := not_lt.2 (h2.trans (hle _ _ (by omega) (by omega)))
  have g2 : ¬ x < xs 0 := not_lt.2 ((hle 0 i (by omega) (by omega)).trans h1.le)
  have g3 := lowerBound_eq (i + 1) hi h2
    (fun j hj => (hle j i (by omega) (by omega)).trans_lt h1)
  unfold interpolate
  rw [if_neg (by omega), if_neg g1, if_neg g2]
  simp only [g3, Nat.add_sub_cancel, Nat.succ_ne_zero, if_false]

/-- Each later point of the table gives the value of the table. -/
theorem interpolate_point (hs : Sorted N xs) (i : ℕ) (hi : i + 1 < N) :
    interpolate N xs ys (xs (i + 1)) = .ok (ys (i + 1)) := by
  have h := hs i (i + 1) (by omega) hi
  rw [interpolate_between hs i hi h le_rfl]
  have : 0 < xs (i + 1) - xs i := by linarith
  congr 1; field_simp; ring

/-- Outside the table the value is that of the end point. -/
theorem interpolate_outside (hN : 0 < N) (hs : Sorted N xs) :
    (xs (N - 1) < x → interpolate N xs ys x = .ok (ys (N - 1))) ∧
    (x < xs 0 → interpolate N xs ys x = .ok (ys 0)) := by
  constructor
  · intro h; unfold interpolate; rw [if_neg hN.ne', if_pos h]
  · intro h
    have : ¬ xs (N - 1) < x := by
      rcases Nat.eq_or_lt_of_le (show 1 ≤ N from hN) with h' | h'
      · rw [← h']; exact not_lt.2 h.le
      · exact not_lt.2 (h.trans (hs 0 (N - 1) (by omega) (by omega))).le
    unfold interpolate
    rw [if_neg hN.ne', if_neg this, if_pos h]

/-- A point inside the table lies between two neighbours. -/
theorem bracket (h1 : xs 0 < x) (h2 : x ≤ xs (N - 1)) :
    ∃ i, i + 1 < N ∧ xs i < x ∧ x ≤ xs (i + 1) := by
  have : ∀ m, x ≤ xs m → ∃ i, i + 1 ≤ m ∧ xs i < x ∧ x ≤ xs (i + 1) := by
    intro m
    induction m with
    | zero => intro h; linarith
    | succ m ih =>
      intro h
      by_cases hm : x ≤ xs m
      · obtain ⟨i, a, b⟩ := ih hm; exact ⟨i, by omega, b⟩
      · exact ⟨m, le_rfl, not_le.1 hm, h⟩
  obtain ⟨i, a, b, c⟩ := this (N - 1) h2
  refine ⟨i, by omega, b, c⟩

/-- The interpolation is defined exactly off the first point of the table. -/
theorem interpolate_ok_iff (hN : 0 < N) (hs : Sorted N xs) :
    (∃ v, interpolate N xs ys x = .ok v) ↔ x ≠ xs 0 := by
  constructor
  · rintro ⟨v, hv⟩ rfl
    rw [interpolate_first hN hs] at hv; cases hv
  · intro hne
    rcases lt_or_gt_of_ne hne with h | h
    · exact ⟨_, (interpolate_outside hN hs).2 h⟩
    · by_cases h2 : xs (N - 1) < x
      · exact ⟨_, (interpolate_outside hN hs).1 h2⟩
      · obtain ⟨i, a, b, c⟩ := bracket h (not_lt.1 h2)
        exact ⟨_, interpolate_between hs i a b c⟩

/-- The value lies between the smallest and the largest of the table. -/
theorem interpolate_range (hN : 0 < N) (hs : Sorted N xs) (lo hi v : ℝ)
    (hl : ∀ i < N, lo ≤ ys i ∧ ys i ≤ hi) (h : interpolate N xs ys x = .ok v) :
    lo ≤ v ∧ v ≤ hi := by
  have hne := (interpolate_ok_iff hN hs).1 ⟨v, h⟩
  rcases lt_or_gt_of_ne hne with h1 | h1
  · rw [(interpolate_outside hN hs).2 h1] at h
    cases h; exact hl 0 hN
  · by_cases h2 : xs (N - 1) < x
    · rw [(interpolate_outside hN hs).1 h2] at h
      cases h; exact hl _ (by omega)
    · obtain ⟨i, a, b, c⟩ := bracket h1 (not_lt.1 h2)
      rw [interpolate_between hs i a b c] at h
      cases h
      obtain ⟨l1, u1⟩ := hl i (by omega)
      obtain ⟨l2, u2⟩ := hl (i + 1) a
      have hd : 0 < xs (i + 1) - xs i := by linarith
      have e : ys i + (ys (i + 1) - ys i) * (x - xs i) / (xs (i + 1) - xs i) =
          (ys i * (xs (i + 1) - x) + ys (i + 1) * (x - xs i)) / (xs (i + 1) - xs i) := by
        field_simp; ring
      rw [e, le_div_iff₀ hd, div_le_iff₀ hd]
      constructor <;> nlinarith

/-- A column which is a straight line in the mole fraction is reproduced, and its derivative is
exact. -/
theorem linear_exact (hs : Sorted N xs) (a b : ℝ) (h1 : xs 0 < x) (h2 : x ≤ xs (N - 1))
    (hy : ∀ i < N, ys i = a + b * xs i) :
    interpolate N xs ys x = .ok (a + b * x) ∧ interpolate N xs (diff N xs ys) x = .ok b := by
  obtain ⟨i, p, q, r⟩ := bracket h1 h2
  have hdiff : ∀ j < N, diff N xs ys j = b := by
    intro j hj
    have hlt : ∀ c d, c < d → d < N → (ys d - ys c) / (xs d - xs c) = b := by
      intro c d hcd hd
      have := hs c d hcd hd
      rw [hy d hd, hy c (by omega)]
      have : xs d - xs c ≠ 0 := by linarith
      field_simp; ring
    unfold diff
    rw [if_pos (by omega)]
    split_ifs with h0 h0'
    · exact hlt 0 1 (by omega) (by omega)
    · exact hlt (N - 2) (N - 1) (by omega) (by omega)
    · exact hlt (j - 1) (j + 1) (by omega) (by omega)
  have hd : xs (i + 1) - xs i ≠ 0 := by linarith
  rw [interpolate_between hs i p q r, interpolate_between hs i p q r, hy i (by omega), hy (i + 1) p,
    hdiff i (by omega), hdiff (i + 1) p]
  constructor
  · congr 1; field_simp; ring
  · congr 1; ring

/-- The differences of the table: forward at the first, backward at the last, central inside. -/
theorem diff_eq (hN : 1 < N) : diff N xs ys 0 = (ys 1 - ys 0) / (xs 1 - xs 0) ∧
    diff N xs ys (N - 1) = (ys (N - 1) - ys (N - 2)) / (xs (N - 1) - xs (N - 2)) ∧
    ∀ i, 0 < i → i + 1 < N →
      diff N xs ys i = (ys (i + 1) - ys (i - 1)) / (xs (i + 1) - xs (i - 1)) := by
  refine ⟨?_, ?_, fun i h1 h2 => ?_⟩
  · simp [diff, hN]
  · have : ¬ (N - 1 = 0) := by omega
    simp [diff, hN, this]
  · have a : ¬ (i = 0) := by omega
    have b : ¬ (i = N - 1) := by omega
    simp [diff, hN, a, b]

/-! ## Volumes -/

/-- The molar volumes average to the molar volume, which gives the density. -/
theorem volume_sum (mmw : ℝ) (vs : ℕ → ℝ) (r : Vol) (h : calcDensity N xs vs mmw x = .ok r) :
    ∃ Vm, interpolate N xs vs x = .ok Vm ∧ x * r.Vt + (1 - x) * r.Vo = Vm ∧ r.ρ = mmw / Vm ∧
      0 < r.ρ ∧ interpolate N xs (diff N xs vs) x = .ok (r.Vt - r.Vo) := by
  unfold calcDensity at h
  split at h
  · rename_i Vm d e1 e2
    split_ifs at h with hp
    cases h
    refine ⟨Vm, e1, by ring, rfl, hp, ?_⟩
    rw [e2]; congr 1; ring
  · cases h

/-- Without volumes in the table the species keep their molar volumes, inside the table. -/
theorem default_volumes (hs : Sorted N xs) (Vt Vo mmw : ℝ) (h1 : xs 0 < x) (h2 : x ≤ xs (N - 1))
    (hx : 0 < x) (hx1 : x ≤ 1) (hVt : 0 < Vt) (hVo : 0 < Vo) (hm : 0 < mmw) :
    calcDensity N xs (defaultVol xs Vt Vo) mmw x =
      .ok ⟨Vt, Vo, mmw / (x * Vt + (1 - x) * Vo)⟩ := by
  obtain ⟨e1, e2⟩ := linear_exact (ys := defaultVol xs Vt Vo) hs Vo (Vt - Vo) h1 h2
    (fun i _ => by unfold defaultVol; ring)
  have hv : 0 < x * Vt + (1 - x) * Vo := by
    have : 0 ≤ (1 - x) * Vo := mul_nonneg (by linarith) hVo.le
    have : 0 < x * Vt := mul_pos hx hVt
    linarith
  have e3 : Vo + (Vt - Vo) * x = x * Vt + (1 - x) * Vo := by ring
  unfold calcDensity
  rw [e1, e2, e3]
  simp only
  rw [if_pos (by positivity)]
  congr 2 <;> ring

/-- Refuted: the composition of the first point of the table, for example the pure other species
with a table which starts at zero, reads outside the arrays. -/
theorem calcDensity_first (hN : 0 < N) (hs : Sorted N xs) (vs : ℕ → ℝ) (mmw : ℝ) :
    calcDensity N xs vs mmw (xs 0) = .ub := by
  unfold calcDensity
  rw [interpolate_first hN hs]

/-- Above the table the molar volume is constant while the difference of the partial molar volumes,
its derivative, is the last difference of the table. -/
theorem volume_outside (hN : 1 < N) (hs : Sorted N xs) (mmw : ℝ) (vs : ℕ → ℝ) (r : Vol)
    (hx : xs (N - 1) < x) (h : calcDensity N xs vs mmw x = .ok r) :
    r.ρ = mmw / vs (N - 1) ∧
    r.Vt - r.Vo = (vs (N - 1) - vs (N - 2)) / (xs (N - 1) - xs (N - 2)) := by
  obtain ⟨Vm, e1, -, e3, -, e5⟩ := volume_sum mmw vs r h
  rw [(interpolate_outside (by omega) hs).1 hx] at e1 e5
  cases e1
  refine ⟨e3, ?_⟩
  rw [← (diff_eq hN).2.1]
  injection e5 with e5
  exact e5.symm

/-! ## The tabulated reaction -/

/-- The difference of the chemical potentials is `h - T s` of the table, that is, the table of
open circuit voltages is reproduced, when the other species has zero reference functions, and up to
a term in the ratio of the standard concentrations. -/
theorem reaction_gibbs (R F T ht st xt xo ct co : ℝ) (hR : 0 < R) (hT : 0 < T) (hxt : 0 < xt)
    (hxo : 0 < xo) :
    chemPotTab R F T 0 0 ht st xt xo ct co - chemPotOther R T 0 0 xo =
      ht - T * st - T * (R / F * Real.log (co / ct)) := by
  unfold chemPotTab chemPotOther entropyTab
  rw [if_neg hxt.ne', if_neg hxo.ne', Real.log_div hxt.ne' hxo.ne']
  field_simp
  ring

/-- Exact for equal standard concentrations. -/
theorem reaction_exact_partial (R F T ht st xt xo c : ℝ) (hR : 0 < R) (hT : 0 < T) (hxt : 0 < xt)
    (hxo : 0 < xo) (hc : 0 < c) :
    chemPotTab R F T 0 0 ht st xt xo c c - chemPotOther R T 0 0 xo = ht - T * st := by
  rw [reaction_gibbs R F T ht st xt xo c c hR hT hxt hxo, div_self hc.ne', Real.log_one]; ring

/-- Refuted: not for standard concentrations which differ (form `species-molar-volume`). -/
theorem reaction_refuted (R F T ht st xt xo ct co : ℝ) (hR : 0 < R) (hF : 0 < F) (hT : 0 < T)
    (hxt : 0 < xt) (hxo : 0 < xo) (hct : 0 < ct) (hco : 0 < co) (hne : ct ≠ co) :
    chemPotTab R F T 0 0 ht st xt xo ct co - chemPotOther R T 0 0 xo ≠ ht - T * st := by
  rw [reaction_gibbs R F T ht st xt xo ct co hR hT hxt hxo]
  intro h
  have h1 : Real.log (co / ct) ≠ 0 := by
    apply Real.log_ne_zero_of_pos_of_ne_one (by positivity)
    intro h; rw [div_eq_one_iff_eq hct.ne'] at h; exact hne h.symm
  have : T * (R / F * Real.log (co / ct)) ≠ 0 := by
    have : T * (R / F) ≠ 0 := by positivity
    rw [← mul_assoc]; exact mul_ne_zero this h1
  apply this; linarith

/-- The ends: a huge entropy of either sign. -/
theorem entropyTab_ends (R F st xt xo ct co : ℝ) :
    (xt = 0 → entropyTab R F st xt xo ct co = -big) ∧
    (xt ≠ 0 → xo = 0 → entropyTab R F st xt xo ct co = big) := by
  constructor
  · intro h; unfold entropyTab; rw [if_pos h]
  · intro h h2; unfold entropyTab; rw [if_neg h, if_pos h2]

/-! ## Example -/

theorem sorted_cast : Sorted 3 (fun i => (i : ℝ) / 2) := by
  intro i j h _
  have : (i : ℝ) < j := by exact_mod_cast h
  show (i : ℝ) / 2 < j / 2
  linarith

/-- A table at 0, 1/2, 1: the pure other species cannot be set, the middle can. -/
example : calcDensity 3 (fun i => (i : ℝ) / 2) (defaultVol (fun i => (i : ℝ) / 2) 2 1) 10 0 = .ub ∧
    calcDensity 3 (fun i => (i : ℝ) / 2) (defaultVol (fun i => (i : ℝ) / 2) 2 1) 10 (1 / 4) =
      .ok ⟨2, 1, 10 / (5 / 4)⟩ := by
  constructor
  · have := calcDensity_first (by norm_num) sorted_cast (defaultVol (fun i => (i : ℝ) / 2) 2 1) 10
    simpa using this
  · rw [default_volumes sorted_cast 2 1 10 (by norm_num) (by norm_num) (by norm_num) (by norm_num)
      (by norm_num) (by norm_num) (by norm_num)]
    norm_num

end Verif.BinaryTab
