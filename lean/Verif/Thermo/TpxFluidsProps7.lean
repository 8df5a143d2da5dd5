import Verif.Thermo.TpxFluidsProps6

/-!
# Pure fluids: density of the saturated liquid, limit of small density
-/

namespace Verif.TpxFluids

open Verif Finset

/-! ## Density of the liquid -/

/-- A polynomial of degree five that is at least its constant term on the unit interval. -/
theorem bernstein5 {a0 a1 a2 a3 a4 a5 y : ℝ} (h0 : 0 ≤ y) (h1 : y ≤ 1) (b1 : 0 ≤ a1 / 5)
    (b2 : 0 ≤ 2 * a1 / 5 + a2 / 10) (b3 : 0 ≤ 3 * a1 / 5 + 3 * a2 / 10 + a3 / 10)
    (b4 : 0 ≤ 4 * a1 / 5 + 6 * a2 / 10 + 4 * a3 / 10 + a4 / 5) (b5 : 0 ≤ a1 + a2 + a3 + a4 + a5) :
    a0 ≤ a0 + a1 * y + a2 * y ^ 2 + a3 * y ^ 3 + a4 * y ^ 4 + a5 * y ^ 5 := by
  have hz : 0 ≤ 1 - y := by linarith
  have e : a0 + a1 * y + a2 * y ^ 2 + a3 * y ^ 3 + a4 * y ^ 4 + a5 * y ^ 5 = a0
      + a1 / 5 * (5 * y * (1 - y) ^ 4) + (2 * a1 / 5 + a2 / 10) * (10 * y ^ 2 * (1 - y) ^ 3)
      + (3 * a1 / 5 + 3 * a2 / 10 + a3 / 10) * (10 * y ^ 3 * (1 - y) ^ 2)
      + (4 * a1 / 5 + 6 * a2 / 10 + 4 * a3 / 10 + a4 / 5) * (5 * y ^ 4 * (1 - y))
      + (a1 + a2 + a3 + a4 + a5) * y ^ 5 := by ring
  rw [e]
  have := mul_nonneg b1 (by positivity : 0 ≤ 5 * y * (1 - y) ^ 4)
  have := mul_nonneg b2 (by positivity : 0 ≤ 10 * y ^ 2 * (1 - y) ^ 3)
  have := mul_nonneg b3 (by positivity : 0 ≤ 10 * y ^ 3 * (1 - y) ^ 2)
  have := mul_nonneg b4 (by positivity : 0 ≤ 5 * y ^ 4 * (1 - y))
  have := mul_nonneg b5 (by positivity : 0 ≤ y ^ 5)
  linarith

/-- Cube root of the reduced distance from the critical temperature. -/
theorem cube_root {xx : ℝ} (h0 : 0 ≤ xx) (n : ℕ) : xx ^ ((n : ℝ) / 3) = (xx ^ ((1 : ℝ) / 3)) ^ n := by
  rw [← Real.rpow_natCast, ← Real.rpow_mul h0]
  congr 1
  ring

/-- The density from the correlation of nitrogen, oxygen, carbon dioxide and heptane is a polynomial in the cube root. -/
theorem dLdens_formula {D : ℕ → ℝ} {Tmn Tc T d : ℝ} (hm : 0 < Tmn) (h : dLdens D Tmn Tc T = some d) :
    ∃ y, 0 ≤ y ∧ y ≤ 1 ∧ y ^ 3 = 1 - T / Tc ∧
      d = D 0 + D 1 * y + D 2 * y ^ 2 + D 3 * y ^ 3 + D 4 * y ^ 4 + D 5 * y ^ 5 := by
  simp only [dLdens] at h
  split_ifs at h with hr
  push Not at hr
  have hT : 0 < T := by linarith
  have hTc : 0 < Tc := by linarith
  have hx : 0 ≤ 1 - T / Tc := by rw [sub_nonneg, div_le_one hTc]; exact hr.2
  have hx1 : 1 - T / Tc ≤ 1 := by
    have : 0 ≤ T / Tc := by positivity
    linarith
  rw [Option.some.injEq] at h
  refine ⟨(1 - T / Tc) ^ ((1 : ℝ) / 3), Real.rpow_nonneg hx _, Real.rpow_le_one hx hx1 (by norm_num), ?_, ?_⟩
  · rw [← cube_root hx 3]; norm_num
  · rw [← h]
    simp only [cube_root hx, sum_range_succ, range_zero, sum_empty]
    ring

theorem hydLdens_ge {T d : ℝ} (h : hydLdens Dhydro 13.8 32.938 31.36 0.3479 T = some d) : 31.36 ≤ d := by
  simp only [hydLdens] at h
  split_ifs at h with hr
  push Not at hr
  rw [Option.some.injEq] at h
  rw [← h]
  have hx : 0 ≤ 1 - T / 32.938 := by rw [sub_nonneg, div_le_one (by norm_num)]; exact hr.2
  have hx1 : 1 - T / 32.938 ≤ 1 := by
    have : 0 ≤ T / 32.938 := div_nonneg (by linarith) (by norm_num)
    linarith
  generalize 1 - T / 32.938 = x at *
  have hy0 : 0 ≤ x ^ ((1 : ℝ) / 3) := Real.rpow_nonneg hx _
  have hy1 : x ^ ((1 : ℝ) / 3) ≤ 1 := Real.rpow_le_one hx hx1 (by norm_num)
  have e : ∀ i ∈ Icc 1 6, Dhydro i * x ^ (1 + ((i : ℝ) - 1) / 3) = Dhydro i * (x ^ ((1 : ℝ) / 3)) ^ (i + 2) := by
    intro i _
    rw [← cube_root hx]
    congr 2
    push_cast
    ring
  rw [sum_congr rfl e, show Icc 1 6 = ({1, 2, 3, 4, 5, 6} : Finset ℕ) from rfl]
  have hq : (x ^ ((1 : ℝ) / 3)) ^ 3 ≤ x ^ (0.3479 : ℝ) := by
    rw [← cube_root hx 3]
    norm_num
    rcases hx.eq_or_lt with h0 | h0
    · rw [← h0, Real.zero_rpow (by norm_num)]
    · calc x = x ^ (1 : ℝ) := (Real.rpow_one x).symm
        _ ≤ _ := Real.rpow_le_rpow_of_exponent_ge h0 hx1 (by norm_num)
  generalize x ^ (0.3479 : ℝ) = q at *
  generalize x ^ ((1 : ℝ) / 3) = y at *
  simp [Dhydro]
  have hz : 0 ≤ 1 - y := by linarith
  have hb := bernstein5 (a0 := 13.86) (a1 := 407.76538192) (a2 := -1171.9787304) (a3 := 1621.39244)
    (a4 := -1153.1096683) (a5 := 338.25492039) hy0 hy1 (by norm_num) (by norm_num) (by norm_num) (by norm_num)
    (by norm_num)
  have hb' := mul_nonneg (pow_nonneg hy0 3) (le_trans (by norm_num : (0 : ℝ) ≤ 13.86) hb)
  nlinarith

/-- Scaled form of the positivity of a polynomial of degree eight without constant term. -/
theorem watPoly {y : ℝ} (h0 : 0 ≤ y) (h1 : y ≤ 0.8334) :
    0 ≤ 3.6711257 * y - 28.512396 * y ^ 2 + 222.6524 * y ^ 3 - 882.43852 * y ^ 4 + 2000.2765 * y ^ 5
      - 2612.2557 * y ^ 6 + 1829.7674 * y ^ 7 - 533.5052 * y ^ 8 := by
  obtain ⟨z, rfl⟩ : ∃ z, y = 0.8334 * z := ⟨y / 0.8334, by field_simp⟩
  have z0 : 0 ≤ z := by linarith
  have z1 : 0 ≤ 1 - z := by linarith
  obtain ⟨w, hw⟩ : ∃ w, w = 1 - z := ⟨_, rfl⟩
  have w0 : 0 ≤ w := by rw [hw]; exact z1
  have p1 : 0 ≤ z * w ^ 7 := by positivity
  have p2 : 0 ≤ z ^ 2 * w ^ 6 := by positivity
  have p3 : 0 ≤ z ^ 3 * w ^ 5 := by positivity
  have p4 : 0 ≤ z ^ 4 * w ^ 4 := by positivity
  have p5 : 0 ≤ z ^ 5 * w ^ 3 := by positivity
  have p6 : 0 ≤ z ^ 6 * w ^ 2 := by positivity
  have p7 : 0 ≤ z ^ 7 * w := by positivity
  have p8 : 0 ≤ z ^ 8 := by positivity
  rw [hw] at p1 p2 p3 p4 p5 p6 p7
  ring_nf at p1 p2 p3 p4 p5 p6 p7 p8 ⊢
  linarith

theorem watLdens_ge {T d : ℝ} (h : watLdens T = some d) : 317 ≤ d := by
  simp only [watLdens] at h
  split_ifs at h with hr
  push Not at hr
  rw [Option.some.injEq] at h
  rw [← h]
  have hx : 0 ≤ 1 - T / 647.286 := by rw [sub_nonneg, div_le_one (by norm_num)]; exact hr.2
  have hx1 : 1 - T / 647.286 ≤ 0.8334 ^ 3 := by
    have : (273.16 : ℝ) / 647.286 ≤ T / 647.286 := div_le_div_of_nonneg_right hr.1 (by norm_num)
    norm_num at this ⊢
    linarith
  generalize 1 - T / 647.286 = x at *
  have hy0 : 0 ≤ x ^ ((1 : ℝ) / 3) := Real.rpow_nonneg hx _
  have hy3 : (x ^ ((1 : ℝ) / 3)) ^ 3 = x := by rw [← cube_root hx 3]; norm_num
  have hy1 : x ^ ((1 : ℝ) / 3) ≤ 0.8334 := by
    refine le_of_pow_le_pow_left₀ (by norm_num : 3 ≠ 0) (by norm_num) ?_
    rw [hy3]; exact hx1
  have e : ∀ i ∈ range 8, Dwat i * x ^ (((i : ℝ) + 1) / 3) = Dwat i * (x ^ ((1 : ℝ) / 3)) ^ (i + 1) := by
    intro i _
    rw [← cube_root hx]
    push_cast
    rfl
  rw [sum_congr rfl e]
  generalize x ^ ((1 : ℝ) / 3) = y at *
  have := watPoly hy0 hy1
  simp only [sum_range_succ, range_zero, sum_empty, Dwat, List.getD_cons_zero, List.getD_cons_succ]
  norm_num at this ⊢
  linarith

/-- The saturated liquid is never less dense than the fluid at the critical point, up to 0.0001 kg/m³. -/
theorem ldens_ge (k : Kind) {T d : ℝ} (h : (eos k).ldens T = some d) : 1 / (eos k).Vc - 0.0001 ≤ d := by
  cases k with
  | water =>
    have := watLdens_ge h
    simp only [eos, water]; norm_num; linarith
  | nitrogen =>
    obtain ⟨y, h0, h1, -, rfl⟩ := dLdens_formula (by norm_num) h
    refine le_trans ?_ (bernstein5 h0 h1 ?_ ?_ ?_ ?_ ?_) <;> simp [eos, nitrogen, Dnn] <;> norm_num
  | methane =>
    simp only [eos, methane, methLdens] at h ⊢
    split_ifs at h with hr
    push Not at hr
    rw [Option.some.injEq] at h
    rw [← h]
    have : 0 ≤ ((190.555 - T) / (190.555 - 90.68)) ^ (0.36 : ℝ) :=
      Real.rpow_nonneg (div_nonneg (by linarith) (by norm_num)) _
    have h2 := mul_nonneg (mul_nonneg this (Real.exp_pos (Dmeth 0 * (1 - ((190.555 - T) / (190.555 - 90.68)) ^ ((2 : ℝ) / 3))
      + Dmeth 1 * (1 - ((190.555 - T) / (190.555 - 90.68)) ^ ((4 : ℝ) / 3))
      + Dmeth 2 * (1 - ((190.555 - T) / (190.555 - 90.68)) ^ 2))).le) (by norm_num : (0 : ℝ) ≤ 451.562 - 160.43)
    rw [one_div_one_div]
    linarith
  | hydrogen =>
    have := hydLdens_ge h
    simp only [eos, hydrogen]; norm_num; linarith
  | oxygen =>
    obtain ⟨y, h0, h1, -, rfl⟩ := dLdens_formula (by norm_num) h
    refine le_trans ?_ (bernstein5 h0 h1 ?_ ?_ ?_ ?_ ?_) <;> simp [eos, oxygen, Doxy] <;> norm_num
  | hfc134a =>
    simp only [eos, hfc134a, hfcLdens] at h ⊢
    split_ifs at h with hr
    push Not at hr
    rw [Option.some.injEq] at h
    rw [← h]
    have hx : 0 ≤ 1 - T / 374.18 := by rw [sub_nonneg, div_le_one (by norm_num)]; exact hr.2
    have a := Real.rpow_nonneg hx ((1 : ℝ) / 3)
    have b := Real.rpow_nonneg hx ((2 : ℝ) / 3)
    have c := Real.rpow_nonneg hx ((10 : ℝ) / 3)
    rw [one_div_one_div]
    linarith
  | carbonDioxide =>
    obtain ⟨y, h0, h1, -, rfl⟩ := dLdens_formula (by norm_num) h
    refine le_trans ?_ (bernstein5 h0 h1 ?_ ?_ ?_ ?_ ?_) <;> simp [eos, carbonDioxide, Dco2] <;> norm_num
  | heptane =>
    obtain ⟨y, h0, h1, -, rfl⟩ := dLdens_formula (by norm_num) h
    refine le_trans ?_ (bernstein5 h0 h1 ?_ ?_ ?_ ?_ ?_) <;> simp [eos, heptane, Dhept] <;> norm_num

example : ∃ d, (eos .water).ldens 300 = some d := by
  rw [← Option.isSome_iff_exists, (sat_range .water 300).2]
  simp [satMax, eos, water]; norm_num

end Verif.TpxFluids
