import Verif.Transport.WaterTr
import Mathlib.Tactic.NormNum
import Mathlib.Tactic.Positivity
import Mathlib.Tactic.Linarith

/-!
# C100: theorems on the transport properties of water
-/

namespace Verif.WaterTr

theorem muDen_eq {t : ℝ} (h : t ≠ 0) : muDen t * t ^ 3 = t ^ 3 + 0.978197 * t ^ 2 + 0.579829 * t - 0.202354 := by
  unfold muDen
  field_simp
  ring

theorem laDen_eq {t : ℝ} (h : t ≠ 0) : laDen t * t ^ 3 = t ^ 3 + 6.978267 * t ^ 2 + 2.599096 * t - 0.998254 := by
  unfold laDen
  field_simp
  ring

/-- From 170 K on both denominators are positive. -/
theorem den_pos {T : ℝ} (h : 170 ≤ T) : 0 < muDen (T / 647.27) ∧ 0 < laDen (T / 647.27) := by
  have ht : (0.262 : ℝ) ≤ T / 647.27 := by
    rw [le_div_iff₀ (by norm_num)]
    linarith
  have ht0 : 0 < T / 647.27 := lt_of_lt_of_le (by norm_num) ht
  generalize T / 647.27 = t at *
  have h2 : (0.262 : ℝ) ^ 2 ≤ t ^ 2 := pow_le_pow_left₀ (by norm_num) ht 2
  have h3 : (0.262 : ℝ) ^ 3 ≤ t ^ 3 := pow_le_pow_left₀ (by norm_num) ht 3
  have p3 : 0 < t ^ 3 := by positivity
  constructor
  · refine (mul_pos_iff_of_pos_right p3).1 ?_
    rw [muDen_eq ht0.ne']
    norm_num at h2 h3 ht ⊢
    linarith
  · refine (mul_pos_iff_of_pos_right p3).1 ?_
    rw [laDen_eq ht0.ne']
    norm_num at h2 h3 ht ⊢
    linarith

/-- Viscosity at 150 K and below is negative: the zero density polynomial has its root above 150 K. -/
theorem muDen_neg {T : ℝ} (h0 : 0 < T) (h : T ≤ 150) : muDen (T / 647.27) < 0 := by
  have ht : T / 647.27 ≤ 0.2318 := by
    rw [div_le_iff₀ (by norm_num)]
    linarith
  have ht0 : 0 < T / 647.27 := by positivity
  generalize T / 647.27 = t at *
  have h2 : t ^ 2 ≤ (0.2318 : ℝ) ^ 2 := pow_le_pow_left₀ ht0.le ht 2
  have h3 : t ^ 3 ≤ (0.2318 : ℝ) ^ 3 := pow_le_pow_left₀ ht0.le ht 3
  have p3 : 0 < t ^ 3 := by positivity
  refine neg_of_mul_neg_left (b := t ^ 3) ?_ p3.le
  rw [muDen_eq ht0.ne']
  norm_num at h2 h3 ht ⊢
  linarith

theorem mu2_pos (t r d κ : ℝ) : 0 < mu2 t r d κ := by
  unfold mu2
  simp only
  split_ifs with h1 h2
  · have : 0 < r * (κ * d * (presStar / rhoStar)) := lt_of_lt_of_le (by norm_num) h2
    positivity
  · norm_num
  · norm_num

/-- Viscosity is defined and positive from 170 K on, whatever density and compressibility. -/
theorem viscosity_pos {T : ℝ} (d κ : ℝ) (h : 170 ≤ T) : ∃ v, viscosity T d κ = some v ∧ 0 < v := by
  obtain ⟨h1, -⟩ := den_pos h
  have hT : 0 < T / Tstar := by unfold Tstar; have : (0 : ℝ) < T := by linarith
                                positivity
  refine ⟨_, if_neg ?_, ?_⟩
  · rintro (q | q)
    · linarith
    · exact h1.ne' q
  · have a1 : 0 < mu0 (T / Tstar) := div_pos (Real.sqrt_pos.2 hT) h1
    have a2 := mu2_pos (T / Tstar) (d / rhoStar) d κ
    have a3 : 0 < mu1 (T / Tstar) (d / rhoStar) := Real.exp_pos _
    have a4 : 0 < muStar := by norm_num [muStar]
    positivity

/-- Up to 150 K it is negative. -/
theorem viscosity_neg {T : ℝ} (d κ : ℝ) (h0 : 0 < T) (h : T ≤ 150) : ∃ v, viscosity T d κ = some v ∧ v < 0 := by
  have h1 := muDen_neg h0 h
  have hT : 0 < T / Tstar := by unfold Tstar; positivity
  refine ⟨_, if_neg ?_, ?_⟩
  · rintro (q | q)
    · linarith
    · exact h1.ne q
  · have a1 : mu0 (T / Tstar) < 0 := div_neg_of_pos_of_neg (Real.sqrt_pos.2 hT) h1
    have a2 := mu2_pos (T / Tstar) (d / rhoStar) d κ
    have a3 : 0 < mu1 (T / Tstar) (d / rhoStar) := Real.exp_pos _
    have a4 : 0 < muStar := by norm_num [muStar]
    exact mul_neg_of_neg_of_pos (mul_neg_of_neg_of_pos (mul_neg_of_neg_of_pos a1 a3) a2) a4

/-- The polynomial of the viscosity, as a sum over the published table. -/
theorem muSum_table (f g : ℝ) : muSum f g = ∑ i : Fin 6, ∑ j : Fin 7,
    (!![0.5132047, 0.2151778, -0.2818107, 0.1778064, -0.04176610, 0, 0;
        0.3205656, 0.7317883, -1.070786, 0.4605040, 0, -0.01578386, 0;
        0, 1.241044, -1.263184, 0.2340379, 0, 0, 0;
        0, 1.476783, 0, -0.4924179, 0.1600435, 0, -0.003629481;
        -0.7782567, 0, 0, 0, 0, 0, 0;
        0.1885447, 0, 0, 0, 0, 0, 0] : Matrix (Fin 6) (Fin 7) ℝ) i j * f ^ (i : ℕ) * g ^ (j : ℕ) := by
  simp [muSum, Fin.sum_univ_succ]
  ring

/-- The polynomial of the conductivity, as a sum over its table (rows are powers of the density factor). -/
theorem laSum_table (f g : ℝ) : laSum f g = ∑ i : Fin 6, ∑ j : Fin 5,
    (!![1.3293046, 1.7018363, 5.2246158, 8.7127675, -1.8525999;
        -0.40452437, -2.2156845, -10.124111, -9.5000611, 0.93404690;
        0.24409490, 1.6511057, 4.9874687, 4.3786606, 0;
        0.018660751, -0.76736002, -0.27297694, -0.91783782, 0;
        -0.12961068, 0.37283344, -0.43083393, 0, 0;
        0.044809953, -0.11203160, 0.13333849, 0, 0] : Matrix (Fin 6) (Fin 5) ℝ) i j * g ^ (i : ℕ) * f ^ (j : ℕ) := by
  simp [laSum, Fin.sum_univ_succ]
  ring

/-- Viscosity away from the critical point. -/
theorem viscosity_far {T d κ v : ℝ} (h : viscosity T d κ = some v)
    (hw : T < 0.9970 * 647.27 ∨ 1.0082 * 647.27 < T ∨ d < 0.755 * 317.763 ∨ 1.290 * 317.763 < d) :
    v = Real.sqrt (T / 647.27) / muDen (T / 647.27) *
      Real.exp (d / 317.763 * muSum (647.27 / T - 1) (d / 317.763 - 1)) * 55.071e-6 := by
  unfold viscosity at h
  split_ifs at h with q
  simp only [Option.some.injEq] at h
  have e : mu2 (T / Tstar) (d / rhoStar) d κ = 1 := by
    unfold mu2
    rw [if_neg]
    rintro ⟨a, b, c, e⟩
    rw [Tstar, le_div_iff₀ (by norm_num)] at a
    rw [Tstar, div_le_iff₀ (by norm_num)] at b
    rw [rhoStar, le_div_iff₀ (by norm_num)] at c
    rw [rhoStar, div_le_iff₀ (by norm_num)] at e
    rcases hw with w | w | w | w <;> linarith
  rw [← h, e, mul_one, mu0, mu1, one_div_div]
  rfl

/-- Inside the window the factor is `0.922 χ^0.0263` with `χ = (ρ/ρ*)² κ p*` from 21.93 on, the same χ as in the
conductivity; below that it is one. -/
theorem near_critical {t d κ : ℝ} (h1 : 0.9970 ≤ t) (h2 : t ≤ 1.0082) (h3 : 0.755 ≤ d / 317.763)
    (h4 : d / 317.763 ≤ 1.290) :
    (21.93 ≤ (d / 317.763) * (d / 317.763) * κ * 22.115e6 →
      mu2 t (d / rhoStar) d κ = 0.922 * ((d / 317.763) * (d / 317.763) * κ * 22.115e6) ^ (0.0263 : ℝ)) ∧
    ((d / 317.763) * (d / 317.763) * κ * 22.115e6 < 21.93 → mu2 t (d / rhoStar) d κ = 1) := by
  have e : d / rhoStar * (κ * d * (presStar / rhoStar)) = (d / 317.763) * (d / 317.763) * κ * 22.115e6 := by
    unfold rhoStar presStar
    ring
  have hw : 0.9970 ≤ t ∧ t ≤ 1.0082 ∧ 0.755 ≤ d / rhoStar ∧ d / rhoStar ≤ 1.290 := ⟨h1, h2, h3, h4⟩
  unfold mu2
  simp only [if_pos hw, e]
  exact ⟨fun q => if_pos q, fun q => if_neg (not_le.2 q)⟩

/-- At its threshold the factor is one up to 0.0012, so the viscosity is nearly continuous there. -/
theorem factor_threshold : |0.922 * (21.93 : ℝ) ^ (0.0263 : ℝ) - 1| ≤ 0.0012 := by
  have h1 : (1.0836 : ℝ) ≤ (21.93 : ℝ) ^ (0.0263 : ℝ) := by
    have a : (21.93 : ℝ) ^ (5 / 191 : ℝ) ≤ (21.93 : ℝ) ^ (0.0263 : ℝ) :=
      Real.rpow_le_rpow_of_exponent_le (by norm_num) (by norm_num)
    refine le_trans ?_ a
    refine le_of_pow_le_pow_left₀ (n := 191) (by norm_num) (by positivity) ?_
    rw [← Real.rpow_natCast ((21.93 : ℝ) ^ (5 / 191 : ℝ)), ← Real.rpow_mul (by norm_num)]
    rw [show (5 / 191 : ℝ) * ((191 : ℕ) : ℝ) = ((5 : ℕ) : ℝ) by norm_num, Real.rpow_natCast]
    norm_num
  have h2 : (21.93 : ℝ) ^ (0.0263 : ℝ) ≤ 1.0858 := by
    have a : (21.93 : ℝ) ^ (0.0263 : ℝ) ≤ (21.93 : ℝ) ^ (1 / 38 : ℝ) :=
      Real.rpow_le_rpow_of_exponent_le (by norm_num) (by norm_num)
    refine a.trans ?_
    refine le_of_pow_le_pow_left₀ (n := 38) (by norm_num) (by norm_num) ?_
    rw [← Real.rpow_natCast ((21.93 : ℝ) ^ (1 / 38 : ℝ)), ← Real.rpow_mul (by norm_num)]
    rw [show (1 / 38 : ℝ) * ((38 : ℕ) : ℝ) = ((1 : ℕ) : ℝ) by norm_num, Real.rpow_natCast]
    norm_num
  generalize (21.93 : ℝ) ^ (0.0263 : ℝ) = x at *
  norm_num at h1 h2 ⊢
  rw [abs_le]
  constructor <;> linarith

/-- Conductivity is defined and positive from 170 K on for positive density and compressibility. -/
theorem conductivity_pos {T d κ : ℝ} (α : ℝ) (h : 170 ≤ T) (hd : 0 < d) (hκ : 0 < κ) :
    ∃ v, conductivity T d κ α = some v ∧ 0 < v := by
  obtain ⟨h1, h2⟩ := den_pos h
  have hT : 0 < T / Tstar := by unfold Tstar; have : (0 : ℝ) < T := by linarith
                                positivity
  have hr : 0 < d / rhoStar := by unfold rhoStar; positivity
  refine ⟨_, if_neg ?_, ?_⟩
  · rintro (q | q | q | q | q)
    · linarith
    · linarith
    · linarith
    · exact h1.ne' q
    · exact h2.ne' q
  · have a1 : 0 < mu0 (T / Tstar) := div_pos (Real.sqrt_pos.2 hT) h1
    have a3 : 0 < mu1 (T / Tstar) (d / rhoStar) := Real.exp_pos _
    have a4 : 0 < la01 (T / Tstar) (d / rhoStar) :=
      mul_pos (div_pos (Real.sqrt_pos.2 hT) h2) (Real.exp_pos _)
    have a5 : 0 ≤ la2 (T / Tstar) (d / rhoStar) κ α := by
      have hp : 0 < presStar := by norm_num [presStar]
      unfold la2
      simp only
      generalize α / κ * (Tstar / presStar) = z
      rw [show ∀ a b c e f : ℝ, a * b * z * z * c * e * f = (z * z) * (a * b * c * e * f) from fun a b c e f => by ring]
      exact mul_nonneg (mul_self_nonneg _) (by positivity)
    have a6 : 0 < lambdaStar := by norm_num [lambdaStar]
    positivity

/-- It is not a number unless the compressibility is positive. -/
theorem conductivity_none (T d α : ℝ) {κ : ℝ} (h : κ ≤ 0) : conductivity T d κ α = none :=
  if_pos (Or.inr (Or.inr (Or.inl h)))

/-- The formula; its viscosity factors are those of the viscosity without the near critical factor. -/
theorem conductivity_eq {T d κ α v : ℝ} (h : conductivity T d κ α = some v) :
    0 < T ∧ 0 < d ∧ 0 < κ ∧
    v = (Real.sqrt (T / 647.27) / laDen (T / 647.27) *
          Real.exp (d / 317.763 * laSum (647.27 / T - 1) (d / 317.763 - 1)) +
        0.0013848 / (Real.sqrt (T / 647.27) / muDen (T / 647.27) *
          Real.exp (d / 317.763 * muSum (647.27 / T - 1) (d / 317.763 - 1))) *
        ((T / 647.27) ^ 2 / (d / 317.763) ^ 2) * (α / κ * (647.27 / 22.115e6)) ^ 2 *
        ((d / 317.763) ^ 2 * κ * 22.115e6) ^ (0.4678 : ℝ) * Real.sqrt (d / 317.763) *
        Real.exp (-18.66 * (T / 647.27 - 1) ^ 2 - (d / 317.763 - 1) ^ 4)) * 0.4945 := by
  unfold conductivity at h
  split_ifs at h with q
  push Not at q
  refine ⟨q.1, q.2.1, q.2.2.1, ?_⟩
  simp only [Option.some.injEq] at h
  rw [← h]
  simp only [la01, la2, mu0, mu1, one_div_div, Tstar, rhoStar, presStar, lambdaStar]
  simp only [← pow_two]
  ring

/-- Without thermal expansion the critical enhancement vanishes. -/
theorem no_enhancement {T d κ v : ℝ} (h : conductivity T d κ 0 = some v) :
    v = Real.sqrt (T / 647.27) / laDen (T / 647.27) *
      Real.exp (d / 317.763 * laSum (647.27 / T - 1) (d / 317.763 - 1)) * 0.4945 := by
  rw [(conductivity_eq h).2.2.2]
  simp

/-- Only the square of the expansion coefficient counts: water below 4 °C is treated as above. -/
theorem conductivity_even (T d κ α : ℝ) : conductivity T d κ (-α) = conductivity T d κ α := by
  unfold conductivity la2
  simp only [neg_div, neg_mul, mul_neg, neg_neg]

example : ∃ v, viscosity 300 997 4.5e-10 = some v ∧ 0 < v := viscosity_pos _ _ (by norm_num)
example : ∃ v, conductivity 300 997 4.5e-10 2.7e-4 = some v ∧ 0 < v :=
  conductivity_pos _ (by norm_num) (by norm_num) (by norm_num)
example : ∃ v, viscosity 100 997 4.5e-10 = some v ∧ v < 0 := viscosity_neg _ _ (by norm_num) (by norm_num)
example : mu2 1 (317.763 / rhoStar) 317.763 1 =
    0.922 * ((317.763 / 317.763) * (317.763 / 317.763) * 1 * 22.115e6) ^ (0.0263 : ℝ) :=
  (near_critical (by norm_num) (by norm_num) (by norm_num) (by norm_num)).1 (by norm_num)

end Verif.WaterTr
