import Verif.Thermo.TpxFluidsProps2
import Verif.Thermo.TpxFluidsProps3

/-!
# Pure fluids: HFC-134a; agreement of energy, entropy and pressure for every fluid
-/

namespace Verif.TpxFluids

open Verif Finset

/-- Agreement only depends on the functions at positive temperature and density. -/
theorem gibbs_congr {e e' : Tpx.Eos} {T ρ : ℝ} (hT : 0 < T) (hρ : 0 < ρ)
    (hP : ∀ t r, 0 < t → 0 < r → e.Pp t r = e'.Pp t r) (hu : ∀ t r, 0 < t → 0 < r → e.up t r = e'.up t r)
    (hs : ∀ t r, 0 < t → 0 < r → e.sp t r = e'.sp t r) (h : GibbsAt e' T ρ) : GibbsAt e T ρ := by
  obtain ⟨PT, cv, h1, h2, h3, h4, h5⟩ := h
  have nT := Ioi_mem_nhds hT
  have nr := Ioi_mem_nhds hρ
  refine ⟨PT, cv, h1.congr_of_eventuallyEq ?_, h2.congr_of_eventuallyEq ?_, ?_, h4.congr_of_eventuallyEq ?_,
    h5.congr_of_eventuallyEq ?_⟩
  · filter_upwards [nT] with t ht using hP t ρ ht hρ
  · filter_upwards [nr] with r hr using hs T r hT hr
  · rw [hP T ρ hT hρ]
    refine h3.congr_of_eventuallyEq ?_
    filter_upwards [nr] with r hr using hu T r hT hr
  · filter_upwards [nT] with t ht using hu t ρ ht hρ
  · filter_upwards [nT] with t ht using hs t ρ ht hρ

/-- Exponent in the exponential of term `i`; zero for no exponential. -/
def hk (i : ℕ) : ℕ := if i < 8 then 0 else if i < 11 then 1 else if i < 17 then 2 else if i < 20 then 3 else 4

/-- Density factor of term `i`. -/
noncomputable def hg (i : ℕ) (r : ℝ) : ℝ :=
  (r / 508) ^ d134 i * (if hk i = 0 then 1 else Real.exp (-(r / 508) ^ hk i))

/-- Density factor of term `i` in the pressure. -/
noncomputable def hH (i : ℕ) (r : ℝ) : ℝ :=
  r / 508 * (r / 508) * 508 * (((d134 i : ℝ) - hk i * (if hk i = 0 then 0 else (r / 508) ^ hk i))
    * (r / 508) ^ (d134 i - 1) * (if hk i = 0 then 1 else Real.exp (-(r / 508) ^ hk i)))

theorem d134_pos {i : ℕ} (hi : i < 21) : 1 ≤ d134 i := by
  interval_cases i <;> decide

theorem hg_deriv {ρ : ℝ} (hρ : 0 < ρ) {i : ℕ} (hi : i < 21) : HasDerivAt (hg i) (hH i ρ / ρ ^ 2) ρ := by
  have hd := d134_pos hi
  have hρ' := hρ.ne'
  have x := (hasDerivAt_id' ρ).div_const 508
  obtain ⟨m, hm⟩ : ∃ m, d134 i = m + 1 := ⟨d134 i - 1, by omega⟩
  unfold hg hH
  rw [hm]
  by_cases hk0 : hk i = 0
  · simp only [hk0, if_true, Nat.add_sub_cancel]
    refine ((x.pow (m + 1)).mul_const 1).congr_deriv ?_
    rw [Nat.add_sub_cancel]
    push_cast
    field_simp
    ring
  · simp only [hk0, if_false, Nat.add_sub_cancel]
    obtain ⟨k, hk⟩ : ∃ k, hk i = k + 1 := ⟨hk i - 1, by omega⟩
    rw [hk]
    refine ((x.pow (m + 1)).mul ((x.pow (k + 1)).neg.exp)).congr_deriv ?_
    simp only [Pi.pow_apply, Pi.neg_apply, Nat.add_sub_cancel]
    push_cast
    generalize Real.exp (-(ρ / 508) ^ (k + 1)) = E
    obtain ⟨y, rfl⟩ : ∃ y, ρ = 508 * y := ⟨ρ / 508, by field_simp⟩
    have hy : 508 * y / 508 = y := by field_simp
    have hy0 : y ≠ 0 := by rintro rfl; simp at hρ'
    rw [hy]
    simp only [pow_succ]
    generalize y ^ m = Y
    generalize y ^ k = Z
    field_simp
    ring

/-- Temperature factor of term `i`. -/
noncomputable def hC (i : ℕ) (t : ℝ) : ℝ := 81.48885644 * a134 i * (t * (374.18 / t) ^ t134 i)

/-- Its derivative. -/
noncomputable def hC' (i : ℕ) (t : ℝ) : ℝ := 81.48885644 * a134 i * ((1 - t134 i) * (374.18 / t) ^ t134 i)

theorem tau_rpow_deriv {T : ℝ} (hT : 0 < T) (p : ℝ) :
    HasDerivAt (fun t : ℝ => (374.18 / t) ^ p) (-p * (374.18 / T) ^ p / T) T := by
  have hT' := hT.ne'
  have hx : 0 < 374.18 / T := by positivity
  have r : HasDerivAt (fun t : ℝ => 374.18 / t) (-(374.18 / T) / T) T := by
    refine ((hasDerivAt_const T (374.18 : ℝ)).div (hasDerivAt_id' T) hT').congr_deriv ?_
    field_simp; ring
  refine (r.rpow_const (Or.inl hx.ne')).congr_deriv ?_
  rw [Real.rpow_sub hx, Real.rpow_one]
  generalize (374.18 / T) ^ p = X
  field_simp

theorem hC_deriv {T : ℝ} (hT : 0 < T) (i : ℕ) : HasDerivAt (hC i) (hC' i T) T := by
  have hT' := hT.ne'
  refine (((hasDerivAt_id' T).mul (tau_rpow_deriv hT (t134 i))).const_mul (81.48885644 * a134 i)).congr_deriv ?_
  simp only [hC']
  generalize (374.18 / T) ^ t134 i = X
  field_simp
  ring

theorem hC'_diff {T : ℝ} (hT : 0 < T) (i : ℕ) : DifferentiableAt ℝ (hC' i) T :=
  (((tau_rpow_deriv hT (t134 i)).const_mul (1 - t134 i)).const_mul (81.48885644 * a134 i)).differentiableAt

/-- Ideal gas energy and entropy. -/
noncomputable def hU0 (t : ℝ) : ℝ :=
  81.48885644 * t * (b134 1 * (374.18 / t) + b134 2 - 0.5 * b134 3 * (374.18 / t) ^ (-0.5 : ℝ)
    - 0.75 * b134 4 * (374.18 / t) ^ (-0.75 : ℝ))

noncomputable def hS0 (t : ℝ) : ℝ :=
  81.48885644 * (b134 2 - b134 0 - b134 2 * Real.log (374.18 / t) - 1.5 * b134 3 * (374.18 / t) ^ (-0.5 : ℝ)
    - 1.75 * b134 4 * (374.18 / t) ^ (-0.75 : ℝ) + Real.log 508)

theorem hU0_deriv {T : ℝ} (hT : 0 < T) : ∃ c, HasDerivAt hU0 c T ∧ HasDerivAt hS0 (c / T) T := by
  have hT' := hT.ne'
  have d := hasDerivAt_id' T
  have a := tau_rpow_deriv hT (-0.5)
  have b := tau_rpow_deriv hT (-0.75)
  have r : HasDerivAt (fun t : ℝ => 374.18 / t) (-(374.18 / T) / T) T := by
    refine ((hasDerivAt_const T (374.18 : ℝ)).div d hT').congr_deriv ?_
    field_simp; ring
  have hx : 374.18 / T ≠ 0 := by positivity
  have l := r.log hx
  refine ⟨81.48885644 * (b134 2 - 0.75 * b134 3 * (374.18 / T) ^ (-0.5 : ℝ)
    - 0.75 * 1.75 * b134 4 * (374.18 / T) ^ (-0.75 : ℝ)), ?_, ?_⟩
  · refine ((d.const_mul 81.48885644).mul ((((r.const_mul (b134 1)).add_const (b134 2)).sub
      (a.const_mul (0.5 * b134 3))).sub (b.const_mul (0.75 * b134 4)))).congr_deriv ?_
    simp only [Pi.sub_apply]
    generalize (374.18 / T) ^ (-0.5 : ℝ) = X
    generalize (374.18 / T) ^ (-0.75 : ℝ) = Y
    field_simp
    ring
  · refine ((((((l.const_mul (b134 2)).const_sub (b134 2 - b134 0)).sub (a.const_mul (1.5 * b134 3))).sub
      (b.const_mul (1.75 * b134 4))).add_const (Real.log 508)).const_mul 81.48885644).congr_deriv ?_
    generalize (374.18 / T) ^ (-0.5 : ℝ) = X
    generalize (374.18 / T) ^ (-0.75 : ℝ) = Y
    field_simp
    ring

theorem split_sum (f : ℕ → ℝ) : ∑ i ∈ range 21, f i = ∑ i ∈ Ico 0 8, f i + ∑ i ∈ Ico 8 11, f i + ∑ i ∈ Ico 11 17, f i
    + ∑ i ∈ Ico 17 20, f i + ∑ i ∈ Ico 20 21, f i := by
  rw [range_eq_Ico, ← sum_Ico_consecutive f (by norm_num : 0 ≤ 20) (by norm_num : 20 ≤ 21),
    ← sum_Ico_consecutive f (by norm_num : 0 ≤ 17) (by norm_num : 17 ≤ 20),
    ← sum_Ico_consecutive f (by norm_num : 0 ≤ 11) (by norm_num : 11 ≤ 17),
    ← sum_Ico_consecutive f (by norm_num : 0 ≤ 8) (by norm_num : 8 ≤ 11)]

theorem hk_of {i : ℕ} : (i ∈ Ico 0 8 → hk i = 0) ∧ (i ∈ Ico 8 11 → hk i = 1) ∧ (i ∈ Ico 11 17 → hk i = 2) ∧
    (i ∈ Ico 17 20 → hk i = 3) ∧ (i ∈ Ico 20 21 → hk i = 4) := by
  simp only [mem_Ico, hk]
  refine ⟨fun h => ?_, fun h => ?_, fun h => ?_, fun h => ?_, fun h => ?_⟩ <;> split_ifs <;> omega

theorem hfcU_eq (t r : ℝ) : hfcU t r = (∑ i ∈ range 21, (hC i t - t * hC' i t) * hg i r) + hU0 t := by
  rw [split_sum]
  have e : ∀ lo hi : ℕ, ∀ (E : ℝ), (∀ i ∈ Ico lo hi, (if hk i = 0 then 1 else Real.exp (-(r / 508) ^ hk i)) = E) →
      ∑ i ∈ Ico lo hi, (hC i t - t * hC' i t) * hg i r = 81.48885644 * t * (E * hSumT lo hi (374.18 / t) (r / 508)) := by
    intro lo hi E h
    rw [hSumT, mul_sum, mul_sum]
    refine sum_congr rfl fun i hi => ?_
    rw [hg, h i hi, hC, hC']
    ring
  rw [e 0 8 1 fun i hi => by rw [hk_of.1 hi, if_pos rfl],
    e 8 11 (Real.exp (-(r / 508))) fun i hi => by rw [hk_of.2.1 hi, if_neg (by norm_num), pow_one],
    e 11 17 (Real.exp (-(r / 508) * (r / 508))) fun i hi => by
      rw [hk_of.2.2.1 hi, if_neg (by norm_num)]; congr 1; ring,
    e 17 20 (Real.exp (-(r / 508) * (r / 508) * (r / 508))) fun i hi => by
      rw [hk_of.2.2.2.1 hi, if_neg (by norm_num)]; congr 1; ring,
    e 20 21 (Real.exp (-(r / 508) * (r / 508) * (r / 508) * (r / 508))) fun i hi => by
      rw [hk_of.2.2.2.2 hi, if_neg (by norm_num)]; congr 1; ring]
  simp only [hfcU, hU0]
  ring

theorem hfcP_eq (t r : ℝ) (hr : 0 < r) : hfcP t r = r * 81.48885644 * t + ∑ i ∈ range 21, hC i t * hH i r := by
  rw [split_sum]
  have e : ∀ lo hi : ℕ, ∀ (E K : ℝ), (∀ i ∈ Ico lo hi, (if hk i = 0 then 1 else Real.exp (-(r / 508) ^ hk i)) = E) →
      (∀ i ∈ Ico lo hi, (hk i : ℝ) * (if hk i = 0 then 0 else (r / 508) ^ hk i) = K) →
      ∑ i ∈ Ico lo hi, hC i t * hH i r
        = 81.48885644 * t * (r / 508) * (r / 508) * 508 * (hSumD lo hi K (374.18 / t) (r / 508) * E) := by
    intro lo hi E K h h'
    rw [hSumD, sum_mul, mul_sum]
    refine sum_congr rfl fun i hi => ?_
    rw [hH, h i hi, h' i hi, hC]
    ring
  rw [e 0 8 1 0 (fun i hi => by rw [hk_of.1 hi, if_pos rfl]) (fun i hi => by rw [hk_of.1 hi, if_pos rfl, mul_zero]),
    e 8 11 (Real.exp (-(r / 508))) (r / 508) (fun i hi => by rw [hk_of.2.1 hi, if_neg (by norm_num), pow_one])
      (fun i hi => by rw [hk_of.2.1 hi, if_neg (by norm_num)]; push_cast; ring),
    e 11 17 (Real.exp (-(r / 508 * (r / 508)))) (2 * (r / 508 * (r / 508))) (fun i hi => by
      rw [hk_of.2.2.1 hi, if_neg (by norm_num)]; congr 1; ring)
      (fun i hi => by rw [hk_of.2.2.1 hi, if_neg (by norm_num)]; push_cast; ring),
    e 17 20 (Real.exp (-(r / 508 * (r / 508) * (r / 508)))) (3 * (r / 508 * (r / 508) * (r / 508))) (fun i hi => by
      rw [hk_of.2.2.2.1 hi, if_neg (by norm_num)]; congr 1; ring)
      (fun i hi => by rw [hk_of.2.2.2.1 hi, if_neg (by norm_num)]; push_cast; ring),
    e 20 21 (Real.exp (-(r / 508 * (r / 508) * (r / 508) * (r / 508))))
      (4 * (r / 508 * (r / 508) * (r / 508) * (r / 508))) (fun i hi => by
      rw [hk_of.2.2.2.2 hi, if_neg (by norm_num)]; congr 1; ring)
      (fun i hi => by rw [hk_of.2.2.2.2 hi, if_neg (by norm_num)]; push_cast; ring)]
  have h0 : r * 81.48885644 * t = 81.48885644 * t * (r / 508) * (r / 508) * 508 * (1 / (r / 508)) := by
    field_simp
  rw [h0]
  simp only [hfcP]
  ring

theorem hfcS_eq (t r : ℝ) (ht : 0 < t) (hr : 0 < r) :
    (hfcU t r - hfcF t r) / t = hS0 t - 81.48885644 * Real.log r - ∑ i ∈ range 21, hC' i t * hg i r := by
  have e : ∀ lo hi : ℕ, ∀ (E : ℝ), (∀ i ∈ Ico lo hi, (if hk i = 0 then 1 else Real.exp (-(r / 508) ^ hk i)) = E) →
      ∑ i ∈ Ico lo hi, hC' i t * hg i r
        = 81.48885644 * (E * (hSum lo hi (374.18 / t) (r / 508) - hSumT lo hi (374.18 / t) (r / 508))) := by
    intro lo hi E h
    rw [hSumT, hSum, ← sum_sub_distrib, mul_sum, mul_sum]
    refine sum_congr rfl fun i hi => ?_
    rw [hg, h i hi, hC']
    ring
  rw [split_sum, e 0 8 1 fun i hi => by rw [hk_of.1 hi, if_pos rfl],
    e 8 11 (Real.exp (-(r / 508))) fun i hi => by rw [hk_of.2.1 hi, if_neg (by norm_num), pow_one],
    e 11 17 (Real.exp (-(r / 508) * (r / 508))) fun i hi => by
      rw [hk_of.2.2.1 hi, if_neg (by norm_num)]; congr 1; ring,
    e 17 20 (Real.exp (-(r / 508) * (r / 508) * (r / 508))) fun i hi => by
      rw [hk_of.2.2.2.1 hi, if_neg (by norm_num)]; congr 1; ring,
    e 20 21 (Real.exp (-(r / 508) * (r / 508) * (r / 508) * (r / 508))) fun i hi => by
      rw [hk_of.2.2.2.2 hi, if_neg (by norm_num)]; congr 1; ring]
  have hs : b134 3 / √(374.18 / t) = b134 3 * (374.18 / t) ^ (-0.5 : ℝ) := by
    rw [Real.sqrt_eq_rpow, div_eq_mul_inv, ← Real.rpow_neg (by positivity)]
    norm_num
  simp only [hfcU, hfcF, hS0]
  rw [hs, Real.log_div hr.ne' (by norm_num), ← mul_sub, mul_right_comm, mul_div_assoc, div_self_of_ne ht.ne', mul_one]
  ring
where
  div_self_of_ne {x : ℝ} (h : x ≠ 0) : x / x = 1 := div_self h

theorem hfc134a_gibbs {T ρ : ℝ} (hT : 0 < T) (hρ : 0 < ρ) : GibbsAt hfc134a T ρ := by
  obtain ⟨c, h1, h2⟩ := hU0_deriv hT
  refine gibbs_congr (e' := { hfc134a with
      Pp := fun t r => r * 81.48885644 * t + ∑ i ∈ range 21, hC i t * hH i r
      up := fun t r => (∑ i ∈ range 21, (hC i t - t * hC' i t) * hg i r) + hU0 t
      sp := fun t r => hS0 t - 81.48885644 * Real.log r - ∑ i ∈ range 21, hC' i t * hg i r }) hT hρ
    (fun t r _ hr => hfcP_eq t r hr) (fun t r _ _ => hfcU_eq t r) (fun t r ht hr => hfcS_eq t r ht hr) ?_
  exact gibbs_of_sum _ 21 hC hC' hg hH 81.48885644 hU0 hS0 T ρ c hT hρ (fun _ _ => rfl) (fun _ _ => rfl)
    (fun _ _ => rfl) (fun i _ => hC_deriv hT i) (fun i _ => hC'_diff hT i) (fun i hi => hg_deriv hρ hi) h1 h2

/-- The Helmholtz energy computed by `fp` is `u - T s`. -/
theorem hfc_fp (T ρ : ℝ) (hT : 0 < T) : hfcF T ρ = hfc134a.up T ρ - T * hfc134a.sp T ρ := by
  simp only [hfc134a]
  field_simp
  ring

/-- For each of the eight fluids the pressure, energy and entropy agree, at every temperature and density.  At 400 K
this fails for hydrogen. -/
theorem all_gibbs (k : Kind) {T ρ : ℝ} (hT : 0 < T) (hρ : 0 < ρ) :
    GibbsAt (eos k) T ρ ↔ ¬ (k = .hydrogen ∧ T = 400) := by
  constructor
  · rintro ⟨PT, cv, -, -, -, h, -⟩ ⟨rfl, rfl⟩
    exact hydrogen_not_differentiable ρ h.differentiableAt
  · intro h
    cases k with
    | water => exact water_gibbs hT hρ
    | nitrogen => exact nitrogen_gibbs hT hρ
    | methane => exact methane_gibbs hT hρ
    | hydrogen => exact hydrogen_gibbs hT (fun h4 => h ⟨rfl, h4⟩) hρ
    | oxygen => exact oxygen_gibbs hT hρ
    | hfc134a => exact hfc134a_gibbs hT hρ
    | carbonDioxide => exact carbonDioxide_gibbs hT hρ
    | heptane => exact heptane_gibbs hT hρ

example : GibbsAt (eos .nitrogen) 300 1.2 := (all_gibbs _ (by norm_num) (by norm_num)).2 (by simp)
example : ¬ GibbsAt (eos .hydrogen) 400 1 := fun h => (all_gibbs _ (by norm_num) (by norm_num)).1 h ⟨rfl, rfl⟩

/-- So the Helmholtz energy is a potential for all fluids. -/
theorem all_helmholtz (k : Kind) {T ρ : ℝ} (hT : 0 < T) (hρ : 0 < ρ) (h : k = .hydrogen → T ≠ 400) :
    HasDerivAt (fun t => (eos k).up t ρ - t * (eos k).sp t ρ) (-(eos k).sp T ρ) T ∧
    HasDerivAt (fun r => (eos k).up T r - T * (eos k).sp T r) ((eos k).Pp T ρ / ρ ^ 2) ρ :=
  helmholtz_of_gibbs hT hρ ((all_gibbs k hT hρ).2 fun ⟨h1, h2⟩ => h h1 h2)

end Verif.TpxFluids
