import Verif.Thermo.TpxFluidsProps
import Mathlib.Analysis.Complex.ExponentialBounds

/-!
# Pure fluids: hydrogen
-/

namespace Verif.TpxFluids

open Verif Finset

theorem icv_one (i : ℕ) : icv 1 0 i = 0 := by
  induction i with
  | zero => simp [icv]
  | succ n ih => simp [icv, ih]

/-- `icv` is the integral of a power of the logarithm. -/
theorem icv_deriv {x : ℝ} (hx : 0 < x) (i : ℕ) :
    HasDerivAt (fun y => icv y (Real.log y) i) (Real.log x ^ i) x := by
  have d := hasDerivAt_id' x
  have l := Real.hasDerivAt_log hx.ne'
  induction i with
  | zero => simpa [icv] using d.sub_const 1
  | succ n ih =>
    simp only [icv]
    refine ((d.mul (l.pow (n + 1))).sub (ih.const_mul ((n + 1 : ℕ) : ℝ))).congr_deriv ?_
    have := hx.ne'
    simp only [Pi.pow_apply, Nat.add_sub_cancel]
    field_simp
    ring

/-- Sums of `icv` and of powers of the logarithm have derivatives in the ratio of the temperature. -/
theorem sum_deriv (G : ℕ → ℝ) (n : ℕ) {T T1 : ℝ} (hT : 0 < T) (h1 : 0 < T1) :
    HasDerivAt (fun t => ∑ i ∈ range n, G i * T1 * icv (t / T1) (Real.log (t / T1)) i)
      (∑ i ∈ range n, G i * Real.log (T / T1) ^ i) T ∧
    HasDerivAt (fun t => ∑ i ∈ range n, G i / ((i + 1 : ℕ) : ℝ) * Real.log (t / T1) ^ (i + 1))
      ((∑ i ∈ range n, G i * Real.log (T / T1) ^ i) / T) T := by
  have d := (hasDerivAt_id' T).div_const T1
  have hx : 0 < T / T1 := div_pos hT h1
  have hT' := hT.ne'
  have h1' := h1.ne'
  constructor
  · refine HasDerivAt.fun_sum fun i _ => ?_
    refine (((icv_deriv hx i).comp T d).const_mul (G i * T1)).congr_deriv ?_
    field_simp
  · rw [sum_div]
    refine HasDerivAt.fun_sum fun i _ => ?_
    refine (((d.log hx.ne').pow (i + 1)).const_mul (G i / ((i + 1 : ℕ) : ℝ))).congr_deriv ?_
    have : ((i + 1 : ℕ) : ℝ) ≠ 0 := by positivity
    rw [Nat.add_sub_cancel]
    field_simp

theorem hyd_low (G : ℕ → ℝ) {t : ℝ} (h : t ≤ 35) :
    hydU G t = 3.9275114e5 + G 0 * (t - 13.8) ∧ hydS G t = 2.3900333e4 + G 0 * Real.log (t / 13.8) := by
  have h1 : ¬ t > 35 := by linarith
  have h2 : ¬ t > 400 := by linarith
  constructor
  · simp only [hydU, if_neg h1, if_neg h2, min_eq_left h]; ring
  · simp only [hydS, if_neg h1, if_neg h2, min_eq_left h]; ring

theorem hyd_mid (G : ℕ → ℝ) {t : ℝ} (h : 35 ≤ t) (h' : t ≤ 400) :
    hydU G t = 3.9275114e5 + G 0 * (35 - 13.8) + ∑ i ∈ range 12, G i * 35 * icv (t / 35) (Real.log (t / 35)) i ∧
    hydS G t = 2.3900333e4 + G 0 * Real.log (35 / 13.8)
      + ∑ i ∈ range 12, G i / ((i + 1 : ℕ) : ℝ) * Real.log (t / 35) ^ (i + 1) := by
  have h2 : ¬ t > 400 := by linarith
  rcases h.eq_or_lt with rfl | h
  · obtain ⟨e1, e2⟩ := hyd_low G (le_refl (35 : ℝ))
    rw [e1, e2]
    rw [div_self (by norm_num : (35 : ℝ) ≠ 0), Real.log_one]
    constructor
    · rw [Finset.sum_eq_zero fun i _ => by rw [icv_one, mul_zero]]; ring
    · rw [Finset.sum_eq_zero fun i _ => by rw [zero_pow (Nat.succ_ne_zero i), mul_zero]]; ring
  · have h1 : t > 35 := h
    constructor
    · simp only [hydU, if_pos h1, if_neg h2, min_eq_right h.le, min_eq_left h']; ring
    · simp only [hydS, if_pos h1, if_neg h2, min_eq_right h.le, min_eq_left h']; ring

theorem hyd_high (G : ℕ → ℝ) {t : ℝ} (h : 400 ≤ t) :
    hydU G t = 3.9275114e5 + G 0 * (35 - 13.8)
      + (∑ i ∈ range 12, G i * 35 * icv (400 / 35) (Real.log (400 / 35)) i)
      + ∑ i ∈ range 5, G (i + 12) * 400 * icv (t / 400) (Real.log (t / 400)) i ∧
    hydS G t = 2.3900333e4 + G 0 * Real.log (35 / 13.8)
      + (∑ i ∈ range 12, G i / ((i + 1 : ℕ) : ℝ) * Real.log (400 / 35) ^ (i + 1))
      + ∑ i ∈ range 5, G (i + 12) / ((i + 1 : ℕ) : ℝ) * Real.log (t / 400) ^ (i + 1) := by
  have h1 : t > 35 := by linarith
  have h3 : (35 : ℝ) ≤ t := by linarith
  rcases h.eq_or_lt with rfl | h
  · obtain ⟨e1, e2⟩ := hyd_mid G (by norm_num : (35 : ℝ) ≤ 400) le_rfl
    rw [e1, e2]
    rw [div_self (by norm_num : (400 : ℝ) ≠ 0), Real.log_one]
    constructor
    · rw [Finset.sum_eq_zero (s := range 5) fun i _ => by rw [icv_one, mul_zero]]; ring
    · rw [Finset.sum_eq_zero (s := range 5) fun i _ => by rw [zero_pow (Nat.succ_ne_zero i), mul_zero]]; ring
  · have h2 : t > 400 := h
    constructor
    · simp only [hydU, if_pos h1, if_pos h2, min_eq_right h3, min_eq_right h.le]
    · simp only [hydS, if_pos h1, if_pos h2, min_eq_right h3, min_eq_right h.le]

/-- Derivatives of the low temperature formulas. -/
theorem low_deriv (G : ℕ → ℝ) {T : ℝ} (hT : 0 < T) :
    HasDerivAt (fun t : ℝ => 3.9275114e5 + G 0 * (t - 13.8)) (G 0) T ∧
    HasDerivAt (fun t : ℝ => 2.3900333e4 + G 0 * Real.log (t / 13.8)) (G 0 / T) T := by
  have d := hasDerivAt_id' T
  have hT' := hT.ne'
  constructor
  · refine (((d.sub_const 13.8).const_mul (G 0)).const_add 3.9275114e5).congr_deriv ?_
    ring
  · refine ((((d.div_const 13.8).log (by positivity)).const_mul (G 0)).const_add 2.3900333e4).congr_deriv ?_
    field_simp

theorem hydU_deriv (G : ℕ → ℝ) {T : ℝ} (hT : 0 < T) (h4 : T ≠ 400) :
    ∃ c, HasDerivAt (hydU G) c T ∧ HasDerivAt (hydS G) (c / T) T := by
  rcases lt_trichotomy T 35 with h | rfl | h
  · obtain ⟨a, b⟩ := low_deriv G hT
    refine ⟨_, a.congr_of_eventuallyEq ?_, b.congr_of_eventuallyEq ?_⟩
    · filter_upwards [Iio_mem_nhds h] with t ht using (hyd_low G (le_of_lt ht)).1
    · filter_upwards [Iio_mem_nhds h] with t ht using (hyd_low G (le_of_lt ht)).2
  · obtain ⟨a, b⟩ := low_deriv G hT
    obtain ⟨a', b'⟩ := sum_deriv G 12 hT (by norm_num : (0 : ℝ) < 35)
    have hs : ∑ i ∈ range 12, G i * Real.log (35 / 35) ^ i = G 0 := by
      rw [div_self (by norm_num : (35 : ℝ) ≠ 0), Real.log_one, sum_range_succ']
      simp
    rw [hs] at a' b'
    have hn : Set.Iic (35 : ℝ) ∪ Set.Icc 35 400 ∈ nhds (35 : ℝ) := by
      filter_upwards [Iio_mem_nhds (by norm_num : (35 : ℝ) < 400)] with t ht
      rcases le_total t 35 with h | h
      · exact Or.inl h
      · exact Or.inr ⟨h, le_of_lt ht⟩
    refine ⟨G 0, HasDerivWithinAt.hasDerivAt (HasDerivWithinAt.union ?_ ?_) hn,
      HasDerivWithinAt.hasDerivAt (HasDerivWithinAt.union ?_ ?_) hn⟩
    · exact a.hasDerivWithinAt.congr (fun t ht => (hyd_low G ht).1) (hyd_low G le_rfl).1
    · exact (a'.const_add _).hasDerivWithinAt.congr (fun t ht => (hyd_mid G ht.1 ht.2).1)
        (hyd_mid G le_rfl (by norm_num)).1
    · exact b.hasDerivWithinAt.congr (fun t ht => (hyd_low G ht).2) (hyd_low G le_rfl).2
    · exact (b'.const_add _).hasDerivWithinAt.congr (fun t ht => (hyd_mid G ht.1 ht.2).2)
        (hyd_mid G le_rfl (by norm_num)).2
  · rcases lt_or_gt_of_ne h4 with h' | h'
    · obtain ⟨a, b⟩ := sum_deriv G 12 hT (by norm_num : (0 : ℝ) < 35)
      refine ⟨_, (a.const_add (3.9275114e5 + G 0 * (35 - 13.8))).congr_of_eventuallyEq ?_,
        (b.const_add (2.3900333e4 + G 0 * Real.log (35 / 13.8))).congr_of_eventuallyEq ?_⟩
      · filter_upwards [Ioo_mem_nhds h h'] with t ht using (hyd_mid G ht.1.le ht.2.le).1
      · filter_upwards [Ioo_mem_nhds h h'] with t ht using (hyd_mid G ht.1.le ht.2.le).2
    · obtain ⟨a, b⟩ := sum_deriv (fun i => G (i + 12)) 5 hT (by norm_num : (0 : ℝ) < 400)
      refine ⟨_, (a.const_add (3.9275114e5 + G 0 * (35 - 13.8)
          + ∑ i ∈ range 12, G i * 35 * icv (400 / 35) (Real.log (400 / 35)) i)).congr_of_eventuallyEq ?_,
        (b.const_add (2.3900333e4 + G 0 * Real.log (35 / 13.8)
          + ∑ i ∈ range 12, G i / ((i + 1 : ℕ) : ℝ) * Real.log (400 / 35) ^ (i + 1))).congr_of_eventuallyEq ?_⟩
      · filter_upwards [Ioi_mem_nhds h'] with t ht using (hyd_high G (le_of_lt ht)).1
      · filter_upwards [Ioi_mem_nhds h'] with t ht using (hyd_high G (le_of_lt ht)).2

/-- Hydrogen, at every temperature except 400 K. -/
theorem hydrogen_gibbs {T ρ : ℝ} (hT : 0 < T) (h4 : T ≠ 400) (hρ : 0 < ρ) : GibbsAt hydrogen T ρ := by
  obtain ⟨c, h1, h2⟩ := hydU_deriv Ghydro hT h4
  exact mbwr_gibbs hydrogen Ahydro _ _ _ _ (by norm_num) hT hρ rfl rfl rfl h1 h2

/-- Logarithm of the ratio of the two limits of the ideal gas heat capacity of hydrogen. -/
theorem log_ratio : (2.436 : ℝ) < Real.log (400 / 35) ∧ Real.log (400 / 35) < 2.4363 := by
  constructor
  · rw [Real.lt_log_iff_exp_lt (by norm_num)]
    have h := Real.exp_bound' (x := 0.609) (n := 8) (by norm_num) (by norm_num) (by norm_num)
    have e : Real.exp 2.436 = Real.exp 0.609 ^ 4 := by rw [← Real.exp_nat_mul]; norm_num
    rw [e]
    have h0 := (Real.exp_pos 0.609).le
    refine lt_of_le_of_lt (pow_le_pow_left₀ h0 h 4) ?_
    norm_num [Finset.sum_range_succ, Nat.factorial]
  · rw [Real.log_lt_iff_lt_exp (by norm_num)]
    have h := Real.sum_le_exp_of_nonneg (x := 0.609075) (by norm_num) 8
    have e : Real.exp 2.4363 = Real.exp 0.609075 ^ 4 := by rw [← Real.exp_nat_mul]; norm_num
    rw [e]
    refine lt_of_lt_of_le ?_ (pow_le_pow_left₀ (Finset.sum_nonneg fun i _ => by positivity) h 4)
    norm_num [Finset.sum_range_succ, Nat.factorial]

/-- Just below 400 K the ideal gas heat capacity of hydrogen is more than 10438 J/kg/K. -/
theorem cv_left : 10438 < ∑ i ∈ range 12, Ghydro i * Real.log (400 / 35) ^ i := by
  obtain ⟨h1, h2⟩ := log_ratio
  generalize Real.log (400 / 35) = x at *
  obtain ⟨d, rfl⟩ : ∃ d, x = 2.436 + d := ⟨x - 2.436, by ring⟩
  have d0 : 0 ≤ d := by linarith
  have d1 : d ≤ 0.0003 := by linarith
  have hp : ∀ k : ℕ, d ^ k ≤ 0.0003 ^ k := fun k => pow_le_pow_left₀ d0 d1 k
  have p2 := hp 2
  have p3 := hp 3
  have p4 := hp 4
  have p5 := hp 5
  have p6 := hp 6
  have p7 := hp 7
  have p8 := hp 8
  have p9 := hp 9
  have p10 := hp 10
  have p11 := hp 11
  norm_num at p2 p3 p4 p5 p6 p7 p8 p9 p10 p11
  simp only [sum_range_succ, range_zero, sum_empty, Ghydro, List.getD_cons_zero, List.getD_cons_succ]
  ring_nf
  linarith

/-- The energy of hydrogen has a kink at 400 K: its derivative from below exceeds 10438 J/kg/K, and its derivative from
above, without the part of the real gas, is 10434.776 J/kg/K. -/
theorem hydrogen_kink :
    (∃ c, 10438 < c ∧ HasDerivWithinAt (hydU Ghydro) c (Set.Icc 35 400) 400) ∧
    HasDerivWithinAt (hydU Ghydro) 10434.776 (Set.Ici 400) 400 := by
  constructor
  · obtain ⟨a, -⟩ := sum_deriv Ghydro 12 (by norm_num : (0 : ℝ) < 400) (by norm_num : (0 : ℝ) < 35)
    exact ⟨_, cv_left, (a.const_add _).hasDerivWithinAt.congr (fun t ht => (hyd_mid Ghydro ht.1 ht.2).1)
      (hyd_mid Ghydro (by norm_num) le_rfl).1⟩
  · obtain ⟨a, -⟩ := sum_deriv (fun i => Ghydro (i + 12)) 5 (by norm_num : (0 : ℝ) < 400) (by norm_num : (0 : ℝ) < 400)
    have hs : ∑ i ∈ range 5, Ghydro (i + 12) * Real.log (400 / 400) ^ i = 10434.776 := by
      rw [div_self (by norm_num : (400 : ℝ) ≠ 0), Real.log_one, sum_range_succ']
      simp [Ghydro]
    rw [hs] at a
    exact (a.const_add _).hasDerivWithinAt.congr (fun t ht => (hyd_high Ghydro ht).1) (hyd_high Ghydro le_rfl).1

/-- The energy of hydrogen has no derivative with respect to temperature at 400 K, whatever the density. -/
theorem hydrogen_not_differentiable (ρ : ℝ) : ¬ DifferentiableAt ℝ (fun t => hydrogen.up t ρ) 400 := by
  intro h
  have hm : DifferentiableAt ℝ (fun t => mUres Ahydro 1.008854772e-3 t ρ) 400 := by
    have : (fun t => mUres Ahydro 1.008854772e-3 t ρ) = fun t => ∑ i ∈ range 14,
        (mC Ahydro t (1 / t) (1 / t * (1 / t)) i
          - t * mCprime Ahydro t (1 / t) (1 / t * (1 / t)) (1 / t * (1 / t * (1 / t))) i)
        * mI 1.008854772e-3 ρ (Real.exp (-1.008854772e-3 * ρ * ρ)) i := rfl
    rw [this]
    refine DifferentiableAt.fun_sum fun i _ => DifferentiableAt.mul_const ?_ _
    exact (mC_deriv Ahydro (by norm_num) i).differentiableAt.sub
      (differentiableAt_id.mul (mCprime_diff Ahydro (by norm_num) i))
  have hd : DifferentiableAt ℝ (hydU Ghydro) 400 := by
    have h2 := h.sub hm
    have : ((fun t => hydrogen.up t ρ) - fun t => mUres Ahydro 1.008854772e-3 t ρ) = hydU Ghydro := by
      funext t
      simp [hydrogen]
    rwa [this] at h2
  obtain ⟨⟨c, hc, h1⟩, h2⟩ := hydrogen_kink
  have e1 := UniqueDiffWithinAt.eq_deriv _ (uniqueDiffOn_Icc (by norm_num) 400 ⟨by norm_num, le_rfl⟩) h1
    hd.hasDerivAt.hasDerivWithinAt
  have e2 := UniqueDiffWithinAt.eq_deriv _ (uniqueDiffOn_Ici 400 400 Set.self_mem_Ici) h2
    hd.hasDerivAt.hasDerivWithinAt
  rw [e1, ← e2] at hc
  norm_num at hc

end Verif.TpxFluids
