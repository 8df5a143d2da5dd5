import Verif.Thermo.IapwsPhiProps

/-!
# The IAPWS-95 Helmholtz function: main statements

* the hand-written derivative functions are the derivatives of the functions they belong to,
  wherever the code computes a number;
* exactly where the code computes a number: never at the critical density for `phiR_dd`;
* what a density returned by `dfind` satisfies.
-/

namespace Verif.Iapws

open Finset

/-! ## Where the critical terms vanish -/

theorem triag_eq_zero_iff {K : Coef} (hK : Good K) {j : ℕ} (hj : j < 2) (τ δ : ℝ) :
    triag K j τ δ = 0 ↔ δ = 1 ∧ τ = 1 := by
  have hB := hK.B_pos j hj
  have ha := hK.a_big j hj
  have hbb := hK.bb_pos j hj
  have hat : atmp K j ≠ 0 := by unfold atmp; have := hbb.1; positivity
  constructor
  · intro h
    have h1 : 0 ≤ theta K j τ δ * theta K j τ δ := mul_self_nonneg _
    have h2 : 0 ≤ K.B j * dtmp2 δ ^ K.a j :=
      mul_nonneg hB.le (Real.rpow_nonneg (dtmp2_nonneg δ) _)
    unfold triag at h
    have e2 : K.B j * dtmp2 δ ^ K.a j = 0 := by linarith
    have e1 : theta K j τ δ * theta K j τ δ = 0 := by linarith
    have e3 : dtmp2 δ ^ K.a j = 0 := (mul_eq_zero.1 e2).resolve_left hB.ne'
    have e4 : dtmp2 δ = 0 := ((Real.rpow_eq_zero_iff_of_nonneg (dtmp2_nonneg δ)).1 e3).1
    have e5 : δ = 1 := by
      have := mul_self_eq_zero.1 e4
      linarith
    have e6 : theta K j τ δ = 0 := mul_self_eq_zero.1 e1
    unfold theta at e6
    rw [e4, Real.zero_rpow hat] at e6
    exact ⟨e5, by linarith⟩
  · rintro ⟨rfl, rfl⟩
    have e4 : dtmp2 1 = 0 := by norm_num [dtmp2]
    unfold triag theta
    rw [e4, Real.zero_rpow hat, Real.zero_rpow (by linarith)]
    ring

theorem phiR_d_some_iff {K : Coef} (hK : Good K) (τ δ : ℝ) :
    (phiR_d K τ δ).isSome ↔ 0 < τ ∧ δ ≠ 0 ∧ ¬(δ = 1 ∧ τ = 1) := by
  unfold phiR_d
  split_ifs with h
  · refine ⟨fun _ => ⟨h.1, h.2.1, fun h' => h.2.2 0 (by omega) ?_⟩, fun _ => rfl⟩
    exact (triag_eq_zero_iff hK (by omega) τ δ).2 h'
  · refine ⟨fun h' => by simp at h', fun h' => absurd ⟨h'.1, h'.2.1, fun j hj h0 => ?_⟩ h⟩
    exact h'.2.2 ((triag_eq_zero_iff hK hj τ δ).1 h0)

theorem phiR_t_some_iff {K : Coef} (hK : Good K) (τ δ : ℝ) :
    ((phiR_t K τ δ).isSome ↔ 0 < τ ∧ ¬(δ = 1 ∧ τ = 1)) ∧
    ((phiR_tt K τ δ).isSome ↔ 0 < τ ∧ ¬(δ = 1 ∧ τ = 1)) := by
  have key : (0 < τ ∧ ∀ j < 2, triag K j τ δ ≠ 0) ↔ 0 < τ ∧ ¬(δ = 1 ∧ τ = 1) := by
    refine and_congr_right fun _ => ⟨fun h h' => h 0 (by omega)
      ((triag_eq_zero_iff hK (by omega) τ δ).2 h'), fun h' j hj h0 =>
      h' ((triag_eq_zero_iff hK hj τ δ).1 h0)⟩
  constructor
  · unfold phiR_t
    rw [← key]
    split_ifs with h
    · exact ⟨fun _ => h, fun _ => rfl⟩
    · exact ⟨fun h' => by simp at h', fun h' => absurd h' h⟩
  · unfold phiR_tt
    rw [← key]
    split_ifs with h
    · exact ⟨fun _ => h, fun _ => rfl⟩
    · exact ⟨fun h' => by simp at h', fun h' => absurd h' h⟩

theorem phiR_dt_some_iff {K : Coef} (hK : Good K) (τ δ : ℝ) :
    (phiR_dt K τ δ).isSome ↔ 0 < τ ∧ δ ≠ 0 ∧ ¬(δ = 1 ∧ τ = 1) := by
  rw [← phiR_d_some_iff hK]
  unfold phiR_dt phiR_d
  split_ifs <;> simp

/-- `phiR_dd` is a number exactly for `τ > 0`, `δ ≠ 0` and away from the critical density. -/
theorem phiR_dd_some_iff {K : Coef} (hK : Good K) (τ δ : ℝ) :
    (phiR_dd K τ δ).isSome ↔ 0 < τ ∧ δ ≠ 0 ∧ δ ≠ 1 := by
  unfold phiR_dd
  split_ifs with h
  · exact ⟨fun _ => ⟨h.1, h.2.1, h.2.2.1⟩, fun _ => rfl⟩
  · refine ⟨fun h' => by simp at h', fun h' => absurd ⟨h'.1, h'.2.1, h'.2.2, fun j hj h0 => ?_⟩ h⟩
    exact h'.2.2 ((triag_eq_zero_iff hK hj τ δ).1 h0).1

example (n n0 g0 : ℕ → ℝ) : (phiR_dd (water n n0 g0) 2 3).isSome :=
  (phiR_dd_some_iff (water_good n n0 g0) 2 3).2 ⟨by norm_num, by norm_num, by norm_num⟩

/-! ## First and second derivatives -/

theorem phiR_hasDeriv_delta {K : Coef} (hK : Good K) {τ δ v : ℝ} (h : phiR_d K τ δ = some v) :
    HasDerivAt (fun x => phiR K τ x) v δ := by
  unfold phiR_d at h
  split_ifs at h with hc
  obtain ⟨hτ, hδ, ht⟩ := hc
  simp only [Option.some.injEq] at h
  rw [← h]
  unfold phiR phiR_dV
  refine ((((poly_hasDeriv_delta K τ δ).fun_add (HasDerivAt.fun_sum fun i hi => ?_)).fun_add
    (HasDerivAt.fun_sum fun j _ => gs_hasDeriv_delta K j τ hδ)).fun_add
    (HasDerivAt.fun_sum fun j hj => ?_))
  · have := mem_range.1 hi
    exact ex_hasDeriv_delta K _ (hK.d_pos _ (by omega) (by omega)) τ hδ
  · have hj := mem_range.1 hj
    exact cr_hasDeriv_delta K j (hK.bb_pos j hj) (hK.a_big j hj) (ht j hj)

example (n n0 g0 : ℕ → ℝ) : ∃ v, HasDerivAt (fun x => phiR (water n n0 g0) 2 x) v 3 := by
  obtain ⟨v, hv⟩ := Option.isSome_iff_exists.1 ((phiR_d_some_iff (water_good n n0 g0) 2 3).2
    ⟨by norm_num, by norm_num, by norm_num⟩)
  exact ⟨v, phiR_hasDeriv_delta (water_good n n0 g0) hv⟩

theorem phiR_hasDeriv_tau {K : Coef} {τ δ v : ℝ} (h : phiR_t K τ δ = some v) :
    HasDerivAt (fun x => phiR K x δ) v τ := by
  unfold phiR_t at h
  split_ifs at h with hc
  obtain ⟨hτ, ht⟩ := hc
  simp only [Option.some.injEq] at h
  rw [← h]
  unfold phiR phiR_tV
  exact ((((poly_hasDeriv_tau K δ hτ).fun_add
    (HasDerivAt.fun_sum fun i _ => ex_hasDeriv_tau K _ τ δ)).fun_add
    (HasDerivAt.fun_sum fun j _ => gs_hasDeriv_tau K j δ hτ.ne')).fun_add
    (HasDerivAt.fun_sum fun j hj => cr_hasDeriv_tau K j (ht j (mem_range.1 hj))))

theorem triag_continuousAt_delta {K : Coef} (hK : Good K) {j : ℕ} (hj : j < 2) (τ δ : ℝ) :
    ContinuousAt (fun x => triag K j τ x) δ :=
  (triag_hasDeriv_delta K j (hK.bb_pos j hj) (hK.a_big j hj) τ δ).continuousAt

theorem eventually_delta {K : Coef} (hK : Good K) {τ δ : ℝ} (hτ : 0 < τ) (hδ : δ ≠ 0)
    (ht : ∀ j < 2, triag K j τ δ ≠ 0) :
    ∀ᶠ x in nhds δ, phiR_d K τ x = some (phiR_dV K τ x) := by
  have h0 := (triag_continuousAt_delta hK (j := 0) (by omega) τ δ).eventually_ne (ht 0 (by omega))
  have h1 := (triag_continuousAt_delta hK (j := 1) (by omega) τ δ).eventually_ne (ht 1 (by omega))
  filter_upwards [h0, h1, eventually_ne_nhds hδ] with x e0 e1 ex
  unfold phiR_d
  refine if_pos ⟨hτ, ex, fun j hj => ?_⟩
  rcases (by omega : j = 0 ∨ j = 1) with rfl | rfl
  · exact e0
  · exact e1

theorem eventually_tau {K : Coef} {τ δ : ℝ} (hτ : 0 < τ)
    (ht : ∀ j < 2, triag K j τ δ ≠ 0) :
    ∀ᶠ x in nhds τ, 0 < x ∧ ∀ j < 2, triag K j x δ ≠ 0 := by
  have h0 := (triag_hasDeriv_tau K 0 τ δ).continuousAt.eventually_ne (ht 0 (by omega))
  have h1 := (triag_hasDeriv_tau K 1 τ δ).continuousAt.eventually_ne (ht 1 (by omega))
  filter_upwards [h0, h1, eventually_gt_nhds hτ] with x e0 e1 ex
  refine ⟨ex, fun j hj => ?_⟩
  rcases (by omega : j = 0 ∨ j = 1) with rfl | rfl
  · exact e0
  · exact e1

theorem phiR_d_hasDeriv_delta {K : Coef} (hK : Good K) {τ δ v : ℝ} (h : phiR_dd K τ δ = some v) :
    HasDerivAt (fun x => (phiR_d K τ x).getD 0) v δ := by
  unfold phiR_dd at h
  split_ifs at h with hc
  obtain ⟨hτ, hδ, h1, ht⟩ := hc
  simp only [Option.some.injEq] at h
  rw [← h]
  have hw : HasDerivAt (fun x => phiR_dV K τ x) (phiR_ddV K τ δ) δ := by
    unfold phiR_dV phiR_ddV
    refine ((((poly_d_hasDeriv_delta K τ δ).fun_add (HasDerivAt.fun_sum fun i hi => ?_)).fun_add
      (HasDerivAt.fun_sum fun j _ => gs_d_hasDeriv_delta K j τ hδ)).fun_add
      (HasDerivAt.fun_sum fun j hj => ?_))
    · have := mem_range.1 hi
      exact ex_d_hasDeriv_delta K _ (hK.d_pos _ (by omega) (by omega)) τ hδ
    · have hj := mem_range.1 hj
      exact cr_d_hasDeriv_delta K j (hK.bb_pos j hj) (hK.a_big j hj) (ht j hj) h1
  refine hw.congr_of_eventuallyEq ?_
  filter_upwards [eventually_delta hK hτ hδ ht] with x hx
  rw [hx]; rfl

theorem phiR_t_hasDeriv_tau {K : Coef} (hK : Good K) {τ δ v : ℝ} (h : phiR_tt K τ δ = some v) :
    HasDerivAt (fun x => (phiR_t K x δ).getD 0) v τ := by
  unfold phiR_tt at h
  split_ifs at h with hc
  obtain ⟨hτ, ht⟩ := hc
  simp only [Option.some.injEq] at h
  rw [← h]
  have hw : HasDerivAt (fun x => phiR_tV K x δ) (phiR_ttV K τ δ) τ := by
    unfold phiR_tV phiR_ttV
    refine ((((poly_t_hasDeriv_tau K δ hτ).fun_add (HasDerivAt.fun_sum fun i hi => ?_)).fun_add
      (HasDerivAt.fun_sum fun j _ => gs_t_hasDeriv_tau K j δ hτ.ne')).fun_add
      (HasDerivAt.fun_sum fun j hj => cr_t_hasDeriv_tau K j (ht j (mem_range.1 hj))))
    have := mem_range.1 hi
    exact ex_t_hasDeriv_tau K _ (hK.t_pos _ (by omega) (by omega)) τ δ
  refine hw.congr_of_eventuallyEq ?_
  filter_upwards [eventually_tau hτ ht] with x hx
  unfold phiR_t
  rw [if_pos hx]; rfl

theorem phiR_d_hasDeriv_tau {K : Coef} {τ δ v : ℝ} (h : phiR_dt K τ δ = some v) :
    HasDerivAt (fun x => (phiR_d K x δ).getD 0) v τ := by
  unfold phiR_dt at h
  split_ifs at h with hc
  obtain ⟨hτ, hδ, ht⟩ := hc
  simp only [Option.some.injEq] at h
  rw [← h]
  have hw : HasDerivAt (fun x => phiR_dV K x δ) (phiR_dtV K τ δ) τ := by
    unfold phiR_dV phiR_dtV
    exact ((((poly_d_hasDeriv_tau K δ hτ).fun_add (HasDerivAt.fun_sum fun i hi =>
      ex_d_hasDeriv_tau K _ τ δ)).fun_add
      (HasDerivAt.fun_sum fun j _ => gs_d_hasDeriv_tau K j δ hτ.ne')).fun_add
      (HasDerivAt.fun_sum fun j hj => cr_d_hasDeriv_tau K j (ht j (mem_range.1 hj))))
  refine hw.congr_of_eventuallyEq ?_
  filter_upwards [eventually_tau hτ ht] with x hx
  unfold phiR_d
  rw [if_pos ⟨hx.1, hδ, hx.2⟩]; rfl

/-- At the critical density and away from the critical temperature `∂φ/∂δ` is differentiable,
but `phiR_dd` evaluates `0/0`. -/
theorem critical_density {K : Coef} (hK : Good K) {τ : ℝ} (hτ : 0 < τ) (h1 : τ ≠ 1) :
    phiR_dd K τ 1 = none ∧ DifferentiableAt ℝ (fun x => (phiR_d K τ x).getD 0) 1 := by
  have ht : ∀ j < 2, triag K j τ 1 ≠ 0 := fun j hj h0 =>
    h1 ((triag_eq_zero_iff hK hj τ 1).1 h0).2
  constructor
  · have := (phiR_dd_some_iff hK τ 1)
    cases hv : phiR_dd K τ 1 with
    | none => rfl
    | some v => rw [hv] at this; exact absurd rfl (this.1 rfl).2.2
  · have hw : DifferentiableAt ℝ (fun x => phiR_dV K τ x) 1 := by
      unfold phiR_dV
      refine HasDerivAt.differentiableAt (f' := poly_dd K τ 1
        + ∑ i ∈ range 44, ex_dd K (i + 8) τ 1 + ∑ j ∈ range 3, gs_dd K j τ 1
        + ∑ j ∈ range 2, cr_ddX K j τ 1) ?_
      refine ((((poly_d_hasDeriv_delta K τ 1).fun_add (HasDerivAt.fun_sum fun i hi => ?_)).fun_add
        (HasDerivAt.fun_sum fun j _ => gs_d_hasDeriv_delta K j τ one_ne_zero)).fun_add
        (HasDerivAt.fun_sum fun j hj => ?_))
      · have := mem_range.1 hi
        exact ex_d_hasDeriv_delta K _ (hK.d_pos _ (by omega) (by omega)) τ one_ne_zero
      · have hj := mem_range.1 hj
        exact cr_d_hasDeriv_deltaX K j (hK.bb_pos j hj) (hK.a_big j hj) (ht j hj)
    refine hw.congr_of_eventuallyEq ?_
    filter_upwards [eventually_delta hK hτ one_ne_zero ht] with x hx
    rw [hx]; rfl

example (n n0 g0 : ℕ → ℝ) : phiR_dd (water n n0 g0) 2 1 = none :=
  (critical_density (water_good n n0 g0) (by norm_num) (by norm_num)).1

/-! ## The function itself: the published equation -/

theorem phiR_formula (K : Coef) {τ : ℝ} (hτ : 0 < τ) (δ : ℝ) :
    phiR K τ δ = K.n 1 * δ * τ ^ (-1 / 2 : ℝ) + K.n 2 * δ * τ ^ (7 / 8 : ℝ) + K.n 3 * δ * τ
      + K.n 4 * δ ^ 2 * τ ^ (1 / 2 : ℝ) + K.n 5 * δ ^ 2 * τ ^ (3 / 4 : ℝ)
      + K.n 6 * δ ^ 3 * τ ^ (3 / 8 : ℝ) + K.n 7 * δ ^ 4 * τ
      + ∑ i ∈ Icc 8 51, K.n i * δ ^ K.d i * τ ^ K.t i * Real.exp (-δ ^ K.c i)
      + ∑ j ∈ range 3, K.n (52 + j) * δ ^ K.d (52 + j) * τ ^ K.t (52 + j)
          * Real.exp (-K.al j * (δ - K.ep j) ^ 2 - K.be j * (τ - K.ga j) ^ 2)
      + ∑ j ∈ range 2, K.n (55 + j) * (((1 - τ) + K.A j * ((δ - 1) ^ 2) ^ (1 / (2 * K.bb j))) ^ 2
            + K.B j * ((δ - 1) ^ 2) ^ K.a j) ^ K.b j
          * δ * Real.exp (-K.CC j * (δ - 1) ^ 2 - K.D j * (τ - 1) ^ 2) := by
  unfold phiR
  refine congrArg₂ (· + ·) (congrArg₂ (· + ·) (congrArg₂ (· + ·) ?_ ?_) ?_) ?_
  · unfold poly T375
    simp only [powTab_eq]
    have e1 : δ / Real.sqrt τ = δ * τ ^ (-1 / 2 : ℝ) := by
      rw [Real.sqrt_eq_rpow, show (-1 / 2 : ℝ) = -(1 / 2) by norm_num, Real.rpow_neg hτ.le,
        div_eq_mul_inv]
    have e2 : Real.sqrt τ * τ ^ (0.375 : ℝ) = τ ^ (7 / 8 : ℝ) := by
      rw [Real.sqrt_eq_rpow, ← Real.rpow_add hτ]; norm_num
    have e5 : τ ^ (0.375 : ℝ) * τ ^ (0.375 : ℝ) = τ ^ (3 / 4 : ℝ) := by
      rw [← Real.rpow_add hτ]; norm_num
    have e4 : Real.sqrt τ = τ ^ (1 / 2 : ℝ) := Real.sqrt_eq_rpow τ
    have e6 : τ ^ (0.375 : ℝ) = τ ^ (3 / 8 : ℝ) := by norm_num
    calc _ = K.n 1 * (δ / Real.sqrt τ) + K.n 2 * δ * (Real.sqrt τ * τ ^ (0.375 : ℝ))
          + K.n 3 * δ * τ + K.n 4 * δ ^ 2 * Real.sqrt τ
          + K.n 5 * δ ^ 2 * (τ ^ (0.375 : ℝ) * τ ^ (0.375 : ℝ))
          + K.n 6 * δ ^ 3 * τ ^ (0.375 : ℝ) + K.n 7 * δ ^ 4 * τ := by ring
      _ = _ := by rw [e1, e2, e5, e4, e6]; ring
  · have : Icc 8 51 = Ico 8 52 := by ext x; simp only [mem_Icc, mem_Ico]; omega
    rw [this, sum_Ico_eq_sum_range]
    refine sum_congr rfl fun i _ => ?_
    simp only [ex, powTab_eq, add_comm i 8]
  · refine sum_congr rfl fun j _ => ?_
    unfold gs gexp
    simp only [powTab_eq]
    congr 2
    ring
  · refine sum_congr rfl fun j _ => ?_
    unfold cr triagtmp triag theta psi atmp dtmp2
    have e : (0.5 : ℝ) / K.bb j = 1 / (2 * K.bb j) := by
      rw [show (0.5 : ℝ) = 1 / 2 by norm_num, div_div]
    rw [e]
    congr 2
    · simp only [sq]
    · ring

theorem phi0_formula (K : Coef) (τ δ : ℝ) :
    phi0 K τ δ = Real.log δ + K.n0 1 + K.n0 2 * τ + K.n0 3 * Real.log τ
      + ∑ i ∈ Icc 4 8, K.n0 i * Real.log (1 - Real.exp (-K.g0 i * τ)) := by
  have : Icc 4 8 = ({4, 5, 6, 7, 8} : Finset ℕ) := by decide
  rw [this]
  simp [phi0]
  ring

/-- Every power the loops ask for is in the tables `DELTAp[16]` and `TAUp[52]` as filled by
`tdpolycalc` (up to 15 and 50). -/
theorem water_tables (n n0 g0 : ℕ → ℝ) : ∀ i, 1 ≤ i → i ≤ 54 →
    1 ≤ (water n n0 g0).d i ∧ (water n n0 g0).d i ≤ 15 ∧ (water n n0 g0).t i ≤ 50
      ∧ (water n n0 g0).c i ≤ 15 := by
  have : ∀ i ∈ Icc 1 54, 1 ≤ diR i ∧ diR i ≤ 15 ∧ tiR i ≤ 50 ∧ ciR i ≤ 15 := by decide
  exact fun i h1 h2 => this i (mem_Icc.2 ⟨h1, h2⟩)

/-- The exponents `(c, d, t)` of terms 8 to 51 and the coefficients of terms 52 to 56 are those of
the IAPWS-95 release, table 2. -/
theorem published_exponents (n n0 g0 : ℕ → ℝ) :
    ((List.range 44).map fun i => ((water n n0 g0).c (i + 8), (water n n0 g0).d (i + 8),
      (water n n0 g0).t (i + 8))) =
    [(1, 1, 4), (1, 1, 6), (1, 1, 12), (1, 2, 1), (1, 2, 5), (1, 3, 4), (1, 4, 2), (1, 4, 13),
     (1, 5, 9), (1, 7, 3), (1, 9, 4), (1, 10, 11), (1, 11, 4), (1, 13, 13), (1, 15, 1),
     (2, 1, 7), (2, 2, 1), (2, 2, 9), (2, 2, 10), (2, 3, 10), (2, 4, 3), (2, 4, 7), (2, 4, 10),
     (2, 5, 10), (2, 6, 6), (2, 6, 10), (2, 7, 10), (2, 9, 1), (2, 9, 2), (2, 9, 3), (2, 9, 4),
     (2, 9, 8), (2, 10, 6), (2, 10, 9), (2, 12, 8), (3, 3, 16), (3, 4, 22), (3, 4, 23), (3, 5, 23),
     (4, 14, 10), (6, 3, 50), (6, 6, 44), (6, 6, 46), (6, 6, 50)] ∧
    ((List.range 3).map fun j => ((water n n0 g0).d (52 + j), (water n n0 g0).t (52 + j))) =
      [(3, 0), (3, 1), (3, 4)] := by
  constructor
  · show ((List.range 44).map fun i => (ciR (i + 8), diR (i + 8), tiR (i + 8))) = _
    decide
  · show ((List.range 3).map fun j => (diR (52 + j), tiR (52 + j))) = _
    decide

theorem published_coefficients (n n0 g0 : ℕ → ℝ) :
    (∀ j < 3, (water n n0 g0).al j = 20 ∧ (water n n0 g0).ep j = 1) ∧
    ((water n n0 g0).be 0 = 150 ∧ (water n n0 g0).be 1 = 150 ∧ (water n n0 g0).be 2 = 250) ∧
    ((water n n0 g0).ga 0 = 1.21 ∧ (water n n0 g0).ga 1 = 1.21 ∧ (water n n0 g0).ga 2 = 1.25) ∧
    (∀ j < 2, (water n n0 g0).a j = 3.5 ∧ (water n n0 g0).B j = 0.2 ∧ (water n n0 g0).A j = 0.32 ∧
      (water n n0 g0).bb j = 0.3) ∧
    ((water n n0 g0).b 0 = 0.85 ∧ (water n n0 g0).b 1 = 0.95) ∧
    ((water n n0 g0).CC 0 = 28 ∧ (water n n0 g0).CC 1 = 32) ∧
    ((water n n0 g0).D 0 = 700 ∧ (water n n0 g0).D 1 = 800) := by
  simp [water]

/-! ## dfind -/

/-- Reduced pressure `δ + δ² φ_δ`. -/
def redP (K : Coef) (τ dd p : ℝ) : Prop := ∃ q1, phiR_d K τ dd = some q1 ∧ p = dd + dd * dd * q1

/-- Its derivative `1 + 2δ φ_δ + δ² φ_δδ`. -/
def redDP (K : Coef) (τ dd s : ℝ) : Prop :=
  ∃ q1 q2, phiR_d K τ dd = some q1 ∧ phiR_dd K τ dd = some q2 ∧ s = 1 + 2 * dd * q1 + dd * dd * q2

/-- What one pass can do to a positive density. -/
theorem dfindPass_spec (K : Coef) (pred τ guess : ℝ) (n : ℕ) {dd : ℝ} (hd : 0 < dd) :
    match dfindPass K pred τ guess n dd with
    | .next d => 0 < d
    | .conv d => 0 < d ∧ ∃ p s, redP K τ dd p ∧ redDP K τ dd s ∧ 0 < s ∧
        ((d = dd ∧ |p - pred| < 1e-30 + 1e-14 * pred) ∨
          (|d - dd| < 1e-14 * d ∧ (d ≤ 5e12 → |p - pred| < 1e-14 * d * max (1.1 * s) 0.001)))
    | .nan => phiR_d K τ dd = none ∨ phiR_dd K τ dd = none := by
  unfold dfindPass
  cases h1 : phiR_d K τ dd with
  | none => simp
  | some q1 =>
    cases h2 : phiR_dd K τ dd with
    | none => simp
    | some q2 =>
      simp only
      by_cases hs : 1 + 2 * dd * q1 + dd * dd * q2 ≤ 0
      · rw [if_pos hs]
        simp only
        split_ifs <;> positivity
      · rw [if_neg hs]
        have hs' := not_le.1 hs
        by_cases hp : |dd + dd * dd * q1 - pred| < 1e-30 + 1e-14 * pred
        · rw [if_pos hp]
          exact ⟨hd, _, _, ⟨q1, h1, rfl⟩, ⟨q1, q2, h1, h2, rfl⟩, hs', Or.inl ⟨rfl, hp⟩⟩
        · rw [if_neg hp]
          generalize hS : 1 + 2 * dd * q1 + dd * dd * q2 = S at *
          generalize hX : max (if n < 10 then S * 1.1 else S) 0.001 = X
          have hX0 : 0 < X := by rw [← hX]; exact lt_max_of_lt_right (by norm_num)
          have hX1 : X ≤ max (1.1 * S) 0.001 := by
            rw [← hX]
            refine max_le_max ?_ le_rfl
            split_ifs <;> linarith
          generalize hP : dd + dd * dd * q1 = P at *
          generalize hD : (if |-(P - pred) / X| > 0.05 then
            -(P - pred) / X * 0.05 / |-(P - pred) / X| else -(P - pred) / X) = D
          by_cases hc : dd + D ≠ 0 ∧ |D / (dd + D)| < 1e-14
          · rw [if_pos hc]
            simp only
            have hc2 := hc.2
            rw [abs_div, div_lt_iff₀ (abs_pos.2 hc.1)] at hc2
            have hpos : 0 < dd + D := by
              by_contra hn
              have hn' : dd + D ≤ 0 := not_lt.1 hn
              rw [abs_of_nonpos hn', abs_of_nonpos (by linarith : D ≤ 0)] at hc2
              linarith
            rw [abs_of_pos hpos] at hc2
            refine ⟨hpos, P, S, ⟨q1, h1, hP.symm⟩, ⟨q1, q2, h1, h2, hS.symm⟩, hs',
              Or.inr ⟨by simpa using hc2, ?_⟩⟩
            intro hbig
            split_ifs at hD with hcrop
            · exfalso
              have h0 : |-(P - pred) / X| ≠ 0 := by
                intro h0; rw [h0] at hcrop; norm_num at hcrop
              have : |D| = 0.05 := by
                rw [← hD, abs_div, abs_abs, abs_mul, mul_div_assoc, mul_comm, div_mul_cancel₀ _ h0]
                norm_num
              rw [this] at hc2
              norm_num at hc2 hbig
              linarith
            · have e : |P - pred| = |D| * X := by
                rw [← hD, abs_div, abs_neg, abs_of_pos hX0, div_mul_cancel₀ _ hX0.ne']
              rw [e]
              calc |D| * X < 1e-14 * (dd + D) * X := mul_lt_mul_of_pos_right hc2 hX0
                _ ≤ _ := mul_le_mul_of_nonneg_left hX1 (by positivity)
          · rw [if_neg hc]
            simp only
            split_ifs with hn
            · norm_num
            · exact not_le.1 hn

theorem dfindLoop_spec (K : Coef) (pred τ guess : ℝ) (fuel n : ℕ) {dd r : ℝ} (hd : 0 < dd)
    (h : dfindLoop K pred τ guess fuel n dd = some r) :
    0 < r ∧ ∃ d0 p s, 0 < d0 ∧ redP K τ d0 p ∧ redDP K τ d0 s ∧ 0 < s ∧
        ((r = d0 ∧ |p - pred| < 1e-30 + 1e-14 * pred) ∨
          (|r - d0| < 1e-14 * r ∧ (r ≤ 5e12 → |p - pred| < 1e-14 * r * max (1.1 * s) 0.001))) := by
  induction fuel generalizing n dd with
  | zero => simp [dfindLoop] at h
  | succ fuel ih =>
    have hs := dfindPass_spec K pred τ guess n hd
    unfold dfindLoop at h
    cases hp : dfindPass K pred τ guess n dd with
    | next d =>
      rw [hp] at h hs
      exact ih (n + 1) hs h
    | conv d =>
      rw [hp] at h hs
      simp only [Option.some.injEq] at h
      subst h
      obtain ⟨h1, p, s, h2, h3, h4, h5⟩ := hs
      exact ⟨h1, dd, p, s, hd, h2, h3, h4, h5⟩
    | nan => rw [hp] at h; simp at h

/-- From a positive guess `dfind` returns zero (failure) or a positive density.  In the second
case there is a density within a relative distance of `1e-14` at which the pressure
`δ + δ² φ_δ` reproduces the requested one and increases with density: mechanically stable. -/
theorem dfind_spec (K : Coef) (pred τ : ℝ) {guess : ℝ} (hg : 0 < guess) :
    dfind K pred τ guess = 0 ∨
    (0 < dfind K pred τ guess ∧ ∃ d0 q1 q2, 0 < d0 ∧ phiR_d K τ d0 = some q1 ∧
      phiR_dd K τ d0 = some q2 ∧ 0 < 1 + 2 * d0 * q1 + d0 * d0 * q2 ∧
      ((dfind K pred τ guess = d0 ∧ |d0 + d0 * d0 * q1 - pred| < 1e-30 + 1e-14 * pred) ∨
        (|dfind K pred τ guess - d0| < 1e-14 * dfind K pred τ guess ∧
          (dfind K pred τ guess ≤ 5e12 → |d0 + d0 * d0 * q1 - pred| < 1e-14 * dfind K pred τ guess
            * max (1.1 * (1 + 2 * d0 * q1 + d0 * d0 * q2)) 0.001)))) := by
  unfold dfind
  cases h : dfindLoop K pred τ guess 200 0 guess with
  | none => exact Or.inl rfl
  | some r =>
    obtain ⟨h1, d0, p, s, h0, ⟨q1, h2, rfl⟩, ⟨q1', q2, h3, h4, rfl⟩, h5, h6⟩ :=
      dfindLoop_spec K pred τ guess 200 0 hg h
    rw [h2] at h3
    simp only [Option.some.injEq] at h3
    subst h3
    exact Or.inr ⟨h1, d0, q1, q2, h0, h2, h4, h5, h6⟩

/-- Starting at the critical density `dfind` always fails. -/
theorem dfind_critical {K : Coef} (hK : Good K) (pred τ : ℝ) : dfind K pred τ 1 = 0 := by
  have h : phiR_dd K τ 1 = none := by
    cases hv : phiR_dd K τ 1 with
    | none => rfl
    | some v =>
      have := (phiR_dd_some_iff hK τ 1)
      rw [hv] at this; exact absurd rfl (this.1 rfl).2.2
  have : dfindPass K pred τ 1 0 1 = .nan := by
    unfold dfindPass
    rw [h]
    cases phiR_d K τ 1 <;> rfl
  unfold dfind dfindLoop
  rw [this]
  rfl

/-- A stable density that already solves the equation is returned unchanged. -/
theorem dfind_solution {K : Coef} {pred τ guess q1 q2 : ℝ} (h1 : phiR_d K τ guess = some q1)
    (h2 : phiR_dd K τ guess = some q2) (hs : 0 < 1 + 2 * guess * q1 + guess * guess * q2)
    (hp : |guess + guess * guess * q1 - pred| < 1e-30 + 1e-14 * pred) :
    dfind K pred τ guess = guess := by
  have : dfindPass K pred τ guess 0 guess = .conv guess := by
    unfold dfindPass
    rw [h1, h2]
    simp only
    rw [if_neg (not_le.2 hs), if_pos hp]
  unfold dfind dfindLoop
  rw [this]
  rfl

/-- The moves of the iteration: away from the critical density where the pressure decreases,
otherwise a Newton step on `δ + δ² φ_δ - p`, damped by 1.1 in the first ten passes, with slope at
least 0.001 and length at most 0.05. -/
theorem dfind_moves {K : Coef} {pred τ guess dd q1 q2 : ℝ} (n : ℕ)
    (h1 : phiR_d K τ dd = some q1) (h2 : phiR_dd K τ dd = some q2) :
    (1 + 2 * dd * q1 + dd * dd * q2 ≤ 0 →
      (1 < guess → dfindPass K pred τ guess n dd = .next (dd * 1.05)) ∧
      (guess < 1 → dfindPass K pred τ guess n dd = .next (dd * 0.95)) ∧
      (guess = 1 → dfindPass K pred τ guess n dd = .next dd)) ∧
    (∀ s, s = 1 + 2 * dd * q1 + dd * dd * q2 → 0 < s →
      1e-30 + 1e-14 * pred ≤ |dd + dd * dd * q1 - pred| →
      ∀ x, x = (if n < 10 then (if 1.1 * s ≤ 0.001 then 0.001 else 1.1 * s)
          else (if s ≤ 0.001 then 0.001 else s)) →
      (|dd + dd * dd * q1 - pred| ≤ 0.05 * x →
        0 < dd - (dd + dd * dd * q1 - pred) / x →
        1e-14 * (dd - (dd + dd * dd * q1 - pred) / x) ≤ |(dd + dd * dd * q1 - pred) / x| →
        dfindPass K pred τ guess n dd = .next (dd - (dd + dd * dd * q1 - pred) / x)) ∧
      (0.05 * x < dd + dd * dd * q1 - pred → 0.1 < dd → dd < 1000 →
        dfindPass K pred τ guess n dd = .next (dd - 0.05)) ∧
      (0.05 * x < dd + dd * dd * q1 - pred → 0 < dd → dd < 0.05 →
        dfindPass K pred τ guess n dd = .next 1e-24) ∧
      (dd + dd * dd * q1 - pred < -0.05 * x → 0 < dd → dd < 1000 →
        dfindPass K pred τ guess n dd = .next (dd + 0.05))) := by
  unfold dfindPass
  rw [h1, h2]
  simp only
  refine ⟨fun hs => ⟨fun hg => ?_, fun hg => ?_, fun hg => ?_⟩, fun s hse hs hp x hx => ?_⟩
  · rw [if_pos hs, if_neg (by linarith), if_pos hg]
  · rw [if_pos hs, if_pos hg, if_neg (by linarith)]
  · rw [if_pos hs, if_neg (by linarith), if_neg (by linarith)]
  · rw [← hse, if_neg (not_le.2 hs), if_neg (not_lt.2 hp)]
    have hX : max (if n < 10 then s * 1.1 else s) 0.001 = x := by
      rw [hx]
      by_cases hn : n < 10
      · rw [if_pos hn, if_pos hn, mul_comm s]
        split_ifs with h
        · exact max_eq_right h
        · exact max_eq_left (le_of_lt (not_le.1 h))
      · rw [if_neg hn, if_neg hn]
        split_ifs with h
        · exact max_eq_right h
        · exact max_eq_left (le_of_lt (not_le.1 h))
    rw [hX]
    have hx0 : 0 < x := by rw [← hX]; exact lt_max_of_lt_right (by norm_num)
    generalize dd + dd * dd * q1 - pred = P at *
    have eN : -P / x = -(P / x) := neg_div _ _
    refine ⟨fun hle hpos hbig => ?_, fun hP hd hd' => ?_, fun hP hd hd' => ?_, fun hP hd hd' => ?_⟩
    · have h3 : ¬ |-P / x| > 0.05 := by
        rw [abs_div, abs_neg, abs_of_pos hx0, gt_iff_lt, not_lt, div_le_iff₀ hx0]; exact hle
      rw [if_neg h3, eN, ← sub_eq_add_neg]
      rw [if_neg, if_neg (not_le.2 hpos)]
      rw [abs_div, abs_neg, abs_of_pos hpos, div_lt_iff₀ hpos, not_and]
      exact fun _ => not_lt.2 hbig
    all_goals
      have hPx : 0.05 < |-P / x| := by
        rw [abs_div, abs_neg, abs_of_pos hx0, lt_div_iff₀ hx0]
        first
        | exact lt_of_lt_of_le hP (le_abs_self _)
        | (have := neg_le_abs P; linarith)
    · have e : -P / x * 0.05 / |-P / x| = -0.05 := by
        have : 0 < P := lt_trans (by positivity) hP
        rw [abs_div, abs_neg, abs_of_pos hx0, abs_of_pos this]; field_simp
      rw [if_pos hPx, e, ← sub_eq_add_neg, if_neg, if_neg (by norm_num at *; linarith)]
      have : 0 < dd - 0.05 := by norm_num at *; linarith
      rw [abs_div, abs_of_pos this, div_lt_iff₀ this, not_and]
      intro _
      norm_num at *
      linarith
    · have e : -P / x * 0.05 / |-P / x| = -0.05 := by
        have : 0 < P := lt_trans (by positivity) hP
        rw [abs_div, abs_neg, abs_of_pos hx0, abs_of_pos this]; field_simp
      rw [if_pos hPx, e, ← sub_eq_add_neg, if_neg, if_pos (by linarith)]
      have : dd - 0.05 < 0 := by linarith
      rw [abs_div, abs_of_neg this, div_lt_iff₀ (by linarith), not_and]
      intro _
      norm_num at *
      linarith
    · have e : -P / x * 0.05 / |-P / x| = 0.05 := by
        have : P < 0 := lt_trans hP (by nlinarith)
        have hne := this.ne
        rw [abs_div, abs_neg, abs_of_pos hx0, abs_of_neg this]; field_simp
      have : 0 < dd + 0.05 := by norm_num; linarith
      rw [if_pos hPx, e, if_neg, if_neg (not_le.2 this)]
      rw [abs_div, abs_of_pos this, div_lt_iff₀ this, not_and]
      intro _
      norm_num at *
      linarith

example (n n0 g0 : ℕ → ℝ) : dfind (water n n0 g0) 5 2 1 = 0 := dfind_critical (water_good n n0 g0) 5 2

end Verif.Iapws
