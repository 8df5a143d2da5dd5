import Verif.Thermo.IapwsPhi
import Mathlib.Analysis.SpecialFunctions.Pow.Deriv
import Mathlib.Analysis.SpecialFunctions.Sqrt
import Mathlib.Analysis.SpecialFunctions.Log.Deriv
import Mathlib.Analysis.SpecialFunctions.ExpDeriv
import Mathlib.Tactic.FieldSimp
import Mathlib.Tactic.Ring
import Mathlib.Tactic.Linarith
import Mathlib.Tactic.NormNum

/-!
# Derivatives of the terms of the IAPWS-95 Helmholtz function
-/

namespace Verif.Iapws

open Finset

theorem powTab_eq (x : ℝ) (i : ℕ) : powTab x i = x ^ i := by
  induction i with
  | zero => simp [powTab]
  | succ i ih => rw [powTab, ih, pow_succ]

/-- What the exponents must satisfy for the derivative formulas to be meaningful. -/
structure Good (K : Coef) : Prop where
  d_pos : ∀ i, 8 ≤ i → i ≤ 51 → 1 ≤ K.d i
  t_pos : ∀ i, 8 ≤ i → i ≤ 51 → 1 ≤ K.t i
  bb_pos : ∀ j, j < 2 → 0 < K.bb j ∧ K.bb j < 0.5
  a_big : ∀ j, j < 2 → 2 < K.a j
  B_pos : ∀ j, j < 2 → 0 < K.B j

theorem water_good (n n0 g0 : ℕ → ℝ) : Good (water n n0 g0) := by
  refine ⟨?_, ?_, fun j _ => by norm_num [water], fun j _ => by norm_num [water],
    fun j _ => by norm_num [water]⟩
  · have : ∀ i ∈ Finset.Icc 8 51, 1 ≤ diR i := by decide
    exact fun i h1 h2 => this i (Finset.mem_Icc.2 ⟨h1, h2⟩)
  · have : ∀ i ∈ Finset.Icc 8 51, 1 ≤ tiR i := by decide
    exact fun i h1 h2 => this i (Finset.mem_Icc.2 ⟨h1, h2⟩)

/-! ## Ideal part -/

theorem hasDerivAt_logexp {g τ : ℝ} (hg : 0 < g) (hτ : 0 < τ) :
    HasDerivAt (fun x => Real.log (1 - Real.exp (-g * x)))
      (g * (1 / (1 - Real.exp (-g * τ)) - 1)) τ := by
  have h1 : Real.exp (-g * τ) < 1 := by
    rw [Real.exp_lt_one_iff]; nlinarith
  have hne : 1 - Real.exp (-g * τ) ≠ 0 := by linarith
  have h : HasDerivAt (fun x => 1 - Real.exp (-g * x)) (-(Real.exp (-g * τ) * (-g * 1))) τ := by
    simpa using ((((hasDerivAt_id' τ).const_mul (-g)).exp).const_sub 1)
  refine (h.log hne).congr_deriv ?_
  generalize Real.exp (-g * τ) = e at *
  field_simp
  ring

theorem hasDerivAt_dlogexp {g τ : ℝ} (hg : 0 < g) (hτ : 0 < τ) :
    HasDerivAt (fun x => 1 / (1 - Real.exp (-g * x)) - 1)
      (-(g * Real.exp (-g * τ) / ((1 - Real.exp (-g * τ)) * (1 - Real.exp (-g * τ))))) τ := by
  have h1 : Real.exp (-g * τ) < 1 := by
    rw [Real.exp_lt_one_iff]; nlinarith
  have hne : 1 - Real.exp (-g * τ) ≠ 0 := by linarith
  have h : HasDerivAt (fun x => 1 - Real.exp (-g * x)) (-(Real.exp (-g * τ) * (-g * 1))) τ := by
    simpa using ((((hasDerivAt_id' τ).const_mul (-g)).exp).const_sub 1)
  refine (((hasDerivAt_const τ (1:ℝ)).fun_div h hne).sub_const 1).congr_deriv ?_
  field_simp
  ring

theorem phi0_hasDeriv_delta (K : Coef) (τ : ℝ) {δ : ℝ} (hδ : 0 < δ) :
    HasDerivAt (fun x => phi0 K τ x) (phi0_d δ) δ := by
  unfold phi0 phi0_d
  have := Real.hasDerivAt_log hδ.ne'
  rw [one_div]
  exact ((((((((this.add_const _).add_const _).add_const _).add_const _).add_const _).add_const
    _).add_const _).add_const _)

theorem phi0_d_hasDeriv_delta {δ : ℝ} (hδ : 0 < δ) :
    HasDerivAt (fun x => phi0_d x) (phi0_dd δ) δ := by
  unfold phi0_d phi0_dd
  refine ((hasDerivAt_const δ (1:ℝ)).fun_div (hasDerivAt_id' δ) hδ.ne').congr_deriv ?_
  field_simp
  ring

theorem phi0_hasDeriv_tau (K : Coef) {τ : ℝ} (δ : ℝ) (hτ : 0 < τ)
    (hg : ∀ i, 4 ≤ i → i ≤ 8 → 0 < K.g0 i) :
    HasDerivAt (fun x => phi0 K x δ) (phi0_t K τ) τ := by
  unfold phi0 phi0_t
  have hl := (Real.hasDerivAt_log hτ.ne').const_mul (K.n0 3)
  have h2 := (hasDerivAt_id' τ).const_mul (K.n0 2)
  have h4 := (hasDerivAt_logexp (hg 4 (by omega) (by omega)) hτ).const_mul (K.n0 4)
  have h5 := (hasDerivAt_logexp (hg 5 (by omega) (by omega)) hτ).const_mul (K.n0 5)
  have h6 := (hasDerivAt_logexp (hg 6 (by omega) (by omega)) hτ).const_mul (K.n0 6)
  have h7 := (hasDerivAt_logexp (hg 7 (by omega) (by omega)) hτ).const_mul (K.n0 7)
  have h8 := (hasDerivAt_logexp (hg 8 (by omega) (by omega)) hτ).const_mul (K.n0 8)
  refine (((((((h2.const_add (Real.log δ + K.n0 1)).fun_add hl).fun_add h4).fun_add h5).fun_add
    h6).fun_add h7).fun_add h8).congr_deriv ?_
  ring

theorem phi0_t_hasDeriv_tau (K : Coef) {τ : ℝ} (hτ : 0 < τ)
    (hg : ∀ i, 4 ≤ i → i ≤ 8 → 0 < K.g0 i) :
    HasDerivAt (fun x => phi0_t K x) (phi0_tt K τ) τ := by
  unfold phi0_t phi0_tt
  have h3 := ((hasDerivAt_const τ (K.n0 3)).fun_div (hasDerivAt_id' τ) hτ.ne')
  have h4 := (hasDerivAt_dlogexp (hg 4 (by omega) (by omega)) hτ).const_mul (K.n0 4 * K.g0 4)
  have h5 := (hasDerivAt_dlogexp (hg 5 (by omega) (by omega)) hτ).const_mul (K.n0 5 * K.g0 5)
  have h6 := (hasDerivAt_dlogexp (hg 6 (by omega) (by omega)) hτ).const_mul (K.n0 6 * K.g0 6)
  have h7 := (hasDerivAt_dlogexp (hg 7 (by omega) (by omega)) hτ).const_mul (K.n0 7 * K.g0 7)
  have h8 := (hasDerivAt_dlogexp (hg 8 (by omega) (by omega)) hτ).const_mul (K.n0 8 * K.g0 8)
  refine ((((((h3.const_add (K.n0 2)).fun_add h4).fun_add h5).fun_add
    h6).fun_add h7).fun_add h8).congr_deriv ?_
  simp only [Finset.sum_range_succ, Finset.sum_range_zero]
  ring

/-! ## Polynomial terms -/

theorem hasDerivAt_T375 {τ : ℝ} (hτ : 0 < τ) :
    HasDerivAt T375 (0.375 * T375 τ / τ) τ := by
  have h := Real.hasDerivAt_rpow_const (x := τ) (p := 0.375) (Or.inl hτ.ne')
  unfold T375
  refine h.congr_deriv ?_
  rw [Real.rpow_sub_one hτ.ne']
  ring

theorem hasDerivAt_sqrt' {τ : ℝ} (hτ : 0 < τ) :
    HasDerivAt (fun x => Real.sqrt x) (0.5 / Real.sqrt τ) τ := by
  refine (Real.hasDerivAt_sqrt hτ.ne').congr_deriv ?_
  have := Real.sqrt_pos.2 hτ
  field_simp
  norm_num

theorem poly_hasDeriv_delta (K : Coef) (τ δ : ℝ) :
    HasDerivAt (fun x => poly K τ x) (poly_d K τ δ) δ := by
  unfold poly poly_d
  simp only [powTab_eq]
  have hx := hasDerivAt_id' δ
  have h1 := (hx.const_mul (K.n 1)).div_const (Real.sqrt τ)
  have h2 := ((hx.const_mul (K.n 2)).mul_const (Real.sqrt τ)).mul_const (T375 τ)
  have h3 := (hx.const_mul (K.n 3)).mul_const τ
  have h4 := ((hasDerivAt_pow 2 δ).const_mul (K.n 4)).mul_const (Real.sqrt τ)
  have h5 := (((hasDerivAt_pow 2 δ).const_mul (K.n 5)).mul_const (T375 τ)).mul_const (T375 τ)
  have h6 := ((hasDerivAt_pow 3 δ).const_mul (K.n 6)).mul_const (T375 τ)
  have h7 := ((hasDerivAt_pow 4 δ).const_mul (K.n 7)).mul_const τ
  refine ((((((h1.fun_add h2).fun_add h3).fun_add h4).fun_add h5).fun_add h6).fun_add
    h7).congr_deriv ?_
  push_cast
  ring

theorem poly_d_hasDeriv_delta (K : Coef) (τ δ : ℝ) :
    HasDerivAt (fun x => poly_d K τ x) (poly_dd K τ δ) δ := by
  unfold poly_d poly_dd
  simp only [powTab_eq]
  have hx := hasDerivAt_id' δ
  have h4 := (hx.const_mul (K.n 4 * 2)).mul_const (Real.sqrt τ)
  have h5 := ((hx.const_mul (K.n 5 * 2)).mul_const (T375 τ)).mul_const (T375 τ)
  have h6 := ((hasDerivAt_pow 2 δ).const_mul (K.n 6 * 3)).mul_const (T375 τ)
  have h7 := ((hasDerivAt_pow 3 δ).const_mul (K.n 7 * 4)).mul_const τ
  refine ((((h4.const_add (K.n 1 / Real.sqrt τ + K.n 2 * Real.sqrt τ * T375 τ
    + K.n 3 * τ)).fun_add h5).fun_add h6).fun_add h7).congr_deriv ?_
  push_cast
  ring

theorem poly_hasDeriv_tau (K : Coef) {τ : ℝ} (δ : ℝ) (hτ : 0 < τ) :
    HasDerivAt (fun x => poly K x δ) (poly_t K τ δ) τ := by
  unfold poly poly_t
  have hs := hasDerivAt_sqrt' hτ
  have hT := hasDerivAt_T375 hτ
  have hx := hasDerivAt_id' τ
  have hsp := Real.sqrt_pos.2 hτ
  have hss : Real.sqrt τ * Real.sqrt τ = τ := Real.mul_self_sqrt hτ.le
  have h1 := (hasDerivAt_const τ (K.n 1 * δ)).fun_div hs hsp.ne'
  have h2 := (hs.const_mul (K.n 2 * δ)).fun_mul hT
  have h3 := hx.const_mul (K.n 3 * δ)
  have h4 := hs.const_mul (K.n 4 * powTab δ 2)
  have h5 := (hT.const_mul (K.n 5 * powTab δ 2)).fun_mul hT
  have h6 := hT.const_mul (K.n 6 * powTab δ 3)
  have h7 := hx.const_mul (K.n 7 * powTab δ 4)
  refine ((((((h1.fun_add h2).fun_add h3).fun_add h4).fun_add h5).fun_add h6).fun_add
    h7).congr_deriv ?_
  generalize T375 τ = t at *
  generalize hr : Real.sqrt τ = r at *
  subst hss
  field_simp
  ring

theorem poly_t_hasDeriv_tau (K : Coef) {τ : ℝ} (δ : ℝ) (hτ : 0 < τ) :
    HasDerivAt (fun x => poly_t K x δ) (poly_tt K τ δ) τ := by
  unfold poly_t poly_tt
  have hs := hasDerivAt_sqrt' hτ
  have hT := hasDerivAt_T375 hτ
  have hx := hasDerivAt_id' τ
  have hsp := Real.sqrt_pos.2 hτ
  have hss : Real.sqrt τ * Real.sqrt τ = τ := Real.mul_self_sqrt hτ.le
  have h1 := ((hasDerivAt_const τ (-0.5 * K.n 1 * δ)).fun_div hs hsp.ne').fun_div hx hτ.ne'
  have h2 := ((hasDerivAt_const τ (K.n 2 * δ * 0.875)).fun_div hs hsp.ne').fun_mul hT
  have h4 := (hasDerivAt_const τ (K.n 4 * powTab δ 2 * 0.5)).fun_div hs hsp.ne'
  have h5 := ((hT.const_mul (K.n 5 * powTab δ 2 * 0.75)).fun_mul hT).fun_div hx hτ.ne'
  have h6 := (hT.const_mul (K.n 6 * powTab δ 3 * 0.375)).fun_div hx hτ.ne'
  refine ((((((h1.fun_add h2).add_const (K.n 3 * δ)).fun_add h4).fun_add h5).fun_add
    h6).add_const (K.n 7 * powTab δ 4)).congr_deriv ?_
  generalize T375 τ = t at *
  generalize hr : Real.sqrt τ = r at *
  subst hss
  field_simp
  ring

theorem poly_d_hasDeriv_tau (K : Coef) {τ : ℝ} (δ : ℝ) (hτ : 0 < τ) :
    HasDerivAt (fun x => poly_d K x δ) (poly_dt K τ δ) τ := by
  unfold poly_d poly_dt
  have hs := hasDerivAt_sqrt' hτ
  have hT := hasDerivAt_T375 hτ
  have hx := hasDerivAt_id' τ
  have hsp := Real.sqrt_pos.2 hτ
  have hss : Real.sqrt τ * Real.sqrt τ = τ := Real.mul_self_sqrt hτ.le
  have h1 := (hasDerivAt_const τ (K.n 1)).fun_div hs hsp.ne'
  have h2 := (hs.const_mul (K.n 2)).fun_mul hT
  have h3 := hx.const_mul (K.n 3)
  have h4 := hs.const_mul (K.n 4 * 2 * δ)
  have h5 := (hT.const_mul (K.n 5 * 2 * δ)).fun_mul hT
  have h6 := hT.const_mul (K.n 6 * 3 * powTab δ 2)
  have h7 := hx.const_mul (K.n 7 * 4 * powTab δ 3)
  refine ((((((h1.fun_add h2).fun_add h3).fun_add h4).fun_add h5).fun_add h6).fun_add
    h7).congr_deriv ?_
  generalize T375 τ = t at *
  generalize hr : Real.sqrt τ = r at *
  subst hss
  field_simp
  ring

/-! ## Exponential terms -/

theorem hasDerivAt_expPow (c : ℕ) {δ : ℝ} (hδ : δ ≠ 0) :
    HasDerivAt (fun x => Real.exp (-x ^ c)) (-(c * δ ^ c / δ) * Real.exp (-δ ^ c)) δ := by
  refine ((hasDerivAt_pow c δ).fun_neg.exp).congr_deriv ?_
  rcases c with _ | c
  · simp
  · rw [Nat.add_sub_cancel, pow_succ]
    push_cast
    field_simp

theorem hasDerivAt_powN (d : ℕ) {δ : ℝ} (hδ : δ ≠ 0) :
    HasDerivAt (fun x => x ^ d) (d * δ ^ d / δ) δ := by
  refine (hasDerivAt_pow d δ).congr_deriv ?_
  rcases d with _ | d
  · simp
  · rw [Nat.add_sub_cancel, pow_succ]
    push_cast
    field_simp

theorem ex_hasDeriv_delta (K : Coef) (i : ℕ) (hd : 1 ≤ K.d i) (τ : ℝ) {δ : ℝ} (hδ : δ ≠ 0) :
    HasDerivAt (fun x => ex K i τ x) (ex_d K i τ δ) δ := by
  unfold ex ex_d
  simp only [powTab_eq]
  obtain ⟨m, hm⟩ : ∃ m, K.d i = m + 1 := ⟨K.d i - 1, by omega⟩
  rw [hm, Nat.add_sub_cancel]
  refine ((((hasDerivAt_powN (m + 1) hδ).const_mul (K.n i)).mul_const (τ ^ K.t i)).fun_mul
    (hasDerivAt_expPow (K.c i) hδ)).congr_deriv ?_
  rw [pow_succ]
  push_cast
  generalize δ ^ m = x
  generalize δ ^ K.c i = y
  field_simp
  ring

theorem ex_d_hasDeriv_delta (K : Coef) (i : ℕ) (hd : 1 ≤ K.d i) (τ : ℝ) {δ : ℝ} (hδ : δ ≠ 0) :
    HasDerivAt (fun x => ex_d K i τ x) (ex_dd K i τ δ) δ := by
  unfold ex_d ex_dd
  simp only [powTab_eq]
  obtain ⟨m, hm⟩ : ∃ m, K.d i = m + 1 := ⟨K.d i - 1, by omega⟩
  rw [hm, Nat.add_sub_cancel]
  refine (((((hasDerivAt_expPow (K.c i) hδ).const_mul (K.n i)).fun_mul
    (hasDerivAt_powN m hδ)).mul_const (τ ^ K.t i)).fun_mul
    (((hasDerivAt_powN (K.c i) hδ).const_mul (K.c i : ℝ)).const_sub
      ((m + 1 : ℕ) : ℝ))).congr_deriv ?_
  rcases m with _ | m
  · simp only [zero_add, pow_zero, if_pos]
    push_cast
    generalize δ ^ K.c i = y
    field_simp
    ring
  · rw [if_neg (by omega), show m + 1 + 1 - 2 = m by omega, pow_succ]
    push_cast
    generalize δ ^ m = x
    generalize δ ^ K.c i = y
    field_simp
    ring

theorem ex_hasDeriv_tau (K : Coef) (i : ℕ) (τ δ : ℝ) :
    HasDerivAt (fun x => ex K i x δ) (ex_t K i τ δ) τ := by
  unfold ex ex_t
  simp only [powTab_eq]
  refine (((hasDerivAt_pow (K.t i) τ).const_mul (K.n i * δ ^ K.d i)).mul_const
    (Real.exp (-δ ^ K.c i))).congr_deriv ?_
  ring

theorem ex_t_hasDeriv_tau (K : Coef) (i : ℕ) (ht : 1 ≤ K.t i) (τ δ : ℝ) :
    HasDerivAt (fun x => ex_t K i x δ) (ex_tt K i τ δ) τ := by
  unfold ex_t ex_tt
  simp only [powTab_eq]
  obtain ⟨m, hm⟩ : ∃ m, K.t i = m + 1 := ⟨K.t i - 1, by omega⟩
  rw [hm, Nat.add_sub_cancel]
  refine ((((hasDerivAt_pow m τ).const_mul (K.n i * δ ^ K.d i)).mul_const
    (Real.exp (-δ ^ K.c i))).const_mul ((m + 1 : ℕ) : ℝ)).congr_deriv ?_
  rcases m with _ | m
  · simp
  · rw [if_pos (by omega), show m + 1 + 1 - 2 = m by omega, Nat.add_sub_cancel]
    push_cast
    ring

theorem ex_d_hasDeriv_tau (K : Coef) (i : ℕ) (τ δ : ℝ) :
    HasDerivAt (fun x => ex_d K i x δ) (ex_dt K i τ δ) τ := by
  unfold ex_d ex_dt
  simp only [powTab_eq]
  refine (((hasDerivAt_pow (K.t i) τ).const_mul (K.n i * Real.exp (-δ ^ K.c i)
    * δ ^ (K.d i - 1))).mul_const (K.d i - K.c i * δ ^ K.c i : ℝ)).congr_deriv ?_
  ring

/-! ## Gaussian terms -/

theorem gexp_hasDeriv_delta (K : Coef) (j : ℕ) (τ δ : ℝ) :
    HasDerivAt (fun x => gexp K j τ x) (gexp K j τ δ * (-2 * K.al j * (δ - K.ep j))) δ := by
  unfold gexp
  have hx := (hasDerivAt_id' δ).sub_const (K.ep j)
  refine ((((hx.const_mul (-K.al j)).fun_mul hx).sub_const
    (K.be j * (τ - K.ga j) * (τ - K.ga j))).exp).congr_deriv ?_
  ring

theorem gexp_hasDeriv_tau (K : Coef) (j : ℕ) (τ δ : ℝ) :
    HasDerivAt (fun x => gexp K j x δ) (gexp K j τ δ * (-2 * K.be j * (τ - K.ga j))) τ := by
  unfold gexp
  have hx := (hasDerivAt_id' τ).sub_const (K.ga j)
  refine ((((hx.const_mul (K.be j)).fun_mul hx).const_sub
    (-K.al j * (δ - K.ep j) * (δ - K.ep j))).exp).congr_deriv ?_
  ring

theorem gs_hasDeriv_delta (K : Coef) (j : ℕ) (τ : ℝ) {δ : ℝ} (hδ : δ ≠ 0) :
    HasDerivAt (fun x => gs K j τ x) (gs_d K j τ δ) δ := by
  unfold gs_d gs
  simp only [powTab_eq]
  refine ((((hasDerivAt_powN (K.d (52 + j)) hδ).const_mul (K.n (52 + j))).mul_const
    (τ ^ K.t (52 + j))).fun_mul (gexp_hasDeriv_delta K j τ δ)).congr_deriv ?_
  ring

theorem gs_d_hasDeriv_delta (K : Coef) (j : ℕ) (τ : ℝ) {δ : ℝ} (hδ : δ ≠ 0) :
    HasDerivAt (fun x => gs_d K j τ x) (gs_dd K j τ δ) δ := by
  have hx := (hasDerivAt_id' δ).sub_const (K.ep j)
  refine ((gs_hasDeriv_delta K j τ hδ).fun_mul
    (((hasDerivAt_const δ (K.d (52 + j) : ℝ)).fun_div (hasDerivAt_id' δ) hδ).fun_sub
      (hx.const_mul (2 * K.al j)))).congr_deriv ?_
  unfold gs_d gs_dd gs
  generalize powTab δ (K.d (52 + j)) = x
  field_simp
  ring

theorem gs_hasDeriv_tau (K : Coef) (j : ℕ) {τ : ℝ} (δ : ℝ) (hτ : τ ≠ 0) :
    HasDerivAt (fun x => gs K j x δ) (gs_t K j τ δ) τ := by
  unfold gs_t gs
  simp only [powTab_eq]
  refine ((((hasDerivAt_powN (K.t (52 + j)) hτ).const_mul
    (K.n (52 + j) * δ ^ K.d (52 + j)))).fun_mul (gexp_hasDeriv_tau K j τ δ)).congr_deriv ?_
  ring

theorem gs_t_hasDeriv_tau (K : Coef) (j : ℕ) {τ : ℝ} (δ : ℝ) (hτ : τ ≠ 0) :
    HasDerivAt (fun x => gs_t K j x δ) (gs_tt K j τ δ) τ := by
  have hx := (hasDerivAt_id' τ).sub_const (K.ga j)
  refine ((gs_hasDeriv_tau K j δ hτ).fun_mul
    (((hasDerivAt_const τ (K.t (52 + j) : ℝ)).fun_div (hasDerivAt_id' τ) hτ).fun_sub
      (hx.const_mul (2 * K.be j)))).congr_deriv ?_
  unfold gs_t gs_tt gs
  generalize powTab τ (K.t (52 + j)) = x
  field_simp
  ring

theorem gs_d_hasDeriv_tau (K : Coef) (j : ℕ) {τ : ℝ} (δ : ℝ) (hτ : τ ≠ 0) :
    HasDerivAt (fun x => gs_d K j x δ) (gs_dt K j τ δ) τ := by
  refine ((gs_hasDeriv_tau K j δ hτ).mul_const
    (K.d (52 + j) / δ - 2 * K.al j * (δ - K.ep j))).congr_deriv ?_
  unfold gs_dt gs_t
  ring

/-! ## Critical terms -/

theorem dtmp2_nonneg (δ : ℝ) : 0 ≤ dtmp2 δ := mul_self_nonneg _

theorem dtmp2_hasDeriv (δ : ℝ) : HasDerivAt dtmp2 (2 * (δ - 1)) δ := by
  unfold dtmp2
  have hx := (hasDerivAt_id' δ).sub_const 1
  refine (hx.fun_mul hx).congr_deriv ?_
  ring

theorem powS_hasDeriv {p : ℝ} (hp : 1 ≤ p) (δ : ℝ) :
    HasDerivAt (fun x => dtmp2 x ^ p) (2 * p * ((δ - 1) * dtmp2 δ ^ (p - 1))) δ := by
  refine ((dtmp2_hasDeriv δ).rpow_const (Or.inr hp)).congr_deriv ?_
  ring

/-- `(δ-1)·((δ-1)²)^p` is differentiable everywhere, also at `δ = 1`, when `p > 0`. -/
theorem oddpow_hasDeriv {p : ℝ} (hp : 0 < p) (δ : ℝ) :
    HasDerivAt (fun x => (x - 1) * dtmp2 x ^ p) ((2 * p + 1) * dtmp2 δ ^ p) δ := by
  by_cases h : δ = 1
  · subst h
    have hz : dtmp2 1 = 0 := by norm_num [dtmp2]
    rw [hz, Real.zero_rpow hp.ne', mul_zero, hasDerivAt_iff_tendsto_slope]
    have hc : ContinuousAt (fun x => dtmp2 x ^ p) 1 :=
      (dtmp2_hasDeriv 1).continuousAt.rpow_const (Or.inr hp.le)
    have ht : Filter.Tendsto (fun x => dtmp2 x ^ p) (nhdsWithin 1 {1}ᶜ) (nhds 0) := by
      have := hc.tendsto
      rw [hz, Real.zero_rpow hp.ne'] at this
      exact this.mono_left nhdsWithin_le_nhds
    refine ht.congr' ?_
    filter_upwards [self_mem_nhdsWithin] with x hx
    have hx' : x - 1 ≠ 0 := sub_ne_zero.2 hx
    rw [slope_def_field]
    field_simp
    simp
  · have hs : dtmp2 δ ≠ 0 := mul_self_ne_zero.2 (sub_ne_zero.2 h)
    have hx := (hasDerivAt_id' δ).sub_const 1
    refine (hx.fun_mul ((dtmp2_hasDeriv δ).rpow_const (p := p) (Or.inl hs))).congr_deriv ?_
    have e : dtmp2 δ ^ p = dtmp2 δ * dtmp2 δ ^ (p - 1) := by
      rw [Real.rpow_sub_one hs]; field_simp
    rw [e]
    generalize dtmp2 δ ^ (p - 1) = y
    unfold dtmp2
    ring

theorem theta_hasDeriv_delta (K : Coef) (j : ℕ) (hb : 0 < K.bb j ∧ K.bb j < 0.5) (τ δ : ℝ) :
    HasDerivAt (fun x => theta K j τ x) (K.A j / K.bb j * ((δ - 1) * ptmp K j δ)) δ := by
  have hp : 1 ≤ atmp K j := by
    unfold atmp; rw [le_div_iff₀ hb.1]; linarith [hb.2]
  refine (((powS_hasDeriv hp δ).const_mul (K.A j)).const_add (1 - τ)).congr_deriv ?_
  have hb' := hb.1.ne'
  unfold ptmp
  generalize dtmp2 δ ^ (atmp K j - 1) = y
  unfold atmp
  rw [show (0.5 : ℝ) = 1 / 2 by norm_num]
  field_simp

theorem triag_hasDeriv_delta (K : Coef) (j : ℕ) (hb : 0 < K.bb j ∧ K.bb j < 0.5)
    (ha : 2 < K.a j) (τ δ : ℝ) :
    HasDerivAt (fun x => triag K j τ x) (dtriag K j τ δ) δ := by
  have h := theta_hasDeriv_delta K j hb τ δ
  refine ((h.fun_mul h).fun_add ((powS_hasDeriv (p := K.a j) (by linarith) δ).const_mul
    (K.B j))).congr_deriv ?_
  unfold dtriag p2tmp
  ring

theorem psi_hasDeriv_delta (K : Coef) (j : ℕ) (τ δ : ℝ) :
    HasDerivAt (fun x => psi K j τ x) (psi_d K j τ δ) δ := by
  unfold psi_d psi
  refine ((((dtmp2_hasDeriv δ).const_mul (-K.CC j)).sub_const
    (K.D j * (τ - 1) * (τ - 1))).exp).congr_deriv ?_
  ring

theorem psi_d_hasDeriv_delta (K : Coef) (j : ℕ) (τ δ : ℝ) :
    HasDerivAt (fun x => psi_d K j τ x) (psi_dd K j τ δ) δ := by
  have hx := (hasDerivAt_id' δ).sub_const 1
  refine ((hx.const_mul (-2 * K.CC j)).fun_mul (psi_hasDeriv_delta K j τ δ)).congr_deriv ?_
  unfold psi_d psi_dd dtmp2
  ring

theorem triagtmp_hasDeriv_delta (K : Coef) (j : ℕ) (hb : 0 < K.bb j ∧ K.bb j < 0.5)
    (ha : 2 < K.a j) {τ δ : ℝ} (ht : triag K j τ δ ≠ 0) :
    HasDerivAt (fun x => triagtmp K j τ x) (dtriagtmp K j τ δ) δ := by
  refine ((triag_hasDeriv_delta K j hb ha τ δ).rpow_const (p := K.b j) (Or.inl ht)).congr_deriv ?_
  unfold dtriagtmp triagtmpm1
  ring

theorem cr_hasDeriv_delta (K : Coef) (j : ℕ) (hb : 0 < K.bb j ∧ K.bb j < 0.5)
    (ha : 2 < K.a j) {τ δ : ℝ} (ht : triag K j τ δ ≠ 0) :
    HasDerivAt (fun x => cr K j τ x) (cr_d K j τ δ) δ := by
  refine ((((triagtmp_hasDeriv_delta K j hb ha ht).const_mul (K.n (55 + j))).fun_mul
    (hasDerivAt_id' δ)).fun_mul (psi_hasDeriv_delta K j τ δ)).congr_deriv ?_
  unfold cr_d
  ring

/-- The second derivative of `triag`, in a form that is also right at `δ = 1`. -/
noncomputable def d2triagX (K : Coef) (j : ℕ) (τ δ : ℝ) : ℝ :=
  K.A j * 2 / K.bb j * (K.A j / K.bb j * dtmp2 δ * (ptmp K j δ * ptmp K j δ)
      + theta K j τ δ * ((2 * (atmp K j - 1) + 1) * ptmp K j δ))
    + 2 * K.B j * K.a j * ((2 * (K.a j - 1) + 1) * p2tmp K j δ)

theorem dtriag_hasDeriv_delta (K : Coef) (j : ℕ) (hb : 0 < K.bb j ∧ K.bb j < 0.5)
    (ha : 2 < K.a j) (τ δ : ℝ) :
    HasDerivAt (fun x => dtriag K j τ x) (d2triagX K j τ δ) δ := by
  have hp : 0 < atmp K j - 1 := by
    unfold atmp; rw [sub_pos, lt_div_iff₀ hb.1]; linarith [hb.2]
  have h1 := oddpow_hasDeriv hp δ
  have h2 := oddpow_hasDeriv (p := K.a j - 1) (by linarith) δ
  have h3 := (((theta_hasDeriv_delta K j hb τ δ).fun_mul h1).const_mul
    (K.A j * 2 / K.bb j)).fun_add (h2.const_mul (2 * K.B j * K.a j))
  refine (h3.congr_of_eventuallyEq (f₁ := fun x => dtriag K j τ x)
    (Filter.Eventually.of_forall fun x => ?_)).congr_deriv ?_
  · simp only [dtriag, ptmp, p2tmp]
    ring
  · simp only [d2triagX, ptmp, p2tmp]
    generalize dtmp2 δ ^ (atmp K j - 1) = y
    unfold dtmp2
    ring

theorem d2triag_eq (K : Coef) (j : ℕ) (hb : 0 < K.bb j) (τ : ℝ) {δ : ℝ} (h : δ ≠ 1) :
    d2triag K j τ δ = d2triagX K j τ δ := by
  have h1 : δ - 1 ≠ 0 := sub_ne_zero.2 h
  have hs : dtmp2 δ ≠ 0 := mul_self_ne_zero.2 h1
  have e : dtmp2 δ ^ (K.a j - 2) = p2tmp K j δ / dtmp2 δ := by
    rw [p2tmp, ← Real.rpow_sub_one hs]; congr 1; ring
  unfold d2triag d2triagX dtriag
  rw [e]
  generalize ptmp K j δ = y
  generalize p2tmp K j δ = z
  generalize theta K j τ δ = w
  generalize dtmp2 δ = s at *
  field_simp
  ring

/-- Second derivative of the critical term with the regular form of `d2triag`. -/
noncomputable def cr_ddX (K : Coef) (j : ℕ) (τ δ : ℝ) : ℝ :=
  K.n (55 + j) * (triagtmp K j τ δ * (2 * psi_d K j τ δ + δ * psi_dd K j τ δ)
    + 2 * dtriagtmp K j τ δ * (psi K j τ δ + δ * psi_d K j τ δ)
    + K.b j * (triagtmpm1 K j τ δ * d2triagX K j τ δ
      + (K.b j - 1) * triagtmpm1 K j τ δ / triag K j τ δ * dtriag K j τ δ * dtriag K j τ δ)
      * δ * psi K j τ δ)

theorem cr_d_hasDeriv_deltaX (K : Coef) (j : ℕ) (hb : 0 < K.bb j ∧ K.bb j < 0.5)
    (ha : 2 < K.a j) {τ δ : ℝ} (ht : triag K j τ δ ≠ 0) :
    HasDerivAt (fun x => cr_d K j τ x) (cr_ddX K j τ δ) δ := by
  have hT := triagtmp_hasDeriv_delta K j hb ha ht
  have hP := psi_hasDeriv_delta K j τ δ
  have hPd := psi_d_hasDeriv_delta K j τ δ
  have hx := hasDerivAt_id' δ
  have hm1 := (triag_hasDeriv_delta K j hb ha τ δ).rpow_const (p := K.b j - 1) (Or.inl ht)
  have hD := dtriag_hasDeriv_delta K j hb ha τ δ
  have hdT := (hm1.const_mul (K.b j)).fun_mul hD
  refine (((hT.fun_mul (hP.fun_add (hx.fun_mul hPd))).fun_add
    ((hdT.fun_mul hx).fun_mul hP)).const_mul (K.n (55 + j))).congr_deriv ?_
  unfold cr_ddX dtriagtmp triagtmpm1
  rw [Real.rpow_sub_one ht (K.b j - 1)]
  ring

theorem cr_d_hasDeriv_delta (K : Coef) (j : ℕ) (hb : 0 < K.bb j ∧ K.bb j < 0.5)
    (ha : 2 < K.a j) {τ δ : ℝ} (ht : triag K j τ δ ≠ 0) (h1 : δ ≠ 1) :
    HasDerivAt (fun x => cr_d K j τ x) (cr_dd K j τ δ) δ := by
  refine (cr_d_hasDeriv_deltaX K j hb ha ht).congr_deriv ?_
  unfold cr_dd cr_ddX d2triagtmp
  rw [d2triag_eq K j hb.1 τ h1]

theorem theta_hasDeriv_tau (K : Coef) (j : ℕ) (τ δ : ℝ) :
    HasDerivAt (fun x => theta K j x δ) (-1) τ := by
  unfold theta
  exact ((hasDerivAt_id' τ).const_sub 1).add_const _

theorem triag_hasDeriv_tau (K : Coef) (j : ℕ) (τ δ : ℝ) :
    HasDerivAt (fun x => triag K j x δ) (-2 * theta K j τ δ) τ := by
  have h := theta_hasDeriv_tau K j τ δ
  unfold triag
  refine ((h.fun_mul h).add_const _).congr_deriv ?_
  ring

theorem psi_hasDeriv_tau (K : Coef) (j : ℕ) (τ δ : ℝ) :
    HasDerivAt (fun x => psi K j x δ) (psi_t K j τ δ) τ := by
  have hx := (hasDerivAt_id' τ).sub_const 1
  unfold psi_t psi
  refine ((((hx.const_mul (K.D j)).fun_mul hx).const_sub (-K.CC j * dtmp2 δ)).exp).congr_deriv ?_
  ring

theorem psi_t_hasDeriv_tau (K : Coef) (j : ℕ) (τ δ : ℝ) :
    HasDerivAt (fun x => psi_t K j x δ) (psi_tt K j τ δ) τ := by
  have hx := (hasDerivAt_id' τ).sub_const 1
  refine ((hx.const_mul (-2 * K.D j)).fun_mul (psi_hasDeriv_tau K j τ δ)).congr_deriv ?_
  unfold psi_t psi_tt
  ring

theorem psi_d_hasDeriv_tau (K : Coef) (j : ℕ) (τ δ : ℝ) :
    HasDerivAt (fun x => psi_d K j x δ) (psi_dt K j τ δ) τ := by
  refine ((psi_hasDeriv_tau K j τ δ).const_mul (-2 * K.CC j * (δ - 1))).congr_deriv ?_
  unfold psi_t psi_dt
  ring

theorem triagtmp_hasDeriv_tau (K : Coef) (j : ℕ) {τ δ : ℝ} (ht : triag K j τ δ ≠ 0) :
    HasDerivAt (fun x => triagtmp K j x δ) (dtriagtmp_t K j τ δ) τ := by
  refine ((triag_hasDeriv_tau K j τ δ).rpow_const (p := K.b j) (Or.inl ht)).congr_deriv ?_
  unfold dtriagtmp_t triagtmp
  rw [Real.rpow_sub_one ht]
  ring

theorem dtriagtmp_t_hasDeriv_tau (K : Coef) (j : ℕ) {τ δ : ℝ} (ht : triag K j τ δ ≠ 0) :
    HasDerivAt (fun x => dtriagtmp_t K j x δ) (d2triagtmp_tt K j τ δ) τ := by
  have h1 := ((((theta_hasDeriv_tau K j τ δ).const_mul (-2)).mul_const (K.b j)).fun_mul
    (triagtmp_hasDeriv_tau K j ht)).fun_div (triag_hasDeriv_tau K j τ δ) ht
  refine h1.congr_deriv ?_
  unfold d2triagtmp_tt dtriagtmp_t
  generalize triagtmp K j τ δ = x
  generalize theta K j τ δ = w
  generalize triag K j τ δ = s at *
  field_simp
  ring

theorem cr_hasDeriv_tau (K : Coef) (j : ℕ) {τ δ : ℝ} (ht : triag K j τ δ ≠ 0) :
    HasDerivAt (fun x => cr K j x δ) (cr_t K j τ δ) τ := by
  refine ((((triagtmp_hasDeriv_tau K j ht).const_mul (K.n (55 + j))).mul_const δ).fun_mul
    (psi_hasDeriv_tau K j τ δ)).congr_deriv ?_
  unfold cr_t
  ring

theorem cr_t_hasDeriv_tau (K : Coef) (j : ℕ) {τ δ : ℝ} (ht : triag K j τ δ ≠ 0) :
    HasDerivAt (fun x => cr_t K j x δ) (cr_tt K j τ δ) τ := by
  refine ((((dtriagtmp_t_hasDeriv_tau K j ht).fun_mul (psi_hasDeriv_tau K j τ δ)).fun_add
    ((triagtmp_hasDeriv_tau K j ht).fun_mul (psi_t_hasDeriv_tau K j τ δ))).const_mul
    (K.n (55 + j) * δ)).congr_deriv ?_
  unfold cr_tt
  ring

theorem dtriag_hasDeriv_tau (K : Coef) (j : ℕ) (τ δ : ℝ) :
    HasDerivAt (fun x => dtriag K j x δ)
      (-(K.A j * 2 / K.bb j * ((δ - 1) * ptmp K j δ))) τ := by
  unfold dtriag
  refine ((((((theta_hasDeriv_tau K j τ δ).const_mul (K.A j)).mul_const 2).div_const
    (K.bb j)).mul_const (ptmp K j δ)).add_const (2 * K.B j * K.a j * p2tmp K j δ)
    |>.const_mul (δ - 1)).congr_deriv ?_
  ring

theorem dtriagtmp_hasDeriv_tau (K : Coef) (j : ℕ) {τ δ : ℝ} (ht : triag K j τ δ ≠ 0) :
    HasDerivAt (fun x => dtriagtmp K j x δ) (d2triagtmp_dt K j τ δ) τ := by
  have hm1 := (triag_hasDeriv_tau K j τ δ).rpow_const (p := K.b j - 1) (Or.inl ht)
  refine ((hm1.const_mul (K.b j)).fun_mul (dtriag_hasDeriv_tau K j τ δ)).congr_deriv ?_
  unfold d2triagtmp_dt triagtmpm1
  rw [Real.rpow_sub_one ht (K.b j - 1)]
  ring

theorem cr_d_hasDeriv_tau (K : Coef) (j : ℕ) {τ δ : ℝ} (ht : triag K j τ δ ≠ 0) :
    HasDerivAt (fun x => cr_d K j x δ) (cr_dt K j τ δ) τ := by
  have hT := triagtmp_hasDeriv_tau K j ht
  have hP := psi_hasDeriv_tau K j τ δ
  have hPd := psi_d_hasDeriv_tau K j τ δ
  have hdT := dtriagtmp_hasDeriv_tau K j ht
  refine (((hT.fun_mul (hP.fun_add (hPd.const_mul δ))).fun_add
    ((hdT.mul_const δ).fun_mul hP)).const_mul (K.n (55 + j))).congr_deriv ?_
  unfold cr_dt
  ring

end Verif.Iapws
