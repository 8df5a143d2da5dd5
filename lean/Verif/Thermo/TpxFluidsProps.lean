import Verif.Thermo.TpxFluids
import Mathlib.Analysis.SpecialFunctions.Sqrt
import Mathlib.Analysis.SpecialFunctions.Log.Deriv
import Mathlib.Analysis.SpecialFunctions.ExpDeriv
import Mathlib.Analysis.SpecialFunctions.Pow.Deriv
import Mathlib.Analysis.Calculus.Deriv.ZPow
import Mathlib.Tactic

/-!
# Pure fluids: energy, entropy and pressure of the 32-coefficient equation derive from one potential
-/

namespace Verif.TpxFluids

open Verif Finset

/-- The three given functions of an equation of state agree with each other at a temperature and density:
`(∂s/∂ρ)_T = -(∂P/∂T)_ρ / ρ²`, `(∂u/∂ρ)_T = (P - T (∂P/∂T)_ρ) / ρ²` and `(∂s/∂T)_ρ = (∂u/∂T)_ρ / T`. -/
def GibbsAt (e : Tpx.Eos) (T ρ : ℝ) : Prop :=
  ∃ PT cv : ℝ, HasDerivAt (fun t => e.Pp t ρ) PT T ∧ HasDerivAt (fun r => e.sp T r) (-PT / ρ ^ 2) ρ ∧
    HasDerivAt (fun r => e.up T r) ((e.Pp T ρ - T * PT) / ρ ^ 2) ρ ∧
    HasDerivAt (fun t => e.up t ρ) cv T ∧ HasDerivAt (fun t => e.sp t ρ) (cv / T) T

/-- Agreement means that the Helmholtz energy `u - T s` is a potential: its derivative with respect to temperature is
minus the entropy and its derivative with respect to density is `P / ρ²`. -/
theorem helmholtz_of_gibbs {e : Tpx.Eos} {T ρ : ℝ} (hT : 0 < T) (hρ : 0 < ρ) (h : GibbsAt e T ρ) :
    HasDerivAt (fun t => e.up t ρ - t * e.sp t ρ) (-e.sp T ρ) T ∧
    HasDerivAt (fun r => e.up T r - T * e.sp T r) (e.Pp T ρ / ρ ^ 2) ρ := by
  obtain ⟨PT, cv, hP, hsr, hur, hut, hst⟩ := h
  constructor
  · refine (hut.sub ((hasDerivAt_id T).mul hst)).congr_deriv ?_
    simp only [id]
    field_simp
    ring
  · refine (hur.sub (hsr.const_mul T)).congr_deriv ?_
    field_simp
    ring

/-- Agreement of the functions for a sum of products of functions of temperature and of density. -/
theorem gibbs_of_sum (e : Tpx.Eos) (n : ℕ) (C C' I H : ℕ → ℝ → ℝ) (R : ℝ) (U0 S0 : ℝ → ℝ) (T ρ c : ℝ)
    (hT : 0 < T) (hρ : 0 < ρ)
    (hP : ∀ t r, e.Pp t r = r * R * t + ∑ i ∈ range n, C i t * H i r)
    (hu : ∀ t r, e.up t r = (∑ i ∈ range n, (C i t - t * C' i t) * I i r) + U0 t)
    (hs : ∀ t r, e.sp t r = S0 t - R * Real.log r - ∑ i ∈ range n, C' i t * I i r)
    (hC : ∀ i < n, HasDerivAt (C i) (C' i T) T) (hC2 : ∀ i < n, DifferentiableAt ℝ (C' i) T)
    (hI : ∀ i < n, HasDerivAt (I i) (H i ρ / ρ ^ 2) ρ)
    (hU : HasDerivAt U0 c T) (hS : HasDerivAt S0 (c / T) T) : GibbsAt e T ρ := by
  have hρ' : ρ ≠ 0 := hρ.ne'
  have hT' : T ≠ 0 := hT.ne'
  refine ⟨ρ * R + ∑ i ∈ range n, C' i T * H i ρ,
    (∑ i ∈ range n, (C' i T - (C' i T + T * deriv (C' i) T)) * I i ρ) + c, ?_, ?_, ?_, ?_, ?_⟩
  · simp only [hP]
    refine HasDerivAt.add ?_ (HasDerivAt.fun_sum fun i hi => (hC i (mem_range.1 hi)).mul_const _)
    simpa using (hasDerivAt_id T).const_mul (ρ * R)
  · simp only [hs]
    have h1 := (((Real.hasDerivAt_log hρ').const_mul R).const_sub (S0 T)).sub
      (HasDerivAt.fun_sum (u := range n) fun i hi => (hI i (mem_range.1 hi)).const_mul (C' i T))
    refine h1.congr_deriv ?_
    have : ∑ i ∈ range n, C' i T * (H i ρ / ρ ^ 2) = (∑ i ∈ range n, C' i T * H i ρ) / ρ ^ 2 := by
      rw [sum_div]; exact sum_congr rfl fun i _ => by ring
    rw [this]
    field_simp
    ring
  · simp only [hu, hP]
    have h1 := (HasDerivAt.fun_sum (u := range n) fun i hi =>
      (hI i (mem_range.1 hi)).const_mul (C i T - T * C' i T)).add_const (U0 T)
    refine h1.congr_deriv ?_
    have : ∑ i ∈ range n, (C i T - T * C' i T) * (H i ρ / ρ ^ 2)
        = (∑ i ∈ range n, C i T * H i ρ - T * ∑ i ∈ range n, C' i T * H i ρ) / ρ ^ 2 := by
      rw [mul_sum, ← sum_sub_distrib, sum_div]; exact sum_congr rfl fun i _ => by ring
    rw [this]
    ring
  · simp only [hu]
    refine HasDerivAt.add (HasDerivAt.fun_sum fun i hi => HasDerivAt.mul_const ?_ _) hU
    have hd := (hC2 i (mem_range.1 hi)).hasDerivAt
    refine ((hC i (mem_range.1 hi)).sub ((hasDerivAt_id T).mul hd)).congr_deriv ?_
    simp
  · simp only [hs]
    have h1 := (hS.sub_const (R * Real.log ρ)).sub
      (HasDerivAt.fun_sum (u := range n) fun i hi => ((hC2 i (mem_range.1 hi)).hasDerivAt).mul_const (I i ρ))
    refine h1.congr_deriv ?_
    rw [add_div, sum_div, ← sub_eq_zero]
    have : ∑ i ∈ range n, (C' i T - (C' i T + T * deriv (C' i) T)) * I i ρ / T
        = -∑ i ∈ range n, deriv (C' i) T * I i ρ := by
      rw [← sum_neg_distrib]; exact sum_congr rfl fun i _ => by field_simp; ring
    rw [this]
    ring

section pieces

variable {T : ℝ}

theorem hasDerivAt_rt (hT : T ≠ 0) : HasDerivAt (fun t : ℝ => 1 / t) (-(1 / T * (1 / T))) T := by
  have := hasDerivAt_inv hT
  simp only [one_div]
  refine this.congr_deriv ?_
  rw [sq, mul_inv]

theorem mC_deriv (A : ℕ → ℝ) (hT : 0 < T) (i : ℕ) :
    HasDerivAt (fun t => mC A t (1 / t) (1 / t * (1 / t)) i)
      (mCprime A T (1 / T) (1 / T * (1 / T)) (1 / T * (1 / T * (1 / T))) i) T := by
  have r := hasDerivAt_rt hT.ne'
  have d := hasDerivAt_id' T
  have q := Real.hasDerivAt_sqrt hT.ne'
  have r2 := r.mul r
  match i with
  | 0 =>
    refine ((((d.const_mul (A 0)).add (q.const_mul (A 1))).add_const (A 2)).add
      (((r.const_mul (A 4)).const_add (A 3)).mul r)).congr_deriv ?_
    simp only [mCprime]; ring
  | 1 =>
    refine (((d.const_mul (A 5)).add_const (A 6)).add
      (r.mul ((r.const_mul (A 8)).const_add (A 7)))).congr_deriv ?_
    simp only [mCprime]; ring
  | 2 =>
    refine (((d.const_mul (A 9)).add_const (A 10)).add (r.const_mul (A 11))).congr_deriv ?_
    simp only [mCprime]; ring
  | 3 => exact hasDerivAt_const _ _
  | 4 =>
    refine (r.mul ((r.const_mul (A 14)).const_add (A 13))).congr_deriv ?_
    simp only [mCprime]; ring
  | 5 =>
    refine (r.const_mul (A 15)).congr_deriv ?_
    simp only [mCprime]; ring
  | 6 =>
    refine (r.mul ((r.const_mul (A 17)).const_add (A 16))).congr_deriv ?_
    simp only [mCprime]; ring
  | 7 =>
    refine (r2.const_mul (A 18)).congr_deriv ?_
    simp only [mCprime]; ring
  | 8 =>
    refine (r2.mul ((r.const_mul (A 20)).const_add (A 19))).congr_deriv ?_
    simp only [mCprime, Pi.mul_apply]; ring
  | 9 =>
    refine (r2.mul ((r2.const_mul (A 22)).const_add (A 21))).congr_deriv ?_
    simp only [mCprime, Pi.mul_apply]; ring
  | 10 =>
    refine (r2.mul ((r.const_mul (A 24)).const_add (A 23))).congr_deriv ?_
    simp only [mCprime, Pi.mul_apply]; ring
  | 11 =>
    refine (r2.mul ((r2.const_mul (A 26)).const_add (A 25))).congr_deriv ?_
    simp only [mCprime, Pi.mul_apply]; ring
  | 12 =>
    refine (r2.mul ((r.const_mul (A 28)).const_add (A 27))).congr_deriv ?_
    simp only [mCprime, Pi.mul_apply]; ring
  | 13 =>
    refine (r2.mul (((r.const_mul (A 30)).const_add (A 29)).add (r2.const_mul (A 31)))).congr_deriv ?_
    simp only [mCprime, Pi.mul_apply, Pi.add_apply]; ring
  | n + 14 => exact hasDerivAt_const _ _

theorem mCprime_diff (A : ℕ → ℝ) (hT : 0 < T) (i : ℕ) :
    DifferentiableAt ℝ (fun t => mCprime A t (1 / t) (1 / t * (1 / t)) (1 / t * (1 / t * (1 / t))) i) T := by
  have h0 := hT.ne'
  have hq : √T ≠ 0 := (Real.sqrt_pos.2 hT).ne'
  match i with
  | 0 => simp only [mCprime]; fun_prop (disch := assumption)
  | 1 => simp only [mCprime]; fun_prop (disch := assumption)
  | 2 => simp only [mCprime]; fun_prop (disch := assumption)
  | 3 => simp only [mCprime]; fun_prop (disch := assumption)
  | 4 => simp only [mCprime]; fun_prop (disch := assumption)
  | 5 => simp only [mCprime]; fun_prop (disch := assumption)
  | 6 => simp only [mCprime]; fun_prop (disch := assumption)
  | 7 => simp only [mCprime]; fun_prop (disch := assumption)
  | 8 => simp only [mCprime]; fun_prop (disch := assumption)
  | 9 => simp only [mCprime]; fun_prop (disch := assumption)
  | 10 => simp only [mCprime]; fun_prop (disch := assumption)
  | 11 => simp only [mCprime]; fun_prop (disch := assumption)
  | 12 => simp only [mCprime]; fun_prop (disch := assumption)
  | 13 => simp only [mCprime]; fun_prop (disch := assumption)
  | n + 14 => simp only [mCprime]; fun_prop (disch := assumption)

theorem hasDerivAt_egrho (Γ ρ : ℝ) :
    HasDerivAt (fun r => Real.exp (-Γ * r * r)) (-(2 * Γ * ρ) * Real.exp (-Γ * ρ * ρ)) ρ := by
  have d := hasDerivAt_id' ρ
  refine ((d.const_mul (-Γ)).mul d).exp.congr_deriv ?_
  simp only [Pi.mul_apply]
  ring

theorem mW_deriv {Γ : ℝ} (hΓ : Γ ≠ 0) (ρ : ℝ) (n : ℕ) :
    HasDerivAt (fun r => mW Γ r (Real.exp (-Γ * r * r)) n) (ρ ^ (2 * n + 1) * Real.exp (-Γ * ρ * ρ)) ρ := by
  induction n with
  | zero =>
    simp only [mW]
    refine (((hasDerivAt_egrho Γ ρ).const_sub 1).div_const (2 * Γ)).congr_deriv ?_
    field_simp
    try ring
  | succ n ih =>
    simp only [mW]
    have h1 := (((hasDerivAt_pow (2 * (n + 1)) ρ).const_mul (0.5 : ℝ)).mul (hasDerivAt_egrho Γ ρ))
    refine (((ih.const_mul ((n + 1 : ℕ) : ℝ)).sub h1).div_const Γ).congr_deriv ?_
    have e1 : 2 * (n + 1) - 1 = 2 * n + 1 := by omega
    rw [e1]
    push_cast
    field_simp
    ring

theorem mI_deriv {Γ : ℝ} (hΓ : Γ ≠ 0) {ρ : ℝ} (hρ : 0 < ρ) (i : ℕ) :
    HasDerivAt (fun r => mI Γ r (Real.exp (-Γ * r * r)) i) (mH ρ (Real.exp (-Γ * ρ * ρ)) i / ρ ^ 2) ρ := by
  have hρ' := hρ.ne'
  unfold mI mH
  by_cases h : i < 8
  · simp only [h, if_true]
    refine ((hasDerivAt_pow (i + 1) ρ).div_const _).congr_deriv ?_
    have : ((i + 1 : ℕ) : ℝ) ≠ 0 := by positivity
    rw [Nat.add_sub_cancel, pow_add]
    field_simp
  · simp only [h, if_false]
    refine (mW_deriv hΓ ρ (i - 8)).congr_deriv ?_
    have e1 : 2 * i - 13 = (2 * (i - 8) + 1) + 2 := by omega
    rw [e1, pow_add]
    field_simp
    ring

/-- Derivatives of the energy and the entropy of an oscillator. -/
theorem einstein (β : ℝ) (hβ : 0 < β) (hT : 0 < T) :
    HasDerivAt (fun t => β / (Real.exp (β * (1 / t)) - 1))
      (β ^ 2 * (1 / T) ^ 2 * Real.exp (β * (1 / T)) / (Real.exp (β * (1 / T)) - 1) ^ 2) T ∧
    HasDerivAt (fun t => β * (1 / t) + β * (1 / t) / (Real.exp (β * (1 / t)) - 1)
        - Real.log (Real.exp (β * (1 / t)) - 1))
      (β ^ 2 * (1 / T) ^ 2 * Real.exp (β * (1 / T)) / (Real.exp (β * (1 / T)) - 1) ^ 2 / T) T := by
  have hE : 0 < Real.exp (β * (1 / T)) - 1 := by
    have := Real.add_one_lt_exp (x := β * (1 / T)) (by positivity)
    have : 0 < β * (1 / T) := by positivity
    linarith
  have x := (hasDerivAt_rt hT.ne').const_mul β
  have ex := x.exp.sub_const 1
  constructor
  · refine ((hasDerivAt_const T β).div ex hE.ne').congr_deriv ?_
    generalize Real.exp (β * (1 / T)) = E at *
    have := hE.ne'
    field_simp
    ring
  · refine ((x.add (x.div ex hE.ne')).sub (ex.log hE.ne')).congr_deriv ?_
    generalize Real.exp (β * (1 / T)) = E at *
    have := hE.ne'
    field_simp
    ring

end pieces

/-- Agreement for any fluid with the 32-coefficient equation. -/
theorem mbwr_gibbs (e : Tpx.Eos) (A : ℕ → ℝ) (R Γ : ℝ) (U0 S0 : ℝ → ℝ) {T ρ c : ℝ} (hΓ : Γ ≠ 0) (hT : 0 < T)
    (hρ : 0 < ρ) (hP : e.Pp = fun T ρ => mPp A R Γ T ρ) (hu : e.up = fun T ρ => mUres A Γ T ρ + U0 T)
    (hs : e.sp = fun T ρ => mSres A R Γ T ρ + S0 T) (hU : HasDerivAt U0 c T) (hS : HasDerivAt S0 (c / T) T) :
    GibbsAt e T ρ := by
  refine gibbs_of_sum e 14 (fun i t => mC A t (1 / t) (1 / t * (1 / t)) i)
    (fun i t => mCprime A t (1 / t) (1 / t * (1 / t)) (1 / t * (1 / t * (1 / t))) i)
    (fun i r => mI Γ r (Real.exp (-Γ * r * r)) i) (fun i r => mH r (Real.exp (-Γ * r * r)) i) R U0 S0 T ρ c hT hρ
    ?_ ?_ ?_ (fun i _ => mC_deriv A hT i) (fun i _ => mCprime_diff A hT i) (fun i _ => mI_deriv hΓ hρ i) hU hS
  · intro t r; rw [hP]; rfl
  · intro t r; rw [hu]; rfl
  · intro t r; rw [hs]; simp only [mSres]; ring

theorem dU_deriv (G : ℕ → ℝ) {β : ℝ} (u0 s0 : ℝ) {T : ℝ} (hβ : 0 < β) (hT : 0 < T) :
    ∃ c, HasDerivAt (dU G β u0) c T ∧ HasDerivAt (dS G β s0) (c / T) T := by
  obtain ⟨e1, e2⟩ := einstein β hβ hT
  have hT' := hT.ne'
  have r := hasDerivAt_rt hT'
  have d := hasDerivAt_id' T
  have l := Real.hasDerivAt_log hT'
  refine ⟨G 6 * T ^ 3 + G 5 * T ^ 2 + G 4 * T + G 3 + G 2 / T + G 1 / T ^ 2 + G 0 / T ^ 3
    + G 7 * (β ^ 2 * (1 / T) ^ 2 * Real.exp (β * (1 / T)) / (Real.exp (β * (1 / T)) - 1) ^ 2), ?_, ?_⟩
  · have h := (((((((((((d.const_mul (0.25 * G 6)).add_const (G 5 / 3)).mul d).add_const (0.5 * G 4)).mul d).add_const
      (G 3)).mul d).add (l.const_mul (G 2))).sub (((r.const_mul (0.5 * G 0)).const_add (G 1)).mul r)).add
      (e1.const_mul (G 7)))).add_const u0
    refine (h.congr_of_eventuallyEq (Filter.Eventually.of_forall fun t => ?_)).congr_deriv ?_
    · simp only [dU, Pi.mul_apply, Pi.add_apply, Pi.sub_apply]; ring
    · generalize (β ^ 2 * (1 / T) ^ 2 * Real.exp (β * (1 / T)) / (Real.exp (β * (1 / T)) - 1) ^ 2) = X
      simp only [Pi.mul_apply]
      field_simp
      ring
  · have h := ((((((((d.const_mul (G 6 / 3)).add_const (0.5 * G 5)).mul d).add_const (G 4)).mul d).add
      (l.const_mul (G 3))).sub (((((r.const_mul (G 0 / 3)).add_const (0.5 * G 1)).mul r).add_const (G 2)).mul r)).add
      (e2.const_mul (G 7))).const_add s0
    refine (h.congr_of_eventuallyEq (Filter.Eventually.of_forall fun t => ?_)).congr_deriv ?_
    · simp only [dS, Pi.mul_apply, Pi.add_apply, Pi.sub_apply]; ring
    · generalize (β ^ 2 * (1 / T) ^ 2 * Real.exp (β * (1 / T)) / (Real.exp (β * (1 / T)) - 1) ^ 2) = X
      simp only [Pi.mul_apply]
      field_simp
      ring

theorem nitrogen_gibbs {T ρ : ℝ} (hT : 0 < T) (hρ : 0 < ρ) : GibbsAt nitrogen T ρ := by
  obtain ⟨c, h1, h2⟩ := dU_deriv Gnn (β := 3353.40610) 150877.551 214.9352518 (by norm_num) hT
  exact mbwr_gibbs nitrogen Ann _ _ _ _ (by norm_num) hT hρ rfl rfl rfl h1 h2

theorem oxygen_gibbs {T ρ : ℝ} (hT : 0 < T) (hρ : 0 < ρ) : GibbsAt oxygen T ρ := by
  obtain ⟨c, h1, h2⟩ := dU_deriv Goxy (β := 2239.18105) 198884.2435 668.542976 (by norm_num) hT
  exact mbwr_gibbs oxygen Aoxy _ _ _ _ (by norm_num) hT hρ rfl rfl rfl h1 h2

theorem methU_deriv (G : ℕ → ℝ) {β : ℝ} (u0 s0 : ℝ) {T : ℝ} (hβ : 0 < β) (hT : 0 < T) :
    ∃ c, HasDerivAt (methU G β u0) c T ∧ HasDerivAt (methS G β s0) (c / T) T := by
  obtain ⟨e1, e2⟩ := einstein β hβ hT
  have hT' := hT.ne'
  have d := hasDerivAt_id' T
  have l := Real.hasDerivAt_log hT'
  have t3 : HasDerivAt (fun t : ℝ => t ^ ((1 : ℝ) / 3)) (T ^ ((1 : ℝ) / 3) / (3 * T)) T := by
    refine (Real.hasDerivAt_rpow_const (Or.inl hT')).congr_deriv ?_
    rw [Real.rpow_sub hT, Real.rpow_one]
    field_simp
  refine ⟨G 0 + G 1 * T ^ ((1 : ℝ) / 3) + G 2 * (T ^ ((1 : ℝ) / 3)) ^ 2 + G 3 * T
    + G 4 * (β ^ 2 * (1 / T) ^ 2 * Real.exp (β * (1 / T)) / (Real.exp (β * (1 / T)) - 1) ^ 2), ?_, ?_⟩
  · have h := ((d.mul ((((t3.const_mul (0.75 * G 1)).const_add (G 0)).add ((t3.const_mul (0.6 * G 2)).mul t3)).add
      (d.const_mul (0.5 * G 3)))).add (e1.const_mul (G 4))).add_const u0
    refine (h.congr_of_eventuallyEq (Filter.Eventually.of_forall fun t => ?_)).congr_deriv ?_
    · simp only [methU, Pi.mul_apply, Pi.add_apply]; ring
    · generalize (β ^ 2 * (1 / T) ^ 2 * Real.exp (β * (1 / T)) / (Real.exp (β * (1 / T)) - 1) ^ 2) = X
      simp only [Pi.mul_apply, Pi.add_apply]
      generalize T ^ ((1 : ℝ) / 3) = Y
      field_simp
      ring
  · have h := (((((l.const_mul (G 0)).add (t3.const_mul (3 * G 1))).add ((t3.const_mul (1.5 * G 2)).mul t3)).add
      (d.const_mul (G 3))).add (e2.const_mul (G 4))).const_add s0
    refine (h.congr_of_eventuallyEq (Filter.Eventually.of_forall fun t => ?_)).congr_deriv ?_
    · simp only [methS, Pi.mul_apply, Pi.add_apply]
    · generalize (β ^ 2 * (1 / T) ^ 2 * Real.exp (β * (1 / T)) / (Real.exp (β * (1 / T)) - 1) ^ 2) = X
      generalize T ^ ((1 : ℝ) / 3) = Y
      field_simp
      ring

theorem methane_gibbs {T ρ : ℝ} (hT : 0 < T) (hρ : 0 < ρ) : GibbsAt methane T ρ := by
  obtain ⟨c, h1, h2⟩ := methU_deriv Gmeth (β := 2009.152) 357696.0858 (-1918.035071) (by norm_num) hT
  exact mbwr_gibbs methane Ameth _ _ _ _ (by norm_num) hT hρ rfl rfl rfl h1 h2

end Verif.TpxFluids
