import Verif.Thermo.MolalProps
import Mathlib.Analysis.Complex.ExponentialBounds
import Mathlib.Topology.Order.LeftRight

/-!
# Properties of the cutoff of the activity coefficients of ideal molal solutions
-/

namespace Verif.Molal

open Filter Topology

/-! ## Derivatives -/

theorem h2_deriv (C : Cut) (x : ℝ) : HasDerivAt (h2 C) (h2' C x) x := by
  have hu : HasDerivAt (fun x : ℝ => x - C.Xo / 2) 1 x := (hasDerivAt_id' x).sub_const _
  have := (((hu.fun_pow 2).const_mul 3.5).div_const C.Xo).fun_sub
    (((hu.fun_pow 3).const_mul 2).div_const (C.Xo ^ 2))
  refine HasDerivAt.congr_deriv (f := h2 C) this ?_
  unfold h2'
  norm_num
  ring

theorem h1_deriv (C : Cut) (x : ℝ) : HasDerivAt (h1 C) (h1' C x) x := by
  have hu : HasDerivAt (fun x : ℝ => x - C.Xo / 2) 1 x := (hasDerivAt_id' x).sub_const _
  have := ((((hu.fun_pow 2).const_mul 3).div_const (C.Xo ^ 2)).const_sub 1).fun_add
    (((hu.fun_pow 3).const_mul 2).div_const (C.Xo ^ 3))
  refine HasDerivAt.congr_deriv (f := h1 C) this ?_
  unfold h1'
  norm_num
  ring

/-- The expressions used for the derivatives of the polynomials are their derivatives. -/
theorem polyF_deriv (C : Cut) (x : ℝ) : HasDerivAt (polyF C) (polyF' C x) x :=
  (h2_deriv C x).fun_add ((h1_deriv C x).mul_const _)

theorem polyG_deriv (C : Cut) (x : ℝ) : HasDerivAt (polyG C) (polyG' C x) x :=
  (h2_deriv C x).fun_add ((h1_deriv C x).div_const _)

theorem h2'_diff (C : Cut) (x : ℝ) : DifferentiableAt ℝ (h2' C) x := by
  unfold h2'; fun_prop

theorem h1'_diff (C : Cut) (x : ℝ) : DifferentiableAt ℝ (h1' C) x := by
  unfold h1'; fun_prop

theorem polyF'_diff (C : Cut) (x : ℝ) : DifferentiableAt ℝ (polyF' C) x :=
  (h2'_diff C x).add ((h1'_diff C x).mul_const _)

theorem polyG'_diff (C : Cut) (x : ℝ) : DifferentiableAt ℝ (polyG' C) x :=
  (h2'_diff C x).add ((h1'_diff C x).div_const _)

/-- The same for the exponential form. -/
theorem expF_deriv (a b d e c x : ℝ) : HasDerivAt (expF a b d e c) (expF' a b d c x) x := by
  have hx := hasDerivAt_id' x
  have h1 : HasDerivAt (fun x : ℝ => Real.exp (-(x / c))) (Real.exp (-(x / c)) * -(1 / c)) x :=
    (hx.div_const c).fun_neg.exp
  have h2 : HasDerivAt (fun x : ℝ => a + x * (b + d * x)) (1 * (b + d * x) + x * (d * 1)) x :=
    (hx.fun_mul ((hx.const_mul d).const_add b)).const_add a
  have := (hx.add_const e).fun_add (h1.fun_mul h2)
  refine HasDerivAt.congr_deriv (f := expF a b d e c) this ?_
  unfold expF'
  ring

theorem expF'_diff (a b d c x : ℝ) : DifferentiableAt ℝ (expF' a b d c) x := by
  unfold expF'; fun_prop

/-! ## The polynomials -/

/-- At the lower end of the middle region. -/
theorem poly_lower (C : Cut) :
    polyF C (C.Xo / 2) = 1 / (Real.exp 1 * C.γk) ∧ polyF' C (C.Xo / 2) = 0 ∧
    polyG C (C.Xo / 2) = 1 / C.γo ∧ polyG' C (C.Xo / 2) = 0 := by
  unfold polyF polyF' polyG polyG' h2 h2' h1 h1'
  refine ⟨?_, ?_, ?_, ?_⟩ <;> simp

/-- At the upper end. -/
theorem poly_upper (C : Cut) (hX : 0 < C.Xo) :
    polyF C (3 * C.Xo / 2) = 3 * C.Xo / 2 ∧ polyF' C (3 * C.Xo / 2) = 1 ∧
    polyG C (3 * C.Xo / 2) = 3 * C.Xo / 2 ∧ polyG' C (3 * C.Xo / 2) = 1 := by
  have e : 3 * C.Xo / 2 - C.Xo / 2 = C.Xo := by ring
  have h1e : h1 C (3 * C.Xo / 2) = 0 := by
    unfold h1; simp only [e]; field_simp; ring
  have h1'e : h1' C (3 * C.Xo / 2) = 0 := by
    unfold h1'; simp only [e]; field_simp; ring
  have h2e : h2 C (3 * C.Xo / 2) = 3 * C.Xo / 2 := by
    unfold h2; simp only [e]; field_simp; norm_num
  have h2'e : h2' C (3 * C.Xo / 2) = 1 := by
    unfold h2'; simp only [e]; field_simp; norm_num
  unfold polyF polyF' polyG polyG'
  rw [h1e, h1'e, h2e, h2'e]
  simp

theorem poly_pos_aux (C : Cut) (hX : 0 < C.Xo) (x α : ℝ) (hα : 0 < α) (hl : C.Xo / 2 ≤ x)
    (hu : x ≤ 3 * C.Xo / 2) : 0 < h2 C x + h1 C x * α := by
  obtain ⟨v, rfl⟩ : ∃ v, x = C.Xo / 2 + v * C.Xo := ⟨(x - C.Xo / 2) / C.Xo, by field_simp; ring⟩
  have hv0 : 0 ≤ v := by
    by_contra h; push Not at h; nlinarith
  have hv1 : v ≤ 1 := by
    by_contra h; push Not at h; nlinarith
  have e : C.Xo / 2 + v * C.Xo - C.Xo / 2 = v * C.Xo := by ring
  have e2 : h2 C (C.Xo / 2 + v * C.Xo) = C.Xo * (v ^ 2 * (3.5 - 2 * v)) := by
    unfold h2; simp only [e]; field_simp
  have e1 : h1 C (C.Xo / 2 + v * C.Xo) = (1 - v) ^ 2 * (1 + 2 * v) := by
    unfold h1; simp only [e]; field_simp; ring
  rw [e1, e2]
  rcases hv0.lt_or_eq with h | h
  · have : 0 < C.Xo * (v ^ 2 * (3.5 - 2 * v)) := by
      have : 0 < 3.5 - 2 * v := by norm_num; linarith
      positivity
    have : 0 ≤ (1 - v) ^ 2 * (1 + 2 * v) * α := by positivity
    linarith
  · rw [← h]; simp [hα]

/-- The logarithms are taken of positive numbers. -/
theorem poly_pos (C : Cut) (hX : 0 < C.Xo) (hk : 0 < C.γk) (ho : 0 < C.γo) (x : ℝ)
    (hl : C.Xo / 2 ≤ x) (hu : x ≤ 3 * C.Xo / 2) : 0 < polyF C x ∧ 0 < polyG C x := by
  refine ⟨poly_pos_aux C hX x _ (by positivity) hl hu, ?_⟩
  have := poly_pos_aux C hX x (1 / C.γo) (by positivity) hl hu
  unfold polyG
  rwa [div_eq_mul_one_div (h1 C x)]

/-! ## Gibbs and Duhem -/

/-- The two coefficients fulfil the Gibbs-Duhem equation for whatever functions `f` and `g`. -/
theorem lnGam_duhem (f g f' g' : ℝ → ℝ) (x : ℝ) (hf : HasDerivAt f (f' x) x)
    (hg : HasDerivAt g (g' x) x) (hf' : DifferentiableAt ℝ f' x) (hg' : DifferentiableAt ℝ g' x)
    (hf0 : f x ≠ 0) (hg0 : g x ≠ 0) :
    ∃ a b, HasDerivAt (fun x => lnGamK (f x) (f' x) (g x) (g' x) x) a x ∧
      HasDerivAt (fun x => lnGamO (f x) (f' x) (g x) (g' x) x) b x ∧ (1 - x) * a + x * b = 0 := by
  have hx := hasDerivAt_id' x
  have ht : DifferentiableAt ℝ (fun x => x / g x * g' x + (1 - x) / f x * f' x) x :=
    ((hx.differentiableAt.div hg.differentiableAt hg0).mul hg').add
      (((hx.differentiableAt.const_sub 1).div hf.differentiableAt hf0).mul hf')
  have ht' := ht.hasDerivAt
  generalize deriv (fun x => x / g x * g' x + (1 - x) / f x * f' x) x = t' at ht'
  refine ⟨_, _, ((hf.log hf0).const_sub (-1)).fun_add (ht'.fun_mul hx),
    ((hg.log hg0).fun_neg).fun_sub (ht'.fun_mul (hx.const_sub 1)), ?_⟩
  field_simp
  ring

/-- The condition that makes chemical potentials fulfil the Gibbs-Duhem equation. -/
theorem duhem_core (M : Sol) (hn : 1 ≤ M.n) (hM : 0 < M.M0) (S O : ℝ → ℝ) (s' o' : ℝ)
    (mu0 : ℕ → ℝ) (RT : ℝ) (X : ℝ → ℕ → ℝ) (X' : ℕ → ℝ) (t : ℝ)
    (hX : ∀ k, k < M.n → HasDerivAt (fun t => X t k) (X' k) t)
    (hpos : ∀ k, k < M.n → 0 < X t k) (h1 : ∑ k ∈ Finset.range M.n, X t k = 1)
    (h1' : ∑ k ∈ Finset.range M.n, X' k = 0)
    (hS : HasDerivAt S s' (X t 0)) (hO : HasDerivAt O o' (X t 0))
    (hd : (1 - X t 0) * s' + X t 0 * o' = (1 - X t 0) / X t 0) :
    ∃ mu' : ℕ → ℝ, (∀ k, k < M.n → HasDerivAt (fun t => mu0 k + RT * (if k = 0 then
        Real.log (X t 0) + O (X t 0) else Real.log (X t k / (M.M0 * X t 0)) + S (X t 0)))
          (mu' k) t) ∧
      ∑ k ∈ Finset.range M.n, X t k * mu' k = 0 := by
  have h0 := hX 0 (by omega)
  have p0 := hpos 0 (by omega)
  refine ⟨fun k => RT * (if k = 0 then X' 0 / X t 0 + o' * X' 0
    else X' k / X t k - X' 0 / X t 0 + s' * X' 0), ?_, ?_⟩
  · intro k hk
    by_cases hk0 : k = 0
    · subst hk0
      simp only [if_true]
      exact (((h0.log p0.ne').fun_add (hO.comp t h0)).const_mul RT).const_add _
    · simp only [if_neg hk0]
      have hk' := hX k hk
      have pk := hpos k hk
      have hq := (hk'.fun_div (h0.const_mul M.M0) (mul_ne_zero hM.ne' p0.ne')).log
        (div_ne_zero pk.ne' (mul_ne_zero hM.ne' p0.ne'))
      have := ((hq.fun_add (hS.comp t h0)).const_mul RT).const_add (mu0 k)
      refine this.congr_deriv ?_
      have hM' := hM.ne'
      have p0' := p0.ne'
      have pk' := pk.ne'
      field_simp
  · rw [range_eq M hn] at h1 h1' ⊢
    simp only [if_true]
    have e : ∀ k ∈ Finset.Ico 1 M.n, X t k * (RT * (if k = 0 then X' 0 / X t 0 + o' * X' 0
        else X' k / X t k - X' 0 / X t 0 + s' * X' 0))
        = RT * X' k + RT * (s' * X' 0 - X' 0 / X t 0) * X t k := by
      intro k hk
      rw [Finset.mem_Ico] at hk
      rw [if_neg (by omega)]
      have := (hpos k hk.2).ne'
      field_simp
      ring
    rw [Finset.sum_congr rfl e, Finset.sum_add_distrib, ← Finset.mul_sum, ← Finset.mul_sum]
    have a1 : ∑ k ∈ Finset.Ico 1 M.n, X t k = 1 - X t 0 := by linarith
    have a2 : ∑ k ∈ Finset.Ico 1 M.n, X' k = -X' 0 := by linarith
    rw [a1, a2]
    have hp := p0.ne'
    have : (1 - X t 0) * s' + X t 0 * o' - (1 - X t 0) / X t 0 = 0 := by rw [hd]; ring
    calc _ = RT * X' 0 * ((1 - X t 0) * s' + X t 0 * o' - (1 - X t 0) / X t 0) := by
          field_simp; ring
      _ = 0 := by rw [this, mul_zero]

/-- Where the mole fraction of the solvent is not at an end of a region, nor below the bound, and
(for the exponential form) the logarithms are taken of numbers other than zero. -/
def Inside (C : Cut) (xmin x : ℝ) : Prop :=
  xmin < x ∧ 0 < x ∧
  (C.type = 1 → 0 < C.Xo ∧ 0 < C.γk ∧ 0 < C.γo ∧ x ≠ 3 * C.Xo / 2 ∧ x ≠ C.Xo / 2) ∧
  (C.type = 2 → x ≠ C.Xo ∧ (x < C.Xo → expF C.af C.bf C.df C.ef C.c x ≠ 0 ∧
    expF C.ag C.bg C.dg C.eg C.c x ≠ 0))

theorem idealO_deriv (x : ℝ) (hx : 0 < x) : HasDerivAt idealO (-1 / x + 1 / x ^ 2) x := by
  have h := hasDerivAt_id' x
  have := ((h.log hx.ne').fun_neg).fun_add ((h.sub_const 1).fun_div h hx.ne')
  refine HasDerivAt.congr_deriv (f := idealO) this ?_
  field_simp
  ring

theorem lnAct_duhem (C : Cut) (xmin x : ℝ) (h : Inside C xmin x) :
    ∃ s' o', HasDerivAt (lnActK C xmin) s' x ∧ HasDerivAt (lnActO C xmin) o' x ∧
      (1 - x) * s' + x * o' = (1 - x) / x := by
  obtain ⟨hm, hx, h1, h2⟩ := h
  have hmx : ∀ᶠ y in 𝓝 x, max xmin y = y :=
    (lt_mem_nhds hm).mono fun y hy => max_eq_right hy.le
  have hid := idealO_deriv x hx
  have hide : (1 - x) * 0 + x * (-1 / x + 1 / x ^ 2) = (1 - x) / x := by field_simp; ring
  have hlog : HasDerivAt (fun y => Real.log y) (1 / x) x := (hasDerivAt_id' x).log hx.ne'
  by_cases t1 : C.type = 1
  · obtain ⟨hXo, hk, ho, n1, n2⟩ := h1 t1
    rcases lt_or_gt_of_ne n1 with n1 | n1
    · rcases lt_or_gt_of_ne n2 with n2 | n2
      · refine ⟨1 / x, 0, ?_, ?_, by field_simp; ring⟩
        · have := hlog.fun_add (hasDerivAt_const x (Real.log C.γk))
          rw [add_zero] at this
          refine this.congr_of_eventuallyEq ?_
          filter_upwards [hmx, gt_mem_nhds n1, gt_mem_nhds n2, lt_mem_nhds hx] with y e1 e2 e3 e4
          unfold lnActK
          rw [if_pos t1, if_neg (not_lt.2 e2.le), if_pos e3, e1, Real.log_mul e4.ne' hk.ne']
        · refine (hasDerivAt_const x (Real.log C.γo)).congr_of_eventuallyEq ?_
          filter_upwards [gt_mem_nhds n1, gt_mem_nhds n2] with y e2 e3
          unfold lnActO
          rw [if_pos t1, if_neg (not_lt.2 e2.le), if_pos e3]
      · obtain ⟨pf, pg⟩ := poly_pos C hXo hk ho x n2.le n1.le
        obtain ⟨a, b, ha, hb, hab⟩ := lnGam_duhem (polyF C) (polyG C) (polyF' C) (polyG' C) x
          (polyF_deriv C x) (polyG_deriv C x) (polyF'_diff C x) (polyG'_diff C x) pf.ne' pg.ne'
        refine ⟨1 / x + a, b, (hlog.fun_add ha).congr_of_eventuallyEq ?_,
          hb.congr_of_eventuallyEq ?_, ?_⟩
        · filter_upwards [gt_mem_nhds n1, lt_mem_nhds n2] with y e2 e3
          unfold lnActK
          rw [if_pos t1, if_neg (not_lt.2 e2.le), if_neg (not_lt.2 e3.le)]
        · filter_upwards [gt_mem_nhds n1, lt_mem_nhds n2] with y e2 e3
          unfold lnActO
          rw [if_pos t1, if_neg (not_lt.2 e2.le), if_neg (not_lt.2 e3.le)]
        · linear_combination hab
    · refine ⟨0, _, (hasDerivAt_const x (0 : ℝ)).congr_of_eventuallyEq ?_,
        hid.congr_of_eventuallyEq ?_, hide⟩
      · filter_upwards [lt_mem_nhds n1] with y e2
        unfold lnActK
        rw [if_pos t1, if_pos e2]
      · filter_upwards [lt_mem_nhds n1, hmx] with y e2 e1
        unfold lnActO
        rw [if_pos t1, if_pos e2, e1]
  by_cases t2 : C.type = 2
  · obtain ⟨n1, n2⟩ := h2 t2
    rcases lt_or_gt_of_ne n1 with n1 | n1
    · obtain ⟨pf, pg⟩ := n2 n1
      obtain ⟨a, b, ha, hb, hab⟩ := lnGam_duhem (expF C.af C.bf C.df C.ef C.c)
        (expF C.ag C.bg C.dg C.eg C.c) (expF' C.af C.bf C.df C.c) (expF' C.ag C.bg C.dg C.c) x
        (expF_deriv _ _ _ _ _ x) (expF_deriv _ _ _ _ _ x) (expF'_diff _ _ _ _ x)
        (expF'_diff _ _ _ _ x) pf pg
      refine ⟨1 / x + a, b, (hlog.fun_add ha).congr_of_eventuallyEq ?_,
        hb.congr_of_eventuallyEq ?_, ?_⟩
      · filter_upwards [gt_mem_nhds n1, hmx] with y e2 e1
        unfold lnActK
        rw [if_neg t1, if_pos t2, if_neg (not_lt.2 e2.le), e1]
      · filter_upwards [gt_mem_nhds n1] with y e2
        unfold lnActO
        rw [if_neg t1, if_pos t2, if_neg (not_lt.2 e2.le)]
      · linear_combination hab
    · refine ⟨0, _, (hasDerivAt_const x (0 : ℝ)).congr_of_eventuallyEq ?_,
        hid.congr_of_eventuallyEq ?_, hide⟩
      · filter_upwards [lt_mem_nhds n1] with y e2
        unfold lnActK
        rw [if_neg t1, if_pos t2, if_pos e2]
      · filter_upwards [lt_mem_nhds n1, hmx] with y e2 e1
        unfold lnActO
        rw [if_neg t1, if_pos t2, if_pos e2, e1]
  · refine ⟨0, _, (hasDerivAt_const x (0 : ℝ)).congr_of_eventuallyEq ?_,
      hid.congr_of_eventuallyEq ?_, hide⟩
    · filter_upwards with y
      unfold lnActK
      rw [if_neg t1, if_neg t2]
    · filter_upwards [hmx] with y e1
      unfold lnActO
      rw [if_neg t1, if_neg t2, e1]

/-- The Gibbs-Duhem equation for the chemical potentials along any path of the composition, for all
kinds of cutoff. -/
theorem gibbs_duhem (M : Sol) (hn : 1 ≤ M.n) (hM : 0 < M.M0) (C : Cut) (mu0 : ℕ → ℝ) (RT : ℝ)
    (X : ℝ → ℕ → ℝ) (X' : ℕ → ℝ) (t : ℝ)
    (hX : ∀ k, k < M.n → HasDerivAt (fun t => X t k) (X' k) t)
    (hsm : small < X t 0) (hpos : ∀ k, k < M.n → k ≠ 0 → small < X t k / (M.M0 * X t 0))
    (h1 : ∑ k ∈ Finset.range M.n, X t k = 1) (h1' : ∑ k ∈ Finset.range M.n, X' k = 0)
    (hin : Inside C M.xmin (X t 0)) :
    ∃ mu' : ℕ → ℝ, (∀ k, k < M.n → HasDerivAt (fun t => chemPot M C mu0 RT (X t) k) (mu' k) t) ∧
      ∑ k ∈ Finset.range M.n, X t k * mu' k = 0 := by
  obtain ⟨s', o', hs, ho, hd⟩ := lnAct_duhem C M.xmin (X t 0) hin
  have hx0 := hin.2.1
  have hp : ∀ k, k < M.n → 0 < X t k := by
    intro k hk
    by_cases hk0 : k = 0
    · rw [hk0]; exact hx0
    · have := small_pos.trans (hpos k hk hk0)
      have hden : 0 < M.M0 * X t 0 := by positivity
      exact (div_pos_iff_of_pos_right hden).1 this
  obtain ⟨mu', ha, hb⟩ := duhem_core M hn hM _ _ s' o' mu0 RT X X' t hX hp h1 h1' hs ho hd
  refine ⟨mu', fun k hk => (ha k hk).congr_of_eventuallyEq ?_, hb⟩
  have c0 := (hX 0 (by omega)).continuousAt
  have ck := (hX k hk).continuousAt
  have e1 : ∀ᶠ y in 𝓝 t, M.xmin < X y 0 := c0.eventually (lt_mem_nhds hin.1)
  have e2 : ∀ᶠ y in 𝓝 t, small < X y 0 := c0.eventually (lt_mem_nhds hsm)
  have e3 : ∀ᶠ y in 𝓝 t, k ≠ 0 → small < X y k / (M.M0 * X y 0) := by
    by_cases hk0 : k = 0
    · exact Eventually.of_forall fun _ h => absurd hk0 h
    · have : ContinuousAt (fun y => X y k / (M.M0 * X y 0)) t :=
        ck.div (continuousAt_const.mul c0) (mul_ne_zero hM.ne' hx0.ne')
      exact (this.eventually (lt_mem_nhds (hpos k hk hk0))).mono fun y h _ => h
  filter_upwards [e1, e2, e3] with y a1 a2 a3
  have hmol : molality M (X y) k = X y k / (M.M0 * X y 0) := by
    rw [molality_formula, max_eq_left a1.le]
  rw [chemPot_coeff M C mu0 RT (X y) a1.le a2.le k (fun h => by rw [hmol]; exact (a3 h).le), hmol]

example : ∃ C : Cut, C.type = 1 ∧ Inside C (1 / 100) (1 / 4) ∧ ∃ D : Cut, D.type = 2 ∧
    Inside D (1 / 100) (1 / 4) :=
  ⟨⟨1, 1 / 5, 1, 1, 1, 1, 1, 1, 1, 1, 1, 1, 1, 1, 1⟩, rfl,
    ⟨by norm_num, by norm_num, fun _ => by norm_num, fun h => by norm_num at h⟩,
    ⟨2, 1 / 5, 1, 1, 1, 1, 1, 1, 1, 1, 1, 1, 1, 1, 1⟩, rfl,
    ⟨by norm_num, by norm_num, fun h => by norm_num at h, fun _ => by norm_num⟩⟩

/-! ## Continuity -/

theorem glue {F A B : ℝ → ℝ} {a : ℝ} (hA : ContinuousAt A a) (hB : ContinuousAt B a)
    (hl : ∀ᶠ x in 𝓝[≤] a, F x = A x) (hr : ∀ᶠ x in 𝓝[≥] a, F x = B x) : ContinuousAt F a := by
  rw [continuousAt_iff_continuous_left_right]
  refine ⟨hA.continuousWithinAt.congr_of_eventuallyEq hl ?_,
    hB.continuousWithinAt.congr_of_eventuallyEq hr ?_⟩
  · exact hl.self_of_nhdsWithin (Set.mem_Iic.2 le_rfl)
  · exact hr.self_of_nhdsWithin (Set.mem_Ici.2 le_rfl)

theorem lnGam_ideal (x : ℝ) (hx : 0 < x) : lnGamK x 1 x 1 x = -Real.log x ∧
    lnGamO x 1 x 1 x = idealO x := by
  unfold lnGamK lnGamO idealO
  simp only []
  constructor
  · field_simp; ring
  · field_simp; ring

theorem poly_mid_cont (C : Cut) (hX : 0 < C.Xo) (hk : 0 < C.γk) (ho : 0 < C.γo) (x : ℝ)
    (hl : C.Xo / 2 ≤ x) (hu : x ≤ 3 * C.Xo / 2) :
    ContinuousAt (fun x => Real.log x
      + lnGamK (polyF C x) (polyF' C x) (polyG C x) (polyG' C x) x) x ∧
    ContinuousAt (fun x => lnGamO (polyF C x) (polyF' C x) (polyG C x) (polyG' C x) x) x := by
  obtain ⟨pf, pg⟩ := poly_pos C hX hk ho x hl hu
  obtain ⟨a, b, ha, hb, -⟩ := lnGam_duhem (polyF C) (polyG C) (polyF' C) (polyG' C) x
    (polyF_deriv C x) (polyG_deriv C x) (polyF'_diff C x) (polyG'_diff C x) pf.ne' pg.ne'
  exact ⟨(Real.continuousAt_log (by linarith)).add ha.continuousAt, hb.continuousAt⟩

theorem idealO_cont (x : ℝ) (hx : 0 < x) : ContinuousAt idealO x :=
  (idealO_deriv x hx).continuousAt

/-- With polynomials the activity coefficients are continuous at both ends of the middle region. -/
theorem poly_continuous (C : Cut) (ht : C.type = 1) (hX : 0 < C.Xo) (hk : 0 < C.γk) (ho : 0 < C.γo)
    (xmin : ℝ) (hm : xmin < C.Xo / 2) :
    ContinuousAt (lnActK C xmin) (C.Xo / 2) ∧ ContinuousAt (lnActO C xmin) (C.Xo / 2) ∧
    ContinuousAt (lnActK C xmin) (3 * C.Xo / 2) ∧ ContinuousAt (lnActO C xmin) (3 * C.Xo / 2) := by
  have hlt : C.Xo / 2 < 3 * C.Xo / 2 := by linarith
  obtain ⟨l1, l2, l3, l4⟩ := poly_lower C
  obtain ⟨u1, u2, u3, u4⟩ := poly_upper C hX
  obtain ⟨c1, c2⟩ := poly_mid_cont C hX hk ho (C.Xo / 2) le_rfl hlt.le
  obtain ⟨d1, d2⟩ := poly_mid_cont C hX hk ho (3 * C.Xo / 2) hlt.le le_rfl
  have hp : 0 < C.Xo / 2 := by linarith
  have hq : 0 < 3 * C.Xo / 2 := by linarith
  have midK : ∀ x, C.Xo / 2 ≤ x → x ≤ 3 * C.Xo / 2 → lnActK C xmin x = Real.log x
      + lnGamK (polyF C x) (polyF' C x) (polyG C x) (polyG' C x) x := by
    intro x h1 h2
    unfold lnActK
    rw [if_pos ht, if_neg (not_lt.2 h2), if_neg (not_lt.2 h1)]
  have midO : ∀ x, C.Xo / 2 ≤ x → x ≤ 3 * C.Xo / 2 → lnActO C xmin x =
      lnGamO (polyF C x) (polyF' C x) (polyG C x) (polyG' C x) x := by
    intro x h1 h2
    unfold lnActO
    rw [if_pos ht, if_neg (not_lt.2 h2), if_neg (not_lt.2 h1)]
  have aK : lnActK C xmin (C.Xo / 2) = Real.log (C.Xo / 2 * C.γk) := by
    rw [midK _ le_rfl hlt.le, l1, l2, l3, l4]
    unfold lnGamK
    simp only [mul_zero, add_zero, zero_mul]
    rw [Real.log_mul hp.ne' hk.ne', one_div, Real.log_inv,
      Real.log_mul (Real.exp_pos 1).ne' hk.ne', Real.log_exp]
    ring
  have aO : lnActO C xmin (C.Xo / 2) = Real.log C.γo := by
    rw [midO _ le_rfl hlt.le, l1, l2, l3, l4]
    unfold lnGamO
    simp only [mul_zero, add_zero, zero_mul, sub_zero]
    rw [one_div, Real.log_inv, neg_neg]
  have bK : lnActK C xmin (3 * C.Xo / 2) = 0 := by
    rw [midK _ hlt.le le_rfl, u1, u2, u3, u4, (lnGam_ideal _ hq).1]
    ring
  have bO : lnActO C xmin (3 * C.Xo / 2) = idealO (3 * C.Xo / 2) := by
    rw [midO _ hlt.le le_rfl, u1, u2, u3, u4, (lnGam_ideal _ hq).2]
  have rgt : ∀ᶠ x in 𝓝[≥] (C.Xo / 2), C.Xo / 2 ≤ x ∧ x ≤ 3 * C.Xo / 2 :=
    (eventually_mem_nhdsWithin.and
      (mem_nhdsWithin_of_mem_nhds (Iic_mem_nhds hlt))).mono fun x h => ⟨h.1, h.2⟩
  have lft : ∀ᶠ x in 𝓝[≤] (3 * C.Xo / 2), C.Xo / 2 ≤ x ∧ x ≤ 3 * C.Xo / 2 :=
    (eventually_mem_nhdsWithin.and
      (mem_nhdsWithin_of_mem_nhds (Ici_mem_nhds hlt))).mono fun x h => ⟨h.2, h.1⟩
  have lowl : ∀ᶠ x in 𝓝[≤] (C.Xo / 2), x ≤ C.Xo / 2 ∧ xmin < x :=
    (eventually_mem_nhdsWithin.and
      (mem_nhdsWithin_of_mem_nhds (Ioi_mem_nhds hm))).mono fun x h => ⟨h.1, h.2⟩
  have upr : ∀ᶠ x in 𝓝[≥] (3 * C.Xo / 2), 3 * C.Xo / 2 ≤ x := eventually_mem_nhdsWithin
  refine ⟨glue (A := fun x => Real.log (x * C.γk)) ?_ c1 ?_ (rgt.mono fun x h => midK x h.1 h.2),
    glue (A := fun _ => Real.log C.γo) continuousAt_const c2 ?_
      (rgt.mono fun x h => midO x h.1 h.2),
    glue (B := fun _ => 0) d1 continuousAt_const (lft.mono fun x h => midK x h.1 h.2) ?_,
    glue (B := idealO) d2 (idealO_cont _ hq) (lft.mono fun x h => midO x h.1 h.2) ?_⟩
  · exact (continuousAt_id.mul continuousAt_const).log (mul_pos hp hk).ne'
  · filter_upwards [lowl] with x h
    rcases h.1.lt_or_eq with h1 | h1
    · unfold lnActK
      rw [if_pos ht, if_neg (by linarith), if_pos h1, max_eq_right h.2.le]
    · rw [h1, aK]
  · filter_upwards [lowl] with x h
    rcases h.1.lt_or_eq with h1 | h1
    · unfold lnActO
      rw [if_pos ht, if_neg (by linarith), if_pos h1]
    · rw [h1, aO]
  · filter_upwards [upr] with x h
    rcases h.lt_or_eq with h1 | h1
    · unfold lnActK
      rw [if_pos ht, if_pos h1]
    · rw [← h1, bK]
  · filter_upwards [upr] with x h
    rcases h.lt_or_eq with h1 | h1
    · unfold lnActO
      rw [if_pos ht, if_pos h1, max_eq_right (by linarith)]
    · rw [← h1, bO]

/-! ## Coefficients of the exponential form -/

/-- For any old value `e` the new coefficients make the function pass into the ideal one with the
right value and slope, and have the slope asked for at zero. -/
theorem coef_spec (A s c Xo e : ℝ) (hc : c ≠ 0) (hX : Xo ≠ 0) (h2 : Xo ≠ 2 * c) :
    expF (coefA A e) (coefB A s c e) (coefD A s c Xo e) (coefE A s c Xo e) c Xo = Xo ∧
    expF' (coefA A e) (coefB A s c e) (coefD A s c Xo e) c Xo = 1 ∧
    expF' (coefA A e) (coefB A s c e) (coefD A s c Xo e) c 0 = s ∧
    expF (coefA A e) (coefB A s c e) (coefD A s c Xo e) (coefE A s c Xo e) c 0
      = A + (coefE A s c Xo e - e) := by
  refine ⟨?_, ?_, ?_, ?_⟩
  · unfold expF coefE
    rw [neg_div]
    ring
  · unfold expF'
    have hd : Xo * Xo / c - 2 * Xo ≠ 0 := by
      intro h
      apply h2
      have : Xo * (Xo / c - 2) = 0 := by rw [← h]; ring
      rcases mul_eq_zero.1 this with h | h
      · exact absurd h hX
      · field_simp at h; linarith
    have : coefD A s c Xo e * (Xo * Xo / c - 2 * Xo)
        = -coefA A e / c + coefB A s c e - coefB A s c e * Xo / c := by
      unfold coefD
      rw [div_mul_cancel₀ _ hd]
    have e2 : coefB A s c e - coefA A e / c - coefB A s c e * (Xo / c) + 2 * coefD A s c Xo e * Xo
        - coefD A s c Xo e * Xo * (Xo / c) = 0 := by
      linear_combination -this
    rw [e2, mul_zero, add_zero]
  · unfold expF' coefB
    simp only [zero_div, mul_zero, neg_zero, Real.exp_zero, sub_zero, add_zero, one_mul]
    ring
  · unfold expF coefA
    simp
    ring

theorem loop_spec (A s c Xo : ℝ) (its : ℕ) (e0 e : ℝ) (h : loop A s c Xo its e0 = some e) :
    |coefE A s c Xo e - e| < 1 / 10 ^ 14 := by
  induction its generalizing e0 with
  | zero => cases h
  | succ n ih =>
    unfold loop at h
    split_ifs at h with h1
    · cases h; exact h1
    · exact ih _ h

/-- What the parameters are good for: at the cutoff both functions pass into the ideal ones with
the same value and slope; at zero they have the slopes asked for, and the values which give the
limits of the activity coefficients, up to the tolerance. -/
theorem calcCut_spec (C D : Cut) (hc : C.c ≠ 0) (hX : C.Xo ≠ 0) (h2 : C.Xo ≠ 2 * C.c)
    (h : calcCut C = some D) :
    expF D.af D.bf D.df D.ef C.c C.Xo = C.Xo ∧ expF' D.af D.bf D.df C.c C.Xo = 1 ∧
    expF D.ag D.bg D.dg D.eg C.c C.Xo = C.Xo ∧ expF' D.ag D.bg D.dg C.c C.Xo = 1 ∧
    expF' D.af D.bf D.df C.c 0 = C.sf ∧ expF' D.ag D.bg D.dg C.c 0 = C.sg ∧
    |expF D.af D.bf D.df D.ef C.c 0 - 1 / (Real.exp 1 * C.γk)| < 1 / 10 ^ 14 ∧
    |expF D.ag D.bg D.dg D.eg C.c 0 - Real.exp (-Real.log C.γo
      - C.sf / expF D.af D.bf D.df D.ef C.c 0)| < 1 / 10 ^ 14 ∧
    D.type = C.type ∧ D.Xo = C.Xo ∧ D.c = C.c ∧ D.γk = C.γk ∧ D.γo = C.γo := by
  unfold calcCut at h
  simp only [] at h
  cases hf : loop (1 / (Real.exp 1 * C.γk)) C.sf C.c C.Xo 100 0 with
  | none => rw [hf] at h; cases h
  | some e =>
    rw [hf] at h
    simp only [] at h
    obtain ⟨f1, f2, f3, f4⟩ := coef_spec (1 / (Real.exp 1 * C.γk)) C.sf C.c C.Xo e hc hX h2
    have hf' := loop_spec _ _ _ _ _ _ _ hf
    generalize hG : Real.exp (-Real.log C.γo - (1 - coefA (1 / (Real.exp 1 * C.γk)) e / C.c
      + coefB (1 / (Real.exp 1 * C.γk)) C.sf C.c e) / (coefA (1 / (Real.exp 1 * C.γk)) e
      + coefE (1 / (Real.exp 1 * C.γk)) C.sf C.c C.Xo e)) = G at h
    cases hg : loop G C.sg C.c C.Xo 100 0 with
    | none => rw [hg] at h; cases h
    | some e' =>
      rw [hg] at h
      cases h
      obtain ⟨g1, g2, g3, g4⟩ := coef_spec G C.sg C.c C.Xo e' hc hX h2
      have hg' := loop_spec _ _ _ _ _ _ _ hg
      have hG' : Real.exp (-Real.log C.γo - C.sf / expF (coefA (1 / (Real.exp 1 * C.γk)) e)
          (coefB (1 / (Real.exp 1 * C.γk)) C.sf C.c e)
          (coefD (1 / (Real.exp 1 * C.γk)) C.sf C.c C.Xo e)
          (coefE (1 / (Real.exp 1 * C.γk)) C.sf C.c C.Xo e) C.c 0) = G := by
        rw [← hG]
        congr 3
        · unfold coefB; ring
        · rw [f4]; unfold coefA; ring
      refine ⟨f1, f2, g1, g2, f3, g3, ?_, ?_, rfl, rfl, rfl, rfl, rfl⟩
      · rw [f4, add_sub_cancel_left]; exact hf'
      · rw [hG', g4, add_sub_cancel_left]; exact hg'

/-- With these parameters the activity coefficients are continuous at the cutoff. -/
theorem exp_continuous (C D : Cut) (hc : C.c ≠ 0) (hX : 0 < C.Xo) (h2 : C.Xo ≠ 2 * C.c)
    (ht : C.type = 2) (h : calcCut C = some D) (xmin : ℝ) (hm : xmin < C.Xo) :
    ContinuousAt (lnActK D xmin) C.Xo ∧ ContinuousAt (lnActO D xmin) C.Xo := by
  obtain ⟨f1, f2, g1, g2, -, -, -, -, hty, hXo, hcc, -, -⟩ := calcCut_spec C D hc hX.ne' h2 h
  have hty1 : D.type ≠ 1 := by rw [hty, ht]; norm_num
  have hty2 : D.type = 2 := by rw [hty, ht]
  have pf : expF D.af D.bf D.df D.ef D.c C.Xo ≠ 0 := by rw [hcc, f1]; exact hX.ne'
  have pg : expF D.ag D.bg D.dg D.eg D.c C.Xo ≠ 0 := by rw [hcc, g1]; exact hX.ne'
  obtain ⟨a, b, ha, hb, -⟩ := lnGam_duhem (expF D.af D.bf D.df D.ef D.c)
    (expF D.ag D.bg D.dg D.eg D.c) (expF' D.af D.bf D.df D.c) (expF' D.ag D.bg D.dg D.c) C.Xo
    (expF_deriv _ _ _ _ _ _) (expF_deriv _ _ _ _ _ _) (expF'_diff _ _ _ _ _)
    (expF'_diff _ _ _ _ _) pf pg
  obtain ⟨i1, i2⟩ := lnGam_ideal C.Xo hX
  have lowl : ∀ᶠ x in 𝓝[≤] C.Xo, x ≤ C.Xo ∧ xmin < x :=
    (eventually_mem_nhdsWithin.and
      (mem_nhdsWithin_of_mem_nhds (Ioi_mem_nhds hm))).mono fun x h => ⟨h.1, h.2⟩
  have upr : ∀ᶠ x in 𝓝[≥] C.Xo, C.Xo ≤ x := eventually_mem_nhdsWithin
  refine ⟨glue (B := fun _ => 0) ((Real.continuousAt_log hX.ne').add ha.continuousAt)
      continuousAt_const ?_ ?_, glue (B := idealO) hb.continuousAt (idealO_cont _ hX) ?_ ?_⟩
  · filter_upwards [lowl] with x hx
    unfold lnActK
    rw [if_neg hty1, if_pos hty2, hXo, if_neg (not_lt.2 hx.1), max_eq_right hx.2.le]
    rfl
  · filter_upwards [upr] with x hx
    unfold lnActK
    rw [if_neg hty1, if_pos hty2, hXo]
    rcases hx.lt_or_eq with h1 | h1
    · rw [if_pos h1]
    · rw [← h1, if_neg (lt_irrefl _), max_eq_right hm.le, hcc, f1, f2, g1, g2, i1]
      ring
  · filter_upwards [lowl] with x hx
    unfold lnActO
    rw [if_neg hty1, if_pos hty2, hXo, if_neg (not_lt.2 hx.1)]
  · filter_upwards [upr] with x hx
    unfold lnActO
    rw [if_neg hty1, if_pos hty2, hXo]
    rcases hx.lt_or_eq with h1 | h1
    · rw [if_pos h1, max_eq_right (by linarith)]
    · rw [← h1, if_neg (lt_irrefl _), hcc, f1, f2, g1, g2, i2]

/-- Each pass of the loop multiplies the distance of two values by the same factor, which depends
only on the ratio `r` of the cutoff and the width. -/
theorem coefE_sub (A s c Xo e1 e2 : ℝ) (hc : c ≠ 0) (hX : Xo ≠ 0) (h2 : Xo ≠ 2 * c) :
    coefE A s c Xo e1 - coefE A s c Xo e2
      = Real.exp (-(Xo / c)) * ((2 + Xo / c) / (2 - Xo / c)) * (e1 - e2) := by
  obtain ⟨r, rfl⟩ : ∃ r, Xo = r * c := ⟨Xo / c, by field_simp⟩
  have hr : r ≠ 0 := fun h => hX (by rw [h, zero_mul])
  have hr2 : r ≠ 2 := fun h => h2 (by rw [h])
  have e : r * c / c = r := by field_simp
  have en : -(r * c) / c = -r := by field_simp
  have d1 : 2 - r ≠ 0 := sub_ne_zero.2 hr2.symm
  have d2 : r * c * (r * c) / c - 2 * (r * c) = -(r * c * (2 - r)) := by field_simp; ring
  unfold coefE coefD coefB coefA
  rw [d2, e, en]
  field_simp
  ring

/-- The factor is larger than one for a ratio below two. -/
theorem factor_gt (r : ℝ) (h0 : 0 < r) (h2 : r < 2) :
    1 < Real.exp (-r) * ((2 + r) / (2 - r)) := by
  have hd : ∀ x : ℝ, HasDerivAt (fun x => 2 + x - (2 - x) * Real.exp x)
      (1 - (1 - x) * Real.exp x) x := by
    intro x
    have := ((hasDerivAt_id' x).const_add 2).fun_sub
      (((hasDerivAt_id' x).const_sub 2).fun_mul (Real.hasDerivAt_exp x))
    refine this.congr_deriv ?_
    ring
  have hmono : StrictMonoOn (fun x : ℝ => 2 + x - (2 - x) * Real.exp x) (Set.Ici 0) := by
    refine strictMonoOn_of_deriv_pos (convex_Ici 0)
      (fun x _ => (hd x).continuousAt.continuousWithinAt) fun x hx => ?_
    rw [interior_Ici] at hx
    rw [(hd x).deriv]
    have h1 : 1 - x < Real.exp (-x) := by
      have := Real.add_one_lt_exp (x := -x) (by simpa using (ne_of_gt hx))
      linarith
    have h3 : Real.exp (-x) * Real.exp x = 1 := by rw [← Real.exp_add]; simp
    nlinarith [Real.exp_pos x]
  have := hmono (Set.mem_Ici.2 le_rfl) (Set.mem_Ici.2 h0.le) h0
  simp only [Real.exp_zero] at this
  have hr : 0 < 2 - r := by linarith
  rw [Real.exp_neg, ← div_eq_inv_mul, one_lt_div (Real.exp_pos r), lt_div_iff₀ hr]
  linarith

/-- So a cutoff below twice the width makes the loop fail, unless it is done at once. -/
theorem loop_fails (A s c Xo : ℝ) (hc : 0 < c) (hX : 0 < Xo) (h2 : Xo < 2 * c) (its : ℕ) (e : ℝ)
    (h : 1 / 10 ^ 14 ≤ |coefE A s c Xo e - e|) : loop A s c Xo its e = none := by
  induction its generalizing e with
  | zero => rfl
  | succ n ih =>
    unfold loop
    rw [if_neg (not_lt.2 h)]
    apply ih
    rw [coefE_sub A s c Xo _ _ hc.ne' hX.ne' h2.ne, abs_mul]
    have := factor_gt (Xo / c) (by positivity) (by rw [div_lt_iff₀ hc]; exact h2)
    rw [abs_of_pos (by linarith)]
    have hp := abs_nonneg (coefE A s c Xo e - e)
    nlinarith

/-- And it succeeds when the factor is small enough for the number of passes. -/
theorem loop_converges (A s c Xo : ℝ) (hc : c ≠ 0) (hX : Xo ≠ 0) (h2 : Xo ≠ 2 * c) (n its : ℕ)
    (hn : n < its) (e : ℝ)
    (h : |Real.exp (-(Xo / c)) * ((2 + Xo / c) / (2 - Xo / c))| ^ n * |coefE A s c Xo e - e|
      < 1 / 10 ^ 14) : ∃ e', loop A s c Xo its e = some e' := by
  induction n generalizing e its with
  | zero =>
    obtain ⟨m, rfl⟩ : ∃ m, its = m + 1 := ⟨its - 1, by omega⟩
    unfold loop
    rw [pow_zero, one_mul] at h
    rw [if_pos h]
    exact ⟨_, rfl⟩
  | succ n ih =>
    obtain ⟨m, rfl⟩ : ∃ m, its = m + 1 := ⟨its - 1, by omega⟩
    unfold loop
    split_ifs with h1
    · exact ⟨_, rfl⟩
    · refine ih m (by omega) _ ?_
      rw [coefE_sub A s c Xo _ _ hc hX h2,
        abs_mul (Real.exp (-(Xo / c)) * ((2 + Xo / c) / (2 - Xo / c))), ← mul_assoc, ← pow_succ]
      exact h

/-- The default cutoff (a fifth, and a width of a twentieth) has a factor below one tenth. -/
theorem factor_default : |Real.exp (-(4 : ℝ)) * ((2 + 4) / (2 - 4))| < 1 / 10 := by
  have h4 : Real.exp (-(4 : ℝ)) < 1 / 30 := by
    rw [Real.exp_neg, ← one_div]
    have h1 : (2.7 : ℝ) < Real.exp 1 := by
      have := Real.exp_one_gt_d9; norm_num at this ⊢; linarith
    have h2 : Real.exp 4 = Real.exp 1 ^ 4 := by
      rw [← Real.exp_nat_mul]; norm_num
    have h3 : (2.7 : ℝ) ^ 4 ≤ Real.exp 1 ^ 4 := by
      apply pow_le_pow_left₀ (by norm_num) h1.le
    apply one_div_lt_one_div_of_lt (by norm_num)
    rw [h2]
    norm_num at h3 ⊢
    linarith
  have h0 := Real.exp_pos (-(4 : ℝ))
  rw [abs_lt]
  constructor <;> linarith

/-- With the default cutoff the loop succeeds for all reasonable parameters. -/
theorem loop_default (A s : ℝ) (h : |coefE A s (1 / 20) (1 / 5) 0| < 10 ^ 80) :
    ∃ e, loop A s (1 / 20) (1 / 5) 100 0 = some e := by
  refine loop_converges A s (1 / 20) (1 / 5) (by norm_num) (by norm_num) (by norm_num) 99 100
    (by norm_num) 0 ?_
  have e : (1 / 5 / (1 / 20) : ℝ) = 4 := by norm_num
  rw [e, sub_zero]
  have h1 := pow_le_pow_left₀ (abs_nonneg _) factor_default.le 99
  calc _ ≤ (1 / 10) ^ 99 * |coefE A s (1 / 20) (1 / 5) 0| :=
        mul_le_mul_of_nonneg_right h1 (abs_nonneg _)
    _ < (1 / 10) ^ 99 * 10 ^ 80 := mul_lt_mul_of_pos_left h (by positivity)
    _ < 1 / 10 ^ 14 := by norm_num

/-- An instance in which the loop fails. -/
theorem calcCut_fails : ∃ C : Cut, 0 < C.c ∧ 0 < C.Xo ∧ 0 < C.γk ∧ calcCut C = none := by
  refine ⟨⟨2, 1, 1, 1 / Real.exp 1, 1, 1, 1, 0, 0, 0, 0, 0, 0, 0, 0⟩, by norm_num, by norm_num,
    by positivity, ?_⟩
  unfold calcCut
  have e : 1 / (Real.exp 1 * (1 / Real.exp 1)) = 1 := by
    have := (Real.exp_pos 1).ne'
    field_simp
  simp only [e]
  have : loop 1 1 1 1 100 0 = none := by
    apply loop_fails 1 1 1 1 (by norm_num) (by norm_num) (by norm_num)
    unfold coefE coefD coefB coefA
    norm_num
    have h := Real.exp_pos (-1)
    have h2 : Real.exp (-1) = 1 / Real.exp 1 := by rw [Real.exp_neg, one_div]
    have h3 : (1 : ℝ) / 3 < Real.exp (-1) := by
      rw [h2]
      apply one_div_lt_one_div_of_lt (Real.exp_pos 1)
      have := Real.exp_one_lt_d9; linarith
    linarith
  rw [this]

end Verif.Molal
