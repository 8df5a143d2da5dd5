import Verif.Thermo.DebyeHuckel
import Mathlib.Analysis.Calculus.Deriv.Add
import Mathlib.Analysis.Calculus.Deriv.Mul
import Mathlib.Analysis.Calculus.Deriv.Inv
import Mathlib.Analysis.SpecialFunctions.Log.Deriv
import Mathlib.Analysis.SpecialFunctions.Pow.Deriv
import Mathlib.Algebra.BigOperators.Ring.Finset
import Mathlib.Algebra.BigOperators.Field
import Mathlib.Algebra.BigOperators.Intervals
import Mathlib.Algebra.BigOperators.Group.Finset.Sigma

/-!
# C87: Gibbs-Duhem equation of the Debye-Hückel forms

Along every path of molalities the changes of the activity coefficients and of the activity of the
solvent must satisfy `Σ m_k dln γ_k + dln a_0 / M0 + Σ dm_k = 0`.
-/

namespace Verif.DH

open Finset Filter Topology

variable {D : Par} {m : ℝ → ℕ → ℝ} {m' : ℕ → ℝ} {t : ℝ}

/-- A differentiable path of molalities at a point where no limit of the model (ionic strength, mole
fraction of the solvent) is reached. -/
structure Path (D : Par) (m : ℝ → ℕ → ℝ) (m' : ℕ → ℝ) (t : ℝ) : Prop where
  hm : ∀ k, HasDerivAt (fun u => m u k) (m' k) t
  h0 : m' 0 = 0
  z0 : D.z 0 = 0
  M0 : 0 < D.M0
  n : 1 ≤ D.n
  Ipos : 0 < (∑ k ∈ Ico 1 D.n, m t k * D.z k ^ 2) / 2
  Imax : (∑ k ∈ Ico 1 D.n, m t k * D.z k ^ 2) / 2 < D.Imax
  x : 8689 / 1000000 < 1 / (1 + D.M0 * ∑ k ∈ Ico 1 D.n, m t k)

/-- Mole fraction of the solvent. -/
noncomputable def solventX (D : Par) (m : ℕ → ℝ) : ℝ := 1 / (1 + D.M0 * ∑ k ∈ Ico 1 D.n, m k)

/-- Square root of the ionic strength. -/
noncomputable def sq (D : Par) (m : ℕ → ℝ) : ℝ := Real.sqrt ((∑ k ∈ Ico 1 D.n, m k * D.z k ^ 2) / 2)

/-- Its derivative along the path. -/
noncomputable def sq' (D : Par) (m m' : ℕ → ℝ) : ℝ :=
  (∑ k ∈ Ico 1 D.n, m' k * D.z k ^ 2) / 2 / (2 * sq D m)

theorem sum_range (n : ℕ) (hn : 1 ≤ n) (f : ℕ → ℝ) :
    ∑ k ∈ range n, f k = f 0 + ∑ k ∈ Ico 1 n, f k := by
  rw [range_eq_Ico, sum_eq_sum_Ico_succ_bot (by omega)]

theorem sum_z (P : Path D m m' t) (u : ℝ) :
    ∑ k ∈ range D.n, m u k * D.z k * D.z k = ∑ k ∈ Ico 1 D.n, m u k * D.z k ^ 2 := by
  rw [sum_range D.n P.n, P.z0]
  simp only [mul_zero, zero_add]
  exact sum_congr rfl fun k _ => by ring

theorem S_deriv (P : Path D m m' t) :
    HasDerivAt (fun u => (∑ k ∈ Ico 1 D.n, m u k * D.z k ^ 2) / 2)
      ((∑ k ∈ Ico 1 D.n, m' k * D.z k ^ 2) / 2) t := by
  refine HasDerivAt.div_const ?_ 2
  exact HasDerivAt.fun_sum fun k _ => (P.hm k).mul_const _

theorem sq_pos (P : Path D m m' t) : 0 < sq D (m t) := Real.sqrt_pos.mpr P.Ipos

theorem sq_deriv (P : Path D m m' t) :
    HasDerivAt (fun u => sq D (m u)) (sq' D (m t) m') t :=
  (S_deriv P).sqrt P.Ipos.ne'

theorem sq_sq (P : Path D m m' t) : ∑ k ∈ Ico 1 D.n, m t k * D.z k ^ 2 = 2 * sq D (m t) ^ 2 := by
  have := Real.sq_sqrt P.Ipos.le
  unfold sq
  rw [this]
  ring

theorem sq_sq' (P : Path D m m' t) :
    ∑ k ∈ Ico 1 D.n, m' k * D.z k ^ 2 = 4 * sq D (m t) * sq' D (m t) m' := by
  have := (sq_pos P).ne'
  unfold sq'
  field_simp
  ring

theorem ev_ionic (P : Path D m m' t) :
    ∀ᶠ u in 𝓝 t, ionic D (m u) = sq D (m u) * sq D (m u) ∧
      Real.sqrt (ionic D (m u)) = sq D (m u) := by
  have hc := (S_deriv P).continuousAt
  have h1 := hc.eventually_lt continuousAt_const P.Imax
  have h2 := (continuousAt_const (y := (0 : ℝ))).eventually_lt hc P.Ipos
  filter_upwards [h1, h2] with u hu1 hu2
  have e : ionic D (m u) = (∑ k ∈ Ico 1 D.n, m u k * D.z k ^ 2) / 2 := by
    unfold ionic
    rw [sum_z P u, min_eq_left hu1.le]
  rw [e]
  exact ⟨(Real.mul_self_sqrt hu2.le).symm, rfl⟩

theorem at_ionic (P : Path D m m' t) : ionic D (m t) = sq D (m t) * sq D (m t) ∧
    Real.sqrt (ionic D (m t)) = sq D (m t) := (ev_ionic P).self_of_nhds

theorem sumM_deriv (P : Path D m m' t) :
    HasDerivAt (fun u => ∑ k ∈ Ico 1 D.n, m u k) (∑ k ∈ Ico 1 D.n, m' k) t :=
  HasDerivAt.fun_sum fun k _ => P.hm k

theorem den_pos (P : Path D m m' t) : 0 < 1 + D.M0 * ∑ k ∈ Ico 1 D.n, m t k := by
  by_contra h
  have := P.x
  have h2 : 1 / (1 + D.M0 * ∑ k ∈ Ico 1 D.n, m t k) ≤ 0 := by
    apply div_nonpos_of_nonneg_of_nonpos (by norm_num) (not_lt.mp h)
  linarith

theorem x_deriv (P : Path D m m' t) : ContinuousAt (fun u => solventX D (m u)) t := by
  unfold solventX
  exact continuousAt_const.div (continuousAt_const.add
    (continuousAt_const.mul (sumM_deriv P).continuousAt)) (den_pos P).ne'

theorem ideal_deriv (P : Path D m m' t) :
    HasDerivAt (fun u => (xSafe (solventX D (m u)) - 1) / xSafe (solventX D (m u)))
      (-D.M0 * ∑ k ∈ Ico 1 D.n, m' k) t := by
  have h1 := (continuousAt_const (y := (8689 / 1000000 : ℝ))).eventually_lt (x_deriv P) P.x
  have h2 := (continuousAt_const (y := (0 : ℝ))).eventually_lt
    (continuousAt_const.add (continuousAt_const.mul (sumM_deriv P).continuousAt)) (den_pos P)
  have h3 : HasDerivAt (fun u => -D.M0 * ∑ k ∈ Ico 1 D.n, m u k)
      (-D.M0 * ∑ k ∈ Ico 1 D.n, m' k) t := (sumM_deriv P).const_mul _
  refine h3.congr_of_eventuallyEq ?_
  filter_upwards [h1, h2] with u hu1 hu2
  unfold xSafe
  rw [max_eq_right hu1.le]
  unfold solventX
  have : 1 + D.M0 * ∑ k ∈ Ico 1 D.n, m u k ≠ 0 := hu2.ne'
  field_simp
  ring

/-! ## The function sigma -/

theorem sig_deriv (y : ℝ) (hy : 0 < y) :
    HasDerivAt sig (3 / (y * (1 + y) ^ 2) - 3 * sig y / y) y := by
  have hid : HasDerivAt (fun y : ℝ => y) 1 y := hasDerivAt_id' y
  have h1 : HasDerivAt (fun y : ℝ => y * y * y) ((1 * y + y * 1) * y + y * y * 1) y :=
    (hid.fun_mul hid).fun_mul hid
  have h2 := (hasDerivAt_const y (3 : ℝ)).fun_div h1 (by positivity)
  have h3 : HasDerivAt (fun y : ℝ => y + 1) 1 y := hid.add_const 1
  have hne : y + 1 ≠ 0 := by positivity
  have h4 := (hasDerivAt_const y (1 : ℝ)).fun_div h3 hne
  have h5 := (h3.log hne).const_mul 2
  have := h2.fun_mul ((h3.fun_sub h4).fun_sub h5)
  refine HasDerivAt.congr_deriv (f := sig) this ?_
  unfold sig
  generalize Real.log (y + 1) = L
  have hne' : 1 + y ≠ 0 := by positivity
  field_simp
  ring

theorem sig_comp (b : ℝ) (hb : 0 < b) (s : ℝ → ℝ) (s' : ℝ) (hs : HasDerivAt s s' t) (hp : 0 < s t) :
    HasDerivAt (fun u => sig (b * s u))
      ((3 / (s t * (1 + b * s t) ^ 2) - 3 * sig (b * s t) / s t) * s') t := by
  have h1 := (sig_deriv (b * s t) (by positivity)).comp t (hs.const_mul b)
  refine h1.congr_deriv ?_
  field_simp

/-! ## Sums -/

theorem sum_neg_zz (c : ℝ) (f : ℕ → ℝ) (s : Finset ℕ) (z : ℕ → ℝ) :
    ∑ k ∈ s, f k * (-z k * z k * c) = -c * ∑ k ∈ s, f k * z k ^ 2 := by
  rw [mul_sum]
  exact sum_congr rfl fun k _ => by ring

/-! ## The dilute limit -/

/-- **Dilute limit.** -/
theorem gd_dilute (P : Path D m m' t) (hf : D.form = .dilute) (A : ℝ) :
    ∃ (g' : ℕ → ℝ) (w' : ℝ), (∀ k, HasDerivAt (fun u => lnSolute D A (m u) k) (g' k) t) ∧
      HasDerivAt (fun u => lnSolvent D A (m u) (solventX D (m u))) w' t ∧
      ∑ k ∈ Ico 1 D.n, m t k * g' k + w' / D.M0 + ∑ k ∈ Ico 1 D.n, m' k = 0 := by
  have hs := sq_deriv P
  have hp := sq_pos P
  have h := (ideal_deriv P).fun_add ((((hs.fun_mul hs).const_mul (2 / 3 * A * D.M0))).fun_mul hs)
  have hw := h.congr_of_eventuallyEq (f₁ := fun u => lnSolvent D A (m u) (solventX D (m u))) (by
    filter_upwards [ev_ionic P] with u hu
    simp only [lnSolvent, hf, hu.2]
    rw [hu.1])
  clear h
  refine ⟨fun k => -D.z k * D.z k * (A * sq' D (m t) m'), _, ?_, hw, ?_⟩
  · intro k
    have h := (hs.const_mul A).const_mul (-D.z k * D.z k)
    refine h.congr_of_eventuallyEq ?_
    filter_upwards [ev_ionic P] with u hu
    simp only [lnSolute, hf, hu.2]
  · rw [sum_neg_zz, sq_sq P]
    have := P.M0.ne'
    field_simp
    ring

/-! ## B-dot with a common radius -/

/-- The sum over charged species in the solvent's B-dot term. -/
noncomputable def bsum (D : Par) (m : ℕ → ℝ) : ℝ :=
  ∑ k ∈ Ico 1 D.n, if D.z k ≠ 0 then D.bdot k * m k else 0

theorem bsum_deriv (P : Path D m m' t) : HasDerivAt (fun u => bsum D (m u)) (bsum D m') t := by
  unfold bsum
  apply HasDerivAt.fun_sum
  intro k _
  by_cases h : D.z k ≠ 0
  · simp only [if_pos h]
    exact (P.hm k).const_mul _
  · simp only [if_neg h]
    exact hasDerivAt_const t 0

theorem bdotSolvent_deriv (P : Path D m m' t) :
    HasDerivAt (fun u => bdotSolvent D (m u))
      (D.M0 * Real.log 10 * (2 * sq D (m t) * sq' D (m t) m' * bsum D (m t)
        + sq D (m t) ^ 2 * bsum D m') / 2) t := by
  have hs := sq_deriv P
  have h := ((((hs.fun_mul hs).const_mul (D.M0 * Real.log 10)).fun_mul (bsum_deriv P))).div_const 2
  refine (h.congr_of_eventuallyEq ?_).congr_deriv ?_
  · filter_upwards [ev_ionic P] with u hu
    simp only [bdotSolvent, bsum]
    rw [hu.1]
  · ring

/-- B-dot is zero for species without charge (`setBdot_spec`). -/
def BdotOk (D : Par) : Prop := ∀ k, D.z k = 0 → D.bdot k = 0

theorem bsum_eq (hb : BdotOk D) (m : ℕ → ℝ) : bsum D m = ∑ k ∈ Ico 1 D.n, m k * D.bdot k := by
  unfold bsum
  apply sum_congr rfl
  intro k _
  by_cases h : D.z k = 0
  · simp [h, hb k h]
  · simp [h, mul_comm]

theorem debye_deriv (P : Path D m m' t) (b : ℝ) (hb : 0 ≤ b) (A c : ℝ) :
    HasDerivAt (fun u => c * (A * sq D (m u)) / (1 + b * sq D (m u)))
      (c * (A * sq' D (m t) m' / (1 + b * sq D (m t)) ^ 2)) t := by
  have hs := sq_deriv P
  have hp := sq_pos P
  have hd : 1 + b * sq D (m t) ≠ 0 := by positivity
  have h := (((hs.const_mul A).const_mul c)).fun_div ((hs.const_mul b).const_add 1) hd
  refine h.congr_deriv ?_
  field_simp
  ring

theorem sigGuard_deriv (P : Path D m m' t) (b : ℝ) (hb : 0 < b) :
    HasDerivAt (fun u => sigGuard (b * sq D (m u)))
      ((3 / (sq D (m t) * (1 + b * sq D (m t)) ^ 2) - 3 * sig (b * sq D (m t)) / sq D (m t))
        * sq' D (m t) m') t := by
  have hs := sq_deriv P
  have hp := sq_pos P
  refine (sig_comp b hb _ _ hs hp).congr_of_eventuallyEq ?_
  filter_upwards [(continuousAt_const (y := (0 : ℝ))).eventually_lt hs.continuousAt hp] with u hu
  unfold sigGuard
  rw [if_pos (mul_pos hb hu)]

theorem sigGuard_at (P : Path D m m' t) (b : ℝ) (hb : 0 < b) :
    sigGuard (b * sq D (m t)) = sig (b * sq D (m t)) := by
  unfold sigGuard
  rw [if_pos (mul_pos hb (sq_pos P))]

/-- **B-dot, common radius**: exact residual, from the B-dot terms only. -/
theorem gd_common (P : Path D m m' t) (hf : D.form = .bdotCommon) (A : ℝ) (ha : 0 < D.B * D.a 0)
    (hb : BdotOk D) :
    ∃ (g' : ℕ → ℝ) (w' : ℝ), (∀ k, HasDerivAt (fun u => lnSolute D A (m u) k) (g' k) t) ∧
      HasDerivAt (fun u => lnSolvent D A (m u) (solventX D (m u))) w' t ∧
      ∑ k ∈ Ico 1 D.n, m t k * g' k + w' / D.M0 + ∑ k ∈ Ico 1 D.n, m' k =
        Real.log 10 / 4 * ((∑ k ∈ Ico 1 D.n, m t k * D.bdot k) * (∑ k ∈ Ico 1 D.n, m' k * D.z k ^ 2)
          - (∑ k ∈ Ico 1 D.n, m t k * D.z k ^ 2) * ∑ k ∈ Ico 1 D.n, m' k * D.bdot k) := by
  have hs := sq_deriv P
  have hp := sq_pos P
  have h := ((ideal_deriv P).fun_add ((((hs.fun_mul hs).const_mul (2 / 3 * A * D.M0))).fun_mul hs
      |>.fun_mul (sigGuard_deriv P (D.B * D.a 0) ha))).fun_sub (bdotSolvent_deriv P)
  have hw := h.congr_of_eventuallyEq (f₁ := fun u => lnSolvent D A (m u) (solventX D (m u))) (by
    filter_upwards [ev_ionic P] with u hu
    simp only [lnSolvent, hf, hu.2]
    rw [hu.1, show D.B * sq D (m u) * D.a 0 = D.B * D.a 0 * sq D (m u) by ring])
  clear h
  refine ⟨fun k => -D.z k * D.z k * (A * sq' D (m t) m' / (1 + D.B * D.a 0 * sq D (m t)) ^ 2)
    + Real.log 10 * D.bdot k * (2 * sq D (m t) * sq' D (m t) m'), _, ?_, hw, ?_⟩
  · intro k
    have h := (debye_deriv P (D.B * D.a 0) ha.le A (-D.z k * D.z k)).fun_add
      ((hs.fun_mul hs).const_mul (Real.log 10 * D.bdot k))
    refine (h.congr_of_eventuallyEq ?_).congr_deriv ?_
    · filter_upwards [ev_ionic P] with u hu
      simp only [lnSolute, hf, hu.2]
      rw [hu.1, show D.B * sq D (m u) * D.a 0 = D.B * D.a 0 * sq D (m u) by ring]
    · ring
  · rw [sigGuard_at P _ ha]
    simp only [mul_add, sum_add_distrib]
    rw [sum_neg_zz, sq_sq P, sq_sq' P, bsum_eq hb, bsum_eq hb]
    have e : ∑ k ∈ Ico 1 D.n, m t k * (Real.log 10 * D.bdot k * (2 * sq D (m t) * sq' D (m t) m'))
        = Real.log 10 * (2 * sq D (m t) * sq' D (m t) m') * ∑ k ∈ Ico 1 D.n, m t k * D.bdot k := by
      rw [mul_sum]; exact sum_congr rfl fun k _ => by ring
    rw [e]
    have hM := P.M0.ne'
    have hd : 1 + D.B * D.a 0 * sq D (m t) ≠ 0 := by positivity
    generalize D.B * D.a 0 = b at *
    generalize sig (b * sq D (m t)) = sg
    generalize ∑ k ∈ Ico 1 D.n, m t k * D.bdot k = C
    generalize ∑ k ∈ Ico 1 D.n, m' k * D.bdot k = C'
    generalize ∑ k ∈ Ico 1 D.n, m' k = S1
    generalize sq' D (m t) m' = q'
    generalize sq D (m t) = q at *
    have hq := hp.ne'
    field_simp
    ring

/-! ## Interaction parameters -/

theorem betaSolute_deriv (P : Path D m m' t) (k : ℕ) :
    HasDerivAt (fun u => ∑ j ∈ range D.n, 2 * m u j * D.beta k j)
      (∑ j ∈ range D.n, 2 * m' j * D.beta k j) t :=
  HasDerivAt.fun_sum fun j _ => ((P.hm j).const_mul 2).mul_const _

theorem betaSolvent_deriv (P : Path D m m' t) :
    HasDerivAt (fun u => betaSolvent D (m u))
      (D.M0 * ∑ k ∈ range D.n, ∑ j ∈ range D.n,
        (D.beta k j * m' k * m t j + D.beta k j * m t k * m' j)) t := by
  unfold betaSolvent
  refine HasDerivAt.const_mul _ ?_
  refine HasDerivAt.fun_sum fun k _ => HasDerivAt.fun_sum fun j _ => ?_
  exact ((P.hm k).const_mul _).fun_mul (P.hm j)

theorem beta_sum (P : Path D m m' t) (hsym : ∀ i j, i < D.n → j < D.n → D.beta i j = D.beta j i) :
    ∑ k ∈ Ico 1 D.n, m t k * (∑ j ∈ range D.n, 2 * m' j * D.beta k j)
      - ∑ k ∈ range D.n, ∑ j ∈ range D.n,
        (D.beta k j * m' k * m t j + D.beta k j * m t k * m' j)
      = -2 * m t 0 * ∑ j ∈ range D.n, D.beta 0 j * m' j := by
  have h1 : ∑ k ∈ range D.n, ∑ j ∈ range D.n, D.beta k j * m' k * m t j
      = ∑ k ∈ range D.n, ∑ j ∈ range D.n, D.beta k j * m t k * m' j := by
    rw [sum_comm]
    refine sum_congr rfl fun k hk => sum_congr rfl fun j hj => ?_
    rw [hsym j k (mem_range.mp hj) (mem_range.mp hk)]
    ring
  have h2 : ∑ k ∈ range D.n, m t k * (∑ j ∈ range D.n, 2 * m' j * D.beta k j)
      = 2 * ∑ k ∈ range D.n, ∑ j ∈ range D.n, D.beta k j * m t k * m' j := by
    rw [mul_sum]
    refine sum_congr rfl fun k _ => ?_
    rw [mul_sum, mul_sum]
    exact sum_congr rfl fun j _ => by ring
  rw [sum_range D.n P.n] at h2
  have h3 : m t 0 * (∑ j ∈ range D.n, 2 * m' j * D.beta 0 j)
      = 2 * m t 0 * ∑ j ∈ range D.n, D.beta 0 j * m' j := by
    rw [mul_sum, mul_sum]
    exact sum_congr rfl fun j _ => by ring
  rw [h3] at h2
  simp only [sum_add_distrib]
  rw [h1]
  linarith

/-- **Debye-Hückel with interaction parameters**: residual zero unless parameters belong to the
solvent. -/
theorem gd_betaij (P : Path D m m' t) (hf : D.form = .betaij) (A : ℝ) (ha : 0 < D.B * D.a 0)
    (hsym : ∀ i j, i < D.n → j < D.n → D.beta i j = D.beta j i) :
    ∃ (g' : ℕ → ℝ) (w' : ℝ), (∀ k, HasDerivAt (fun u => lnSolute D A (m u) k) (g' k) t) ∧
      HasDerivAt (fun u => lnSolvent D A (m u) (solventX D (m u))) w' t ∧
      ∑ k ∈ Ico 1 D.n, m t k * g' k + w' / D.M0 + ∑ k ∈ Ico 1 D.n, m' k =
        -2 * m t 0 * ∑ j ∈ range D.n, D.beta 0 j * m' j := by
  have hs := sq_deriv P
  have hp := sq_pos P
  have h := ((ideal_deriv P).fun_add ((((hs.fun_mul hs).const_mul (2 / 3 * A * D.M0))).fun_mul hs
      |>.fun_mul (sigGuard_deriv P (D.B * D.a 0) ha))).fun_sub (betaSolvent_deriv P)
  have hw := h.congr_of_eventuallyEq (f₁ := fun u => lnSolvent D A (m u) (solventX D (m u))) (by
    filter_upwards [ev_ionic P] with u hu
    simp only [lnSolvent, hf, hu.2]
    rw [hu.1])
  clear h
  refine ⟨fun k => -D.z k * D.z k * (A * sq' D (m t) m' / (1 + D.B * D.a 0 * sq D (m t)) ^ 2)
    + ∑ j ∈ range D.n, 2 * m' j * D.beta k j, _, ?_, hw, ?_⟩
  · intro k
    have h := (debye_deriv P (D.B * D.a 0) ha.le A (-D.z k * D.z k)).fun_add (betaSolute_deriv P k)
    refine h.congr_of_eventuallyEq ?_
    filter_upwards [ev_ionic P] with u hu
    simp only [lnSolute, hf, hu.2]
  · rw [sigGuard_at P _ ha, ← beta_sum P hsym]
    simp only [mul_add, sum_add_distrib]
    rw [sum_neg_zz, sq_sq P]
    have hM := P.M0.ne'
    have hd : 1 + D.B * D.a 0 * sq D (m t) ≠ 0 := by positivity
    generalize D.B * D.a 0 = b at *
    generalize sig (b * sq D (m t)) = sg
    generalize ∑ k ∈ Ico 1 D.n, m t k * ∑ j ∈ range D.n, 2 * m' j * D.beta k j = C
    generalize ∑ k ∈ range D.n, ∑ j ∈ range D.n, D.beta k j * m' k * m t j = C1
    generalize ∑ k ∈ range D.n, ∑ j ∈ range D.n, D.beta k j * m t k * m' j = C2
    generalize ∑ k ∈ Ico 1 D.n, m' k = S1
    generalize sq' D (m t) m' = q'
    generalize sq D (m t) = q at *
    have hq := hp.ne'
    field_simp
    ring

/-- **Pitzer form with interaction parameters.** -/
theorem gd_pitzer (P : Path D m m' t) (hf : D.form = .pitzer) (A : ℝ) (ha : 0 < D.B * D.a 0)
    (hsym : ∀ i j, i < D.n → j < D.n → D.beta i j = D.beta j i) :
    ∃ (g' : ℕ → ℝ) (w' : ℝ), (∀ k, HasDerivAt (fun u => lnSolute D A (m u) k) (g' k) t) ∧
      HasDerivAt (fun u => lnSolvent D A (m u) (solventX D (m u))) w' t ∧
      ∑ k ∈ Ico 1 D.n, m t k * g' k + w' / D.M0 + ∑ k ∈ Ico 1 D.n, m' k =
        -2 * m t 0 * ∑ j ∈ range D.n, D.beta 0 j * m' j := by
  have hs := sq_deriv P
  have hp := sq_pos P
  have hd : 1 + D.B * D.a 0 * sq D (m t) ≠ 0 := by positivity
  have hden := (hs.const_mul (D.B * D.a 0)).const_add 1
  have h := ((ideal_deriv P).fun_add ((((hs.fun_mul hs).const_mul (2 / 3 * A * D.M0))).fun_mul hs
      |>.fun_mul ((hasDerivAt_const t (1 : ℝ)).fun_div hden hd))).fun_sub (betaSolvent_deriv P)
  have hw := h.congr_of_eventuallyEq (f₁ := fun u => lnSolvent D A (m u) (solventX D (m u))) (by
    filter_upwards [ev_ionic P] with u hu
    simp only [lnSolvent, hf, hu.2]
    rw [hu.1, show D.B * sq D (m u) * D.a 0 = D.B * D.a 0 * sq D (m u) by ring])
  clear h
  refine ⟨fun k => -D.z k * D.z k * (A * sq' D (m t) m' / 3 *
      (1 / (1 + D.B * D.a 0 * sq D (m t)) ^ 2 + 2 / (1 + D.B * D.a 0 * sq D (m t))))
    + ∑ j ∈ range D.n, 2 * m' j * D.beta k j, _, ?_, hw, ?_⟩
  · intro k
    have h := (((((hs.const_mul A).const_mul (-D.z k * D.z k)).div_const 3).fun_div hden hd).fun_add
      (((hden.log hd).const_mul (-2 * D.z k * D.z k * A)).div_const (3 * (D.B * D.a 0)))).fun_add
        (betaSolute_deriv P k)
    refine (h.congr_of_eventuallyEq ?_).congr_deriv ?_
    · filter_upwards [ev_ionic P] with u hu
      simp only [lnSolute, hf, hu.2]
      rw [show D.B * sq D (m u) * D.a 0 = D.B * D.a 0 * sq D (m u) by ring, ← mul_assoc 3]
    · refine congrArg₂ (· + ·) ?_ rfl
      have hb := ha.ne'
      generalize D.B * D.a 0 = b at *
      generalize sq' D (m t) m' = q'
      generalize sq D (m t) = q at *
      field_simp
      ring
  · rw [← beta_sum P hsym]
    simp only [mul_add, sum_add_distrib]
    have e : ∑ k ∈ Ico 1 D.n, m t k * (-D.z k * D.z k * (A * sq' D (m t) m' / 3 *
        (1 / (1 + D.B * D.a 0 * sq D (m t)) ^ 2)))
        = _ := sum_neg_zz _ (fun k => m t k) (Ico 1 D.n) D.z
    have e2 : ∑ k ∈ Ico 1 D.n, m t k * (-D.z k * D.z k * (A * sq' D (m t) m' / 3 *
        (2 / (1 + D.B * D.a 0 * sq D (m t)))))
        = _ := sum_neg_zz _ (fun k => m t k) (Ico 1 D.n) D.z
    rw [e, e2, sq_sq P]
    clear e e2
    have hM := P.M0.ne'
    generalize D.B * D.a 0 = b at *
    generalize ∑ k ∈ Ico 1 D.n, m t k * ∑ j ∈ range D.n, 2 * m' j * D.beta k j = C
    generalize ∑ k ∈ range D.n, ∑ j ∈ range D.n, D.beta k j * m' k * m t j = C1
    generalize ∑ k ∈ range D.n, ∑ j ∈ range D.n, D.beta k j * m t k * m' j = C2
    generalize ∑ k ∈ Ico 1 D.n, m' k = S1
    generalize sq' D (m t) m' = q'
    generalize sq D (m t) = q at *
    have hq := hp.ne'
    field_simp
    ring

/-- **A common radius of zero**: the solutes keep the term of Debye and Hückel, the activity of the
solvent loses it, as `sigma` is zero and not one. -/
theorem gd_zero_radius (P : Path D m m' t) (hf : D.form = .bdotCommon) (A : ℝ) (ha : D.a 0 = 0)
    (hb : ∀ k, D.bdot k = 0) :
    ∃ (g' : ℕ → ℝ) (w' : ℝ), (∀ k, HasDerivAt (fun u => lnSolute D A (m u) k) (g' k) t) ∧
      HasDerivAt (fun u => lnSolvent D A (m u) (solventX D (m u))) w' t ∧
      ∑ k ∈ Ico 1 D.n, m t k * g' k + w' / D.M0 + ∑ k ∈ Ico 1 D.n, m' k =
        -A * sq D (m t) * ((∑ k ∈ Ico 1 D.n, m' k * D.z k ^ 2) / 2) := by
  have hs := sq_deriv P
  have hp := sq_pos P
  refine ⟨fun k => -D.z k * D.z k * (A * sq' D (m t) m'), _, ?_, ideal_deriv P |>.congr_of_eventuallyEq ?_,
    ?_⟩
  · intro k
    have h := (hs.const_mul A).const_mul (-D.z k * D.z k)
    refine h.congr_of_eventuallyEq ?_
    filter_upwards [ev_ionic P] with u hu
    simp only [lnSolute, hf, hu.2, ha, hb k]
    simp
  · refine Eventually.of_forall fun u => ?_
    simp only [lnSolvent, hf, ha, bdotSolvent, hb]
    simp [sigGuard]
  · rw [sum_neg_zz, sq_sq P, sq_sq' P]
    have := P.M0.ne'
    field_simp
    ring

/-! ## B-dot with a radius for each species -/

theorem nonpolar_deriv (P : Path D m m' t) :
    HasDerivAt (fun u => Real.log (nonpolarCoeff (sq D (m u) * sq D (m u))))
      (Real.log 10 * (1127 / 10000 - 2 * (1049 / 100000) * sq D (m t) ^ 2
        + 3 * (1545 / 1000000) * sq D (m t) ^ 4) * (2 * sq D (m t) * sq' D (m t) m')) t := by
  have hs := sq_deriv P
  have hI := hs.fun_mul hs
  have h2 := hI.fun_mul hI
  have h := ((((hI.const_mul (1127 / 10000)).fun_add (h2.const_mul (-1049 / 100000))).fun_add
    ((h2.const_mul (1545 / 1000000)).fun_mul hI))).mul_const (Real.log 10)
  refine (h.congr_of_eventuallyEq ?_).congr_deriv ?_
  · refine Eventually.of_forall fun u => ?_
    unfold nonpolarCoeff
    simp only
    rw [Real.log_rpow (by norm_num)]
  · ring

theorem akSum_deriv (P : Path D m m' t) (hB : 0 < D.B) (ha : ∀ k, 0 < k → k < D.n → 0 < D.a k) :
    HasDerivAt (fun u => sq D (m u) * akSum D (m u))
      (∑ k ∈ Ico 1 D.n, D.z k ^ 2 / 2 *
        (sq D (m t) * m' k * sig (D.B * D.a k * sq D (m t)) + m t k * sq' D (m t) m' *
          (3 / (1 + D.B * D.a k * sq D (m t)) ^ 2 - 2 * sig (D.B * D.a k * sq D (m t))))) t := by
  have hs := sq_deriv P
  have hp := sq_pos P
  have h : HasDerivAt (fun u => ∑ k ∈ Ico 1 D.n,
      sq D (m u) * (m u k * (D.z k ^ 2 / 2) * sig (D.B * D.a k * sq D (m u)))) _ t :=
    HasDerivAt.fun_sum fun k hk => hs.fun_mul (((P.hm k).mul_const (D.z k ^ 2 / 2)).fun_mul
      (sig_comp (D.B * D.a k) (mul_pos hB (ha k (by have := (mem_Ico.mp hk).1; omega) (mem_Ico.mp hk).2))
        _ _ hs hp))
  refine (h.congr_of_eventuallyEq ?_).congr_deriv ?_
  · filter_upwards [ev_ionic P,
      (continuousAt_const (y := (0 : ℝ))).eventually_lt hs.continuousAt hp] with u hu hup
    unfold akSum
    rw [hu.2, if_pos (mul_pos hB hup), sum_range D.n P.n, P.z0, ← mul_sum]
    simp only [mul_zero, zero_mul, zero_div, ite_self, zero_add]
    congr 1
    refine sum_congr rfl fun k hk => ?_
    have : k ≠ 0 := by have := (mem_Ico.mp hk).1; omega
    rw [if_pos (Or.inl this), show D.B * sq D (m u) * D.a k = D.B * D.a k * sq D (m u) by ring]
    ring
  · refine sum_congr rfl fun k hk => ?_
    have hak := ha k (by have := (mem_Ico.mp hk).1; omega) (mem_Ico.mp hk).2
    have hd : 1 + D.B * D.a k * sq D (m t) ≠ 0 := by positivity
    generalize sig (D.B * D.a k * sq D (m t)) = sg
    generalize sq' D (m t) m' = q'
    generalize sq D (m t) = q at *
    have hq := hp.ne'
    field_simp
    ring

/-- Non polar species have neither charge nor B-dot. -/
def NonpolarOk (D : Par) : Prop := ∀ k, D.nonpolar k = true → D.z k = 0

/-- **B-dot, variable radii**: exact residual. -/
theorem gd_ak (P : Path D m m' t) (hf : D.form = .bdotAk) (hh : D.helgeson = false) (A : ℝ)
    (hB : 0 < D.B) (ha : ∀ k, 0 < k → k < D.n → 0 < D.a k) (hb : BdotOk D) (hn : NonpolarOk D) :
    ∃ (g' : ℕ → ℝ) (w' : ℝ),
      (∀ k, 0 < k → k < D.n → HasDerivAt (fun u => lnSolute D A (m u) k) (g' k) t) ∧
      HasDerivAt (fun u => lnSolvent D A (m u) (solventX D (m u))) w' t ∧
      ∑ k ∈ Ico 1 D.n, m t k * g' k + w' / D.M0 + ∑ k ∈ Ico 1 D.n, m' k =
        A / 3 * (∑ k ∈ Ico 1 D.n, D.z k ^ 2 * sig (D.B * D.a k * sq D (m t)) *
          (sq D (m t) * m' k - 2 * sq' D (m t) m' * m t k))
        + Real.log 10 / 4 * ((∑ k ∈ Ico 1 D.n, m t k * D.bdot k) * (∑ k ∈ Ico 1 D.n, m' k * D.z k ^ 2)
          - (∑ k ∈ Ico 1 D.n, m t k * D.z k ^ 2) * ∑ k ∈ Ico 1 D.n, m' k * D.bdot k)
        + (∑ k ∈ Ico 1 D.n, if D.nonpolar k then m t k else 0) *
          (Real.log 10 * (1127 / 10000 - 2 * (1049 / 100000) * sq D (m t) ^ 2
            + 3 * (1545 / 1000000) * sq D (m t) ^ 4) * ((∑ k ∈ Ico 1 D.n, m' k * D.z k ^ 2) / 2)) := by
  have hs := sq_deriv P
  have hp := sq_pos P
  have h := ((ideal_deriv P).fun_add ((akSum_deriv P hB ha).const_mul (2 / 3 * A * D.M0))).fun_sub
    (bdotSolvent_deriv P)
  have hw := h.congr_of_eventuallyEq (f₁ := fun u => lnSolvent D A (m u) (solventX D (m u))) (by
    filter_upwards [ev_ionic P] with u hu
    simp only [lnSolvent, hf, hu.2, hh]
    simp only [Bool.false_eq_true, if_false]
    ring)
  clear h
  refine ⟨fun k => -D.z k * D.z k * (A * sq' D (m t) m' / (1 + D.B * D.a k * sq D (m t)) ^ 2)
    + Real.log 10 * D.bdot k * (2 * sq D (m t) * sq' D (m t) m')
    + (if D.nonpolar k then 1 else 0) * (Real.log 10 * (1127 / 10000 - 2 * (1049 / 100000) * sq D (m t) ^ 2
        + 3 * (1545 / 1000000) * sq D (m t) ^ 4) * (2 * sq D (m t) * sq' D (m t) m')), _, ?_, hw, ?_⟩
  · intro k hk0 hk
    by_cases hnp : D.nonpolar k = true
    · refine ((nonpolar_deriv P).congr_of_eventuallyEq ?_).congr_deriv ?_
      · filter_upwards [ev_ionic P] with u hu
        simp only [lnSolute, hf, if_pos hnp]
        rw [hu.1]
      · simp [hnp, hn k hnp, hb k (hn k hnp)]
    · have hb0 : (0:ℝ) ≤ D.B * D.a k := (mul_pos hB (ha k hk0 hk)).le
      have h := (debye_deriv P (D.B * D.a k) hb0 A (-D.z k * D.z k)).fun_add
        ((hs.fun_mul hs).const_mul (Real.log 10 * D.bdot k))
      refine (h.congr_of_eventuallyEq ?_).congr_deriv ?_
      · filter_upwards [ev_ionic P] with u hu
        simp only [lnSolute, hf, hu.2, if_neg hnp]
        rw [hu.1, show D.B * sq D (m u) * D.a k = D.B * D.a k * sq D (m u) by ring]
      · simp only [if_neg hnp]
        ring
  · have hM := P.M0.ne'
    rw [sq_sq P, sq_sq' P, bsum_eq hb, bsum_eq hb]
    have e1 : ∑ k ∈ Ico 1 D.n, m t k *
        (-D.z k * D.z k * (A * sq' D (m t) m' / (1 + D.B * D.a k * sq D (m t)) ^ 2)
        + Real.log 10 * D.bdot k * (2 * sq D (m t) * sq' D (m t) m')
        + (if D.nonpolar k then 1 else 0) * (Real.log 10 * (1127 / 10000
          - 2 * (1049 / 100000) * sq D (m t) ^ 2
          + 3 * (1545 / 1000000) * sq D (m t) ^ 4) * (2 * sq D (m t) * sq' D (m t) m')))
        = -A * (∑ k ∈ Ico 1 D.n, m t k * D.z k ^ 2 * (sq' D (m t) m' / (1 + D.B * D.a k * sq D (m t)) ^ 2))
        + Real.log 10 * (2 * sq D (m t) * sq' D (m t) m') * (∑ k ∈ Ico 1 D.n, m t k * D.bdot k)
        + (∑ k ∈ Ico 1 D.n, if D.nonpolar k then m t k else 0) * (Real.log 10 * (1127 / 10000
          - 2 * (1049 / 100000) * sq D (m t) ^ 2
          + 3 * (1545 / 1000000) * sq D (m t) ^ 4) * (2 * sq D (m t) * sq' D (m t) m')) := by
      rw [mul_sum, mul_sum, sum_mul, ← sum_add_distrib, ← sum_add_distrib]
      refine sum_congr rfl fun k _ => ?_
      by_cases hnp : D.nonpolar k = true
      · simp only [if_pos hnp]; ring
      · simp only [if_neg hnp]; ring
    have e2 : (∑ k ∈ Ico 1 D.n, D.z k ^ 2 / 2 *
        (sq D (m t) * m' k * sig (D.B * D.a k * sq D (m t)) + m t k * sq' D (m t) m' *
          (3 / (1 + D.B * D.a k * sq D (m t)) ^ 2 - 2 * sig (D.B * D.a k * sq D (m t)))))
        = 1 / 2 * (∑ k ∈ Ico 1 D.n, D.z k ^ 2 * sig (D.B * D.a k * sq D (m t)) *
          (sq D (m t) * m' k - 2 * sq' D (m t) m' * m t k))
        + 3 / 2 * (∑ k ∈ Ico 1 D.n, m t k * D.z k ^ 2 *
            (sq' D (m t) m' / (1 + D.B * D.a k * sq D (m t)) ^ 2)) := by
      rw [mul_sum, mul_sum, ← sum_add_distrib]
      refine sum_congr rfl fun k _ => ?_
      ring
    rw [e1, e2]
    generalize ∑ k ∈ Ico 1 D.n, m t k * D.z k ^ 2 *
            (sq' D (m t) m' / (1 + D.B * D.a k * sq D (m t)) ^ 2) = U1
    generalize ∑ k ∈ Ico 1 D.n, D.z k ^ 2 * sig (D.B * D.a k * sq D (m t)) *
          (sq D (m t) * m' k - 2 * sq' D (m t) m' * m t k) = U2
    generalize ∑ k ∈ Ico 1 D.n, m t k * D.bdot k = C
    generalize ∑ k ∈ Ico 1 D.n, m' k * D.bdot k = C'
    generalize ∑ k ∈ Ico 1 D.n, m' k = S1
    generalize (∑ k ∈ Ico 1 D.n, if D.nonpolar k then m t k else 0) = N
    field_simp
    ring

/-- On a ray (dilution or concentration at constant ratios) only non polar species contribute. -/
theorem gd_ak_ray (P : Path D m m' t) (hf : D.form = .bdotAk) (hh : D.helgeson = false) (A c : ℝ)
    (hB : 0 < D.B) (ha : ∀ k, 0 < k → k < D.n → 0 < D.a k) (hb : BdotOk D)
    (hn : ∀ k, D.nonpolar k = false) (hray : ∀ k, 0 < k → k < D.n → m' k = c * m t k) :
    ∃ (g' : ℕ → ℝ) (w' : ℝ),
      (∀ k, 0 < k → k < D.n → HasDerivAt (fun u => lnSolute D A (m u) k) (g' k) t) ∧
      HasDerivAt (fun u => lnSolvent D A (m u) (solventX D (m u))) w' t ∧
      ∑ k ∈ Ico 1 D.n, m t k * g' k + w' / D.M0 + ∑ k ∈ Ico 1 D.n, m' k = 0 := by
  obtain ⟨g', w', h1, h2, h3⟩ := gd_ak P hf hh A hB ha hb (fun k hk => by rw [hn k] at hk; cases hk)
  refine ⟨g', w', h1, h2, ?_⟩
  rw [h3]
  have r : ∀ f : ℕ → ℝ, ∑ k ∈ Ico 1 D.n, m' k * f k = c * ∑ k ∈ Ico 1 D.n, m t k * f k := by
    intro f
    rw [mul_sum]
    refine sum_congr rfl fun k hk => ?_
    rw [hray k (by have := (mem_Ico.mp hk).1; omega) (mem_Ico.mp hk).2]
    ring
  have hq := (sq_pos P).ne'
  have hs' : sq' D (m t) m' = c * sq D (m t) / 2 := by
    have h4 := sq_sq' P
    rw [r, sq_sq P] at h4
    field_simp
    have : sq D (m t) * (2 * c * sq D (m t) - 4 * sq' D (m t) m') = 0 := by linarith
    rcases mul_eq_zero.mp this with h | h
    · exact absurd h hq
    · linarith
  have z1 : ∑ k ∈ Ico 1 D.n, D.z k ^ 2 * sig (D.B * D.a k * sq D (m t)) *
      (sq D (m t) * m' k - 2 * sq' D (m t) m' * m t k) = 0 := by
    refine sum_eq_zero fun k hk => ?_
    rw [hray k (by have := (mem_Ico.mp hk).1; omega) (mem_Ico.mp hk).2, hs']
    ring
  have z2 : (∑ k ∈ Ico 1 D.n, if D.nonpolar k then m t k else 0) = 0 :=
    sum_eq_zero fun k _ => by simp [hn k]
  rw [z1, z2, r, r]
  ring

end Verif.DH
