import Verif.Basic
import Mathlib.Analysis.SpecialFunctions.Log.Base
import Mathlib.Analysis.SpecialFunctions.Pow.Real
import Mathlib.Analysis.SpecialFunctions.Pow.Continuity
import Mathlib.Topology.Algebra.Order.Field
import Mathlib.Tactic.Common
import Mathlib.Tactic.SplitIfs
import Mathlib.Tactic.Linarith
import Mathlib.Tactic.Ring
import Mathlib.Tactic.FieldSimp
import Mathlib.Tactic.NormNum
import Mathlib.Tactic.Positivity

/-!
# C24: falloff rates (Falloff.h:157-179, Falloff.cpp:233-500)

Reals for doubles.  An infinite reciprocal temperature (`m_rt3`, `m_rt1`) is `none`, as is NaN in the
result of a broadening function.  Division by zero in the Troe form gives an infinite `f1` and hence
`lgf = 0`, as in IEEE arithmetic.  `SmallNumber` is 1e-300 (ct_defs.h).
-/

namespace Verif.Falloff

open Verif Filter Topology

/-- SmallNumber -/
noncomputable def small : ℝ := 1 / 10 ^ 300

theorem small_pos : 0 < small := by unfold small; positivity

/-! ### Rate expression -/

/-- Reduced pressure (Falloff.h:167). -/
noncomputable def redP (k0 kinf M : ℝ) : ℝ := M * k0 / (kinf + small)

/-- evalFromStruct (Falloff.h:157-179) for a broadening function `F` of the reduced pressure. -/
noncomputable def rate (chem : Bool) (F : ℝ → ℝ) (k0 kinf M : ℝ) : ℝ :=
  if chem then F (redP k0 kinf M) / (1 + redP k0 kinf M) * k0
  else redP k0 kinf M * (F (redP k0 kinf M) / (1 + redP k0 kinf M)) * kinf

/-! ### Troe (and the common function of Troe and Tsang) -/

/-- Coefficients of a Troe rate; `none` is infinity. -/
structure Troe where
  a : ℝ
  rt3 : Option ℝ
  rt1 : Option ℝ
  t2 : ℝ

/-- Falloff.cpp:241-251 -/
noncomputable def recip (c : ℝ) : Option ℝ := if |c| < small then none else some (1 / c)

/-- TroeRate::setFalloffCoeffs (Falloff.cpp:233-268) -/
noncomputable def setTroe : List ℝ → Outcome Troe
  | [c0, c1, c2] => .ok ⟨c0, recip c1, recip c2, 0⟩
  | [c0, c1, c2, c3] => .ok ⟨c0, recip c1, recip c2, c3⟩
  | _ => .throw

/-- `1.0 / m_rt3` with infinity -/
noncomputable def unrecip : Option ℝ → ℝ
  | none => 0
  | some r => 1 / r

/-- TroeRate::getFalloffCoeffs (Falloff.cpp:270-281) -/
noncomputable def getTroe (o : Troe) : List ℝ :=
  if |o.t2| < small then [o.a, unrecip o.rt3, unrecip o.rt1]
  else [o.a, unrecip o.rt3, unrecip o.rt1, o.t2]

/-- `exp(-T*rt)` with infinity (T positive). -/
noncomputable def expT (T : ℝ) : Option ℝ → ℝ
  | none => 0
  | some r => Real.exp (-T * r)

/-- F_cent (Falloff.cpp:285-288) -/
noncomputable def fcentTroe (o : Troe) (T : ℝ) : ℝ :=
  (1 - o.a) * expT T o.rt3 + o.a * expT T o.rt1 + if o.t2 ≠ 0 then Real.exp (-o.t2 / T) else 0

/-- TroeRate::updateTemp (Falloff.cpp:289), TsangRate::updateTemp (Falloff.cpp:488) -/
noncomputable def work (fcent : ℝ) : ℝ := Real.logb 10 (max fcent small)

/-- The exponent (Falloff.cpp:294-298, 493-497); none is NaN. -/
noncomputable def lgf (w pr : ℝ) : Option ℝ :=
  let u := Real.logb 10 (max pr small) + (-0.4 - 0.67 * w)
  let d := 0.75 - 1.27 * w - 0.14 * u
  if d = 0 then (if u = 0 then none else some 0) else some (w / (1 + u / d * (u / d)))

/-- TroeRate::F, TsangRate::F (Falloff.cpp:292-300, 491-499) -/
noncomputable def fTroe (w pr : ℝ) : Option ℝ := (lgf w pr).map fun e => (10 : ℝ) ^ e

/-! ### Tsang -/

/-- Coefficients of a Tsang rate. -/
structure Tsang where
  a : ℝ
  b : ℝ

/-- TsangRate::setFalloffCoeffs (Falloff.cpp:456-472) -/
def setTsang : List ℝ → Outcome Tsang
  | [c0] => .ok ⟨c0, 0⟩
  | [c0, c1] => .ok ⟨c0, c1⟩
  | _ => .throw

/-- TsangRate::getFalloffCoeffs (Falloff.cpp:474-483) -/
noncomputable def getTsang (o : Tsang) : List ℝ := if |o.b| < small then [o.a] else [o.a, o.b]

/-- F_cent (Falloff.cpp:487) -/
noncomputable def fcentTsang (o : Tsang) (T : ℝ) : ℝ := o.a + o.b * T

/-! ### SRI -/

/-- Coefficients of an SRI rate. -/
structure Sri where
  a : ℝ
  b : ℝ
  c : ℝ
  d : ℝ
  e : ℝ

/-- SriRate::setFalloffCoeffs (Falloff.cpp:347-375): the new object and whether it threw. -/
noncomputable def setSri (o : Sri) : List ℝ → Sri × Bool
  | [c0, c1, c2] => if c2 < 0 then (o, true) else (⟨c0, c1, c2, 1, 0⟩, false)
  | [c0, c1, c2, c3, c4] =>
    if c2 < 0 then (o, true)
    else if c3 < 0 then (⟨c0, c1, c2, o.d, o.e⟩, true)
    else (⟨c0, c1, c2, c3, c4⟩, false)
  | _ => (o, true)

/-- SriRate::getFalloffCoeffs (Falloff.cpp:377-389) -/
noncomputable def getSri (o : Sri) : List ℝ :=
  if o.e < small ∧ |o.e - 1| < small then [o.a, o.b, o.c] else [o.a, o.b, o.c, o.d, o.e]

/-- SriRate::updateTemp, `work[0]` (Falloff.cpp:393-396) -/
noncomputable def sriWork0 (o : Sri) (T : ℝ) : ℝ :=
  o.a * Real.exp (-o.b / T) + if o.c ≠ 0 then Real.exp (-T / o.c) else 0

/-- SriRate::updateTemp, `work[1]` (Falloff.cpp:397) -/
noncomputable def sriWork1 (o : Sri) (T : ℝ) : ℝ := o.d * T ^ o.e

/-- The exponent (Falloff.cpp:402-403) -/
noncomputable def sriExp (pr : ℝ) : ℝ :=
  1 / (1 + Real.logb 10 (max pr small) * Real.logb 10 (max pr small))

/-- SriRate::F (Falloff.cpp:400-405); a negative base gives NaN unless the exponent is one. -/
noncomputable def fSri (w0 w1 pr : ℝ) : Option ℝ :=
  if w0 < 0 then (if sriExp pr = 1 then some (w0 * w1) else none) else some (w0 ^ sriExp pr * w1)

/-! ### Bounds of the rate -/

/-- For every broadening function with values in [0, 1] the falloff rate lies between 0 and both
limits. -/
theorem rate_bounds (F : ℝ → ℝ) (hF : ∀ p, 0 ≤ p → 0 ≤ F p ∧ F p ≤ 1) {k0 kinf M : ℝ} (h0 : 0 ≤ k0)
    (hi : 0 ≤ kinf) (hM : 0 ≤ M) :
    0 ≤ rate false F k0 kinf M ∧ rate false F k0 kinf M ≤ min kinf (k0 * M) := by
  have hs := small_pos
  have hp : 0 ≤ redP k0 kinf M := by unfold redP; positivity
  obtain ⟨f0, f1⟩ := hF _ hp
  unfold rate
  simp only [Bool.false_eq_true, if_false]
  have hg0 : 0 ≤ F (redP k0 kinf M) / (1 + redP k0 kinf M) := by positivity
  have hg1 : F (redP k0 kinf M) / (1 + redP k0 kinf M) ≤ 1 / (1 + redP k0 kinf M) := by gcongr
  refine ⟨by positivity, le_min ?_ ?_⟩
  · have : redP k0 kinf M * (F (redP k0 kinf M) / (1 + redP k0 kinf M)) ≤ 1 := by
      calc _ ≤ redP k0 kinf M * (1 / (1 + redP k0 kinf M)) := by gcongr
        _ ≤ 1 := by rw [mul_one_div, div_le_one (by linarith)]; linarith
    nlinarith
  · have h1 : F (redP k0 kinf M) / (1 + redP k0 kinf M) ≤ 1 := by
      refine hg1.trans ?_
      rw [div_le_one (by linarith)]; linarith
    calc redP k0 kinf M * (F (redP k0 kinf M) / (1 + redP k0 kinf M)) * kinf
        ≤ redP k0 kinf M * 1 * kinf := by gcongr
      _ = k0 * M * (kinf / (kinf + small)) := by unfold redP; ring
      _ ≤ k0 * M * 1 := by
          gcongr
          rw [div_le_one (by linarith)]; linarith
      _ = k0 * M := mul_one _

/-- The same for chemically activated reactions: between 0, the low pressure limit and the high
pressure limit. -/
theorem rate_bounds_chem (F : ℝ → ℝ) (hF : ∀ p, 0 ≤ p → 0 ≤ F p ∧ F p ≤ 1) {k0 kinf M : ℝ} (h0 : 0 ≤ k0)
    (hi : 0 ≤ kinf) (hM : 0 ≤ M) :
    0 ≤ rate true F k0 kinf M ∧ rate true F k0 kinf M ≤ k0 ∧ rate true F k0 kinf M * M ≤ kinf + small := by
  have hs := small_pos
  have hp : 0 ≤ redP k0 kinf M := by unfold redP; positivity
  obtain ⟨f0, f1⟩ := hF _ hp
  unfold rate
  simp only [if_true]
  have hg0 : 0 ≤ F (redP k0 kinf M) / (1 + redP k0 kinf M) := by positivity
  have hg1 : F (redP k0 kinf M) / (1 + redP k0 kinf M) ≤ 1 / (1 + redP k0 kinf M) := by gcongr
  have h1 : F (redP k0 kinf M) / (1 + redP k0 kinf M) ≤ 1 := by
    refine hg1.trans ?_
    rw [div_le_one (by linarith)]; linarith
  refine ⟨by positivity, by nlinarith, ?_⟩
  have hpm : k0 * M = redP k0 kinf M * (kinf + small) := by
    unfold redP; field_simp
  calc F (redP k0 kinf M) / (1 + redP k0 kinf M) * k0 * M
      = F (redP k0 kinf M) / (1 + redP k0 kinf M) * (k0 * M) := by ring
    _ ≤ 1 / (1 + redP k0 kinf M) * (k0 * M) := by gcongr
    _ = redP k0 kinf M / (1 + redP k0 kinf M) * (kinf + small) := by rw [hpm]; ring
    _ ≤ 1 * (kinf + small) := by
        gcongr
        rw [div_le_one (by linarith)]; linarith
    _ = kinf + small := one_mul _

/-! ### Lindemann -/

/-- The Lindemann form. -/
theorem lindemann (k0 kinf M : ℝ) :
    rate false (fun _ => 1) k0 kinf M = kinf * (redP k0 kinf M / (1 + redP k0 kinf M)) ∧
    rate true (fun _ => 1) k0 kinf M = k0 * (1 / (1 + redP k0 kinf M)) := by
  unfold rate
  simp only [Bool.false_eq_true, if_false, if_true]
  constructor <;> ring

/-- High pressure limit of any broadening function with limit `L`. -/
theorem high_limit (F : ℝ → ℝ) {L : ℝ} (hF : Tendsto F atTop (𝓝 L)) {k0 kinf : ℝ} (h0 : 0 < k0)
    (hi : 0 < kinf) : Tendsto (fun M => rate false F k0 kinf M) atTop (𝓝 (L * kinf)) := by
  have hs := small_pos
  have hp : Tendsto (fun M => redP k0 kinf M) atTop atTop := by
    unfold redP
    have : (fun M : ℝ => M * k0 / (kinf + small)) = fun M => M * (k0 / (kinf + small)) := by
      funext M; ring
    rw [this]
    exact tendsto_id.atTop_mul_const (by positivity)
  have hq : Tendsto (fun p : ℝ => p / (1 + p)) atTop (𝓝 1) := by
    have h1 : Tendsto (fun p : ℝ => 1 - (1 + p)⁻¹) atTop (𝓝 (1 - 0)) :=
      tendsto_const_nhds.sub (tendsto_inv_atTop_zero.comp (tendsto_atTop_add_const_left _ 1 tendsto_id))
    rw [sub_zero] at h1
    refine h1.congr' ?_
    filter_upwards [eventually_gt_atTop 0] with p hp
    field_simp; ring
  have h2 : Tendsto (fun p : ℝ => p / (1 + p) * F p * kinf) atTop (𝓝 (1 * L * kinf)) :=
    (hq.mul hF).mul_const kinf
  rw [one_mul] at h2
  refine (h2.comp hp).congr fun M => ?_
  unfold rate
  simp only [Bool.false_eq_true, if_false, Function.comp_apply]
  ring

/-- Low pressure limit: the rate divided by the third-body concentration tends to `k0` times the
broadening at zero (up to the constant in the denominator). -/
theorem low_limit (F : ℝ → ℝ) {L : ℝ} (hF : Tendsto F (𝓝[>] 0) (𝓝 L)) {k0 kinf : ℝ} (h0 : 0 < k0)
    (hi : 0 < kinf) :
    Tendsto (fun M => rate false F k0 kinf M / M) (𝓝[>] 0) (𝓝 (L * k0 * (kinf / (kinf + small)))) := by
  have hs := small_pos
  have hc : 0 < k0 / (kinf + small) := by positivity
  have hp : Tendsto (fun M => redP k0 kinf M) (𝓝[>] 0) (𝓝[>] 0) := by
    refine tendsto_nhdsWithin_iff.mpr ⟨?_, ?_⟩
    · have : Tendsto (fun M : ℝ => M * (k0 / (kinf + small))) (𝓝[>] 0) (𝓝 (0 * (k0 / (kinf + small)))) :=
        (tendsto_id.mono_left nhdsWithin_le_nhds).mul_const _
      rw [zero_mul] at this
      refine this.congr fun M => ?_
      unfold redP; ring
    · filter_upwards [self_mem_nhdsWithin] with M hM
      have hM : 0 < M := hM
      show 0 < redP k0 kinf M
      unfold redP; positivity
  have hq : Tendsto (fun p : ℝ => F p / (1 + p)) (𝓝[>] 0) (𝓝 (L / (1 + 0))) := by
    refine hF.div ?_ (by norm_num)
    exact tendsto_const_nhds.add (tendsto_id.mono_left nhdsWithin_le_nhds)
  rw [add_zero, div_one] at hq
  have h2 := ((hq.comp hp).mul_const (k0 * (kinf / (kinf + small))))
  rw [← mul_assoc] at h2
  refine h2.congr' ?_
  filter_upwards [self_mem_nhdsWithin] with M hM
  have hM : 0 < M := hM
  unfold rate
  simp only [Bool.false_eq_true, if_false, Function.comp_apply]
  have : redP k0 kinf M * (F (redP k0 kinf M) / (1 + redP k0 kinf M)) * kinf / M
      = redP k0 kinf M / M * (F (redP k0 kinf M) / (1 + redP k0 kinf M)) * kinf := by ring
  rw [this]
  have h3 : redP k0 kinf M / M = k0 / (kinf + small) := by
    unfold redP; field_simp
  rw [h3]; ring

/-- Limits of the Lindemann form. -/
theorem lindemann_limits {k0 kinf : ℝ} (h0 : 0 < k0) (hi : 0 < kinf) :
    Tendsto (fun M => rate false (fun _ => 1) k0 kinf M) atTop (𝓝 kinf) ∧
    Tendsto (fun M => rate false (fun _ => 1) k0 kinf M / M) (𝓝[>] 0) (𝓝 (k0 * (kinf / (kinf + small)))) := by
  have h1 := high_limit (fun _ => 1) tendsto_const_nhds h0 hi
  have h2 := low_limit (fun _ => 1) tendsto_const_nhds h0 hi
  rw [one_mul] at h1
  rw [one_mul] at h2
  exact ⟨h1, h2⟩

/-! ### Troe and Tsang broadening -/

theorem work_nonpos {f : ℝ} (h : f ≤ 1) : work f ≤ 0 := by
  unfold work
  refine Real.logb_nonpos (by norm_num) (le_max_of_le_right small_pos.le) (max_le h ?_)
  unfold small
  rw [div_le_one (by positivity)]
  exact one_le_pow₀ (by norm_num)

theorem pow_work {f : ℝ} (h : small ≤ f) : (10 : ℝ) ^ work f = f := by
  unfold work
  rw [max_eq_left h]
  exact Real.rpow_logb (by norm_num) (by norm_num) (lt_of_lt_of_le small_pos h)

/-- For F_cent at most one the broadening is defined at every reduced pressure, and lies between
F_cent and one. -/
theorem troe_bounds {f : ℝ} (h : f ≤ 1) (pr : ℝ) :
    ∃ F, fTroe (work f) pr = some F ∧ 0 < F ∧ F ≤ 1 ∧ max f small ≤ F := by
  have hw := work_nonpos h
  have hmax : (10 : ℝ) ^ work f = max f small := by
    unfold work
    exact Real.rpow_logb (by norm_num) (by norm_num) (lt_max_of_lt_right small_pos)
  have key : ∃ e, lgf (work f) pr = some e ∧ work f ≤ e ∧ e ≤ 0 := by
    unfold lgf
    simp only
    generalize Real.logb 10 (max pr small) + (-0.4 - 0.67 * work f) = u
    split_ifs with h1 h2
    · exfalso; rw [h2] at h1; linarith
    · exact ⟨0, rfl, hw, le_rfl⟩
    · refine ⟨_, rfl, ?_, ?_⟩
      · have : 0 ≤ u / (0.75 - 1.27 * work f - 0.14 * u) * (u / (0.75 - 1.27 * work f - 0.14 * u)) :=
          mul_self_nonneg _
        rw [le_div_iff₀ (by linarith)]
        nlinarith
      · exact div_nonpos_of_nonpos_of_nonneg hw (by nlinarith [mul_self_nonneg (u / (0.75 - 1.27 * work f - 0.14 * u))])
  obtain ⟨e, he, h1, h2⟩ := key
  refine ⟨(10 : ℝ) ^ e, by unfold fTroe; rw [he]; rfl, by positivity, ?_, ?_⟩
  · exact Real.rpow_le_one_of_one_le_of_nonpos (by norm_num) h2
  · rw [← hmax]
    exact Real.rpow_le_rpow_of_exponent_le (by norm_num) h1

/-- Troe rates with F_cent ≤ 1 stay between the limits at every temperature. -/
theorem troe_rate_bounds (o : Troe) (T : ℝ) (h : fcentTroe o T ≤ 1) {k0 kinf M : ℝ} (h0 : 0 ≤ k0)
    (hi : 0 ≤ kinf) (hM : 0 ≤ M) :
    ∃ F, fTroe (work (fcentTroe o T)) (redP k0 kinf M) = some F ∧
      0 ≤ rate false (fun _ => F) k0 kinf M ∧ rate false (fun _ => F) k0 kinf M ≤ min kinf (k0 * M) := by
  obtain ⟨F, hF, h1, h2, _⟩ := troe_bounds h (redP k0 kinf M)
  exact ⟨F, hF, rate_bounds (fun _ => F) (fun _ _ => ⟨h1.le, h2⟩) h0 hi hM⟩

/-- F_cent of a three parameter Troe rate with 0 ≤ A ≤ 1 and non-negative temperatures is at most 1. -/
theorem fcent_le_one {c0 c1 c2 : ℝ} {o : Troe} (hset : setTroe [c0, c1, c2] = .ok o) (h0 : 0 ≤ c0)
    (h1 : c0 ≤ 1) (hc1 : 0 ≤ c1) (hc2 : 0 ≤ c2) {T : ℝ} (hT : 0 < T) :
    0 ≤ fcentTroe o T ∧ fcentTroe o T ≤ 1 := by
  simp only [setTroe, Outcome.ok.injEq] at hset
  subst hset
  have hexp : ∀ c : ℝ, 0 ≤ c → 0 ≤ expT T (recip c) ∧ expT T (recip c) ≤ 1 := by
    intro c hc
    unfold recip
    split_ifs with hh
    · simp [expT]
    · simp only [expT]
      refine ⟨(Real.exp_pos _).le, ?_⟩
      rw [Real.exp_le_one_iff]
      have : 0 ≤ T * (1 / c) := by positivity
      linarith
  obtain ⟨a1, a2⟩ := hexp c1 hc1
  obtain ⟨b1, b2⟩ := hexp c2 hc2
  unfold fcentTroe
  simp only [ne_eq, not_true_eq_false, if_false, add_zero]
  constructor
  · have := mul_nonneg (sub_nonneg.mpr h1) a1
    have := mul_nonneg h0 b1
    linarith
  · have e1 := mul_le_mul_of_nonneg_left a2 (sub_nonneg.mpr h1)
    have e2 := mul_le_mul_of_nonneg_left b2 h0
    linarith

/-- Tsang rates with F_cent ≤ 1. -/
theorem tsang_rate_bounds (o : Tsang) (T : ℝ) (h : fcentTsang o T ≤ 1) {k0 kinf M : ℝ} (h0 : 0 ≤ k0)
    (hi : 0 ≤ kinf) (hM : 0 ≤ M) :
    ∃ F, fTroe (work (fcentTsang o T)) (redP k0 kinf M) = some F ∧
      0 ≤ rate false (fun _ => F) k0 kinf M ∧ rate false (fun _ => F) k0 kinf M ≤ min kinf (k0 * M) := by
  obtain ⟨F, hF, h1, h2, _⟩ := troe_bounds h (redP k0 kinf M)
  exact ⟨F, hF, rate_bounds (fun _ => F) (fun _ _ => ⟨h1.le, h2⟩) h0 hi hM⟩

/-- The strongest broadening is reached where `log10 Pr = 0.4 + 0.67 log10 F_cent`: there it is F_cent. -/
theorem troe_centre {f pr : ℝ} (h1 : small ≤ f) (h2 : f ≤ 1) (hpr : small ≤ pr)
    (hc : Real.logb 10 pr = 0.4 + 0.67 * Real.logb 10 f) : fTroe (work f) pr = some f := by
  have hw := work_nonpos h2
  have hwf : work f = Real.logb 10 f := by unfold work; rw [max_eq_left h1]
  have hu : Real.logb 10 (max pr small) + (-0.4 - 0.67 * work f) = 0 := by
    rw [max_eq_left hpr, hc, hwf]; ring
  have : lgf (work f) pr = some (work f) := by
    unfold lgf
    simp only [hu]
    rw [if_neg (by intro hh; linarith)]
    simp
  unfold fTroe
  rw [this]
  simp only [Option.map_some, pow_work h1]

/-- **Finding.** The Troe (and Tsang) broadening does not tend to one at high pressure: its exponent
tends to log10(F_cent)·49/2549. -/
theorem troe_high_limit {f : ℝ} (h : f ≤ 1) :
    Tendsto (fun pr => (fTroe (work f) pr).getD 0) atTop (𝓝 ((10 : ℝ) ^ (work f * (49 / 2549)))) := by
  have hw := work_nonpos h
  generalize hwf : work f = w at *
  have hlog : Tendsto (fun pr : ℝ => Real.logb 10 (max pr small)) atTop atTop := by
    have h1 : Tendsto (fun pr : ℝ => Real.logb 10 pr) atTop atTop := Real.tendsto_logb_atTop (by norm_num)
    refine h1.congr' ?_
    filter_upwards [eventually_ge_atTop small] with p hp
    rw [max_eq_left hp]
  -- exponent as a function of u
  have hexp : Tendsto (fun u : ℝ => w / (1 + u / (0.75 - 1.27 * w - 0.14 * u) * (u / (0.75 - 1.27 * w - 0.14 * u))))
      atTop (𝓝 (w * (49 / 2549))) := by
    have hq : Tendsto (fun u : ℝ => u / (0.75 - 1.27 * w - 0.14 * u)) atTop (𝓝 (1 / (0 - 0.14))) := by
      have h1 : Tendsto (fun u : ℝ => 1 / ((0.75 - 1.27 * w) * u⁻¹ - 0.14)) atTop (𝓝 (1 / ((0.75 - 1.27 * w) * 0 - 0.14))) := by
        refine tendsto_const_nhds.div ?_ (by norm_num)
        exact (tendsto_inv_atTop_zero.const_mul _).sub_const _
      rw [mul_zero] at h1
      refine h1.congr' ?_
      filter_upwards [eventually_gt_atTop 0] with u hu
      have : 0.75 - 1.27 * w - 0.14 * u = u * ((0.75 - 1.27 * w) * u⁻¹ - 0.14) := by
        field_simp
      rw [this, div_mul_eq_div_div, div_self hu.ne']
    have h2 : Tendsto (fun u : ℝ => w / (1 + u / (0.75 - 1.27 * w - 0.14 * u) * (u / (0.75 - 1.27 * w - 0.14 * u))))
        atTop (𝓝 (w / (1 + 1 / (0 - 0.14) * (1 / (0 - 0.14))))) := by
      refine tendsto_const_nhds.div (tendsto_const_nhds.add (hq.mul hq)) (by norm_num)
    convert h2 using 2
    norm_num
    ring
  have hu : Tendsto (fun pr : ℝ => Real.logb 10 (max pr small) + (-0.4 - 0.67 * w)) atTop atTop :=
    tendsto_atTop_add_const_right _ _ hlog
  have hfin := hexp.comp hu
  have hpow : Tendsto (fun e : ℝ => (10 : ℝ) ^ e) (𝓝 (w * (49 / 2549))) (𝓝 ((10 : ℝ) ^ (w * (49 / 2549)))) :=
    (Real.continuousAt_const_rpow (by norm_num)).tendsto
  refine (hpow.comp hfin).congr' ?_
  -- eventually the denominator is not zero
  have hev := hu.eventually_gt_atTop ((0.75 - 1.27 * w) / 0.14)
  filter_upwards [hev] with pr hpr
  have hd : 0.75 - 1.27 * w - 0.14 * (Real.logb 10 (max pr small) + (-0.4 - 0.67 * w)) ≠ 0 := by
    rw [div_lt_iff₀ (by norm_num)] at hpr
    intro hh; linarith
  unfold fTroe lgf
  simp only [Function.comp_apply]
  rw [if_neg hd]
  rfl

/-- … so the rate of a Troe reaction with F_cent < 1 does not tend to the high pressure limit. -/
theorem troe_not_high_limit {f : ℝ} (h : f < 1) {k0 kinf : ℝ} (h0 : 0 < k0) (hi : 0 < kinf) :
    ¬ Tendsto (fun M => rate false (fun pr => (fTroe (work f) pr).getD 0) k0 kinf M) atTop (𝓝 kinf) := by
  intro hcon
  have h1 := high_limit _ (troe_high_limit h.le) h0 hi
  have := tendsto_nhds_unique h1 hcon
  have hw : work f < 0 := by
    unfold work
    refine Real.logb_neg (by norm_num) (lt_max_of_lt_right small_pos) (max_lt h ?_)
    unfold small
    rw [div_lt_one (by positivity)]
    exact one_lt_pow₀ (by norm_num) (by norm_num)
  have h2 : (10 : ℝ) ^ (work f * (49 / 2549)) < 1 :=
    Real.rpow_lt_one_of_one_lt_of_neg (by norm_num) (by nlinarith)
  nlinarith

/-! ### SRI broadening -/

theorem sriExp_bounds (pr : ℝ) : 0 < sriExp pr ∧ sriExp pr ≤ 1 := by
  unfold sriExp
  have := mul_self_nonneg (Real.logb 10 (max pr small))
  refine ⟨by positivity, ?_⟩
  rw [div_le_one (by linarith)]; linarith

/-- SRI broadening with bases in (0, 1] lies between 0 and one. -/
theorem sri_bounds {w0 w1 : ℝ} (h0 : 0 ≤ w0) (h1 : w0 ≤ 1) (h2 : 0 ≤ w1) (h3 : w1 ≤ 1) (pr : ℝ) :
    ∃ F, fSri w0 w1 pr = some F ∧ 0 ≤ F ∧ F ≤ 1 ∧ w0 * w1 ≤ F := by
  obtain ⟨e0, e1⟩ := sriExp_bounds pr
  refine ⟨w0 ^ sriExp pr * w1, by unfold fSri; rw [if_neg (not_lt.mpr h0)], ?_, ?_, ?_⟩
  · positivity
  · exact mul_le_one₀ (Real.rpow_le_one h0 h1 e0.le) h2 h3
  · have : w0 ≤ w0 ^ sriExp pr := by
      rcases h0.eq_or_lt with hh | hh
      · rw [← hh]; exact Real.rpow_nonneg le_rfl _
      · conv_lhs => rw [← Real.rpow_one w0]
        exact Real.rpow_le_rpow_of_exponent_ge hh h1 e1
    gcongr

/-- The three parameter SRI form tends to the high pressure limit. -/
theorem sri_high_limit {w0 : ℝ} (h0 : 0 < w0) (w1 : ℝ) {k0 kinf : ℝ} (hk : 0 < k0) (hi : 0 < kinf) :
    Tendsto (fun M => rate false (fun pr => (fSri w0 w1 pr).getD 0) k0 kinf M) atTop (𝓝 (w1 * kinf)) := by
  refine high_limit _ ?_ hk hi
  have hlog : Tendsto (fun pr : ℝ => Real.logb 10 (max pr small)) atTop atTop := by
    have h1 : Tendsto (fun pr : ℝ => Real.logb 10 pr) atTop atTop := Real.tendsto_logb_atTop (by norm_num)
    refine h1.congr' ?_
    filter_upwards [eventually_ge_atTop small] with p hp
    rw [max_eq_left hp]
  have hx : Tendsto sriExp atTop (𝓝 0) := by
    have : sriExp = fun pr => (1 + Real.logb 10 (max pr small) * Real.logb 10 (max pr small))⁻¹ := by
      funext pr; unfold sriExp; rw [one_div]
    rw [this]
    exact tendsto_inv_atTop_zero.comp (tendsto_atTop_add_const_left _ 1 (hlog.atTop_mul_atTop₀ hlog))
  have hp : Tendsto (fun e : ℝ => w0 ^ e) (𝓝 0) (𝓝 (w0 ^ (0 : ℝ))) :=
    (Real.continuousAt_const_rpow h0.ne').tendsto
  rw [Real.rpow_zero] at hp
  have := ((hp.comp hx).mul_const w1)
  rw [one_mul] at this
  refine this.congr fun pr => ?_
  unfold fSri
  rw [if_neg (not_lt.mpr h0.le)]
  rfl

/-! ### Documented forms -/

/-- The SRI form of the documentation (Falloff.h:394-403), for c > 0 and c = 0. -/
theorem sri_form (p : Sri) {a b c d e T pr : ℝ} (hc : 0 < c) (hd : 0 ≤ d) (hpr : small ≤ pr)
    (hbase : 0 ≤ a) :
    (let o := (setSri p [a, b, c, d, e]).1
     fSri (sriWork0 o T) (sriWork1 o T) pr = some
      ((a * Real.exp (-(b / T)) + Real.exp (-(T / c))) ^ (1 / (1 + Real.logb 10 pr ^ 2)) * (d * T ^ e))) ∧
    (let o := (setSri p [a, b, 0, d, e]).1
     fSri (sriWork0 o T) (sriWork1 o T) pr = some
      ((a * Real.exp (-(b / T))) ^ (1 / (1 + Real.logb 10 pr ^ 2)) * (d * T ^ e))) ∧
    (setSri p [a, b, c]).1 = (setSri p [a, b, c, 1, 0]).1 := by
  have hx : sriExp pr = 1 / (1 + Real.logb 10 pr ^ 2) := by
    unfold sriExp; rw [max_eq_left hpr, pow_two]
  refine ⟨?_, ?_, ?_⟩
  · simp only [setSri, if_neg (not_lt.mpr hc.le), if_neg (not_lt.mpr hd), sriWork0, sriWork1, fSri, hx]
    rw [if_pos hc.ne', if_neg (not_lt.mpr (by positivity)), neg_div, neg_div]
  · simp only [setSri, lt_irrefl, if_false, if_neg (not_lt.mpr hd), sriWork0, sriWork1, fSri, hx]
    simp only [ne_eq, not_true_eq_false, if_false, add_zero]
    rw [if_neg (not_lt.mpr (by positivity)), neg_div]
  · simp only [setSri, if_neg (not_lt.mpr hc.le)]
    rw [if_neg (by norm_num)]

/-- F_cent of the documentation for Troe rates with temperatures of at least 1e-300
(Falloff.h:291-292). -/
theorem troe_fcent (A T3 T1 T2 T : ℝ) (h3 : small ≤ |T3|) (h1 : small ≤ |T1|) (h2 : T2 ≠ 0) :
    (∃ o, setTroe [A, T3, T1] = .ok o ∧
      fcentTroe o T = (1 - A) * Real.exp (-T / T3) + A * Real.exp (-T / T1)) ∧
    (∃ o, setTroe [A, T3, T1, T2] = .ok o ∧
      fcentTroe o T = (1 - A) * Real.exp (-T / T3) + A * Real.exp (-T / T1) + Real.exp (-T2 / T)) := by
  have hr : ∀ c : ℝ, small ≤ |c| → expT T (recip c) = Real.exp (-T / c) := by
    intro c hc
    unfold recip
    rw [if_neg (not_lt.mpr hc)]
    simp only [expT, mul_one_div]
  refine ⟨⟨_, rfl, ?_⟩, ⟨_, rfl, ?_⟩⟩
  · simp only [fcentTroe, hr _ h3, hr _ h1, ne_eq, not_true_eq_false, if_false, add_zero]
  · simp only [fcentTroe, hr _ h3, hr _ h1]
    rw [if_pos h2]

/-- The Troe function of the documentation (Falloff.h:286-305) where it is defined. -/
theorem troe_form {f pr : ℝ} (hf : small ≤ f) (hpr : small ≤ pr)
    (hd : (0.75 - 1.27 * Real.logb 10 f) - 0.14 * (Real.logb 10 pr + (-0.4 - 0.67 * Real.logb 10 f)) ≠ 0) :
    ∃ F, fTroe (work f) pr = some F ∧
      Real.logb 10 F = Real.logb 10 f / (1 + ((Real.logb 10 pr + (-0.4 - 0.67 * Real.logb 10 f)) /
        ((0.75 - 1.27 * Real.logb 10 f) - 0.14 * (Real.logb 10 pr + (-0.4 - 0.67 * Real.logb 10 f)))) ^ 2) := by
  have hwf : work f = Real.logb 10 f := by unfold work; rw [max_eq_left hf]
  refine ⟨_, by unfold fTroe lgf; simp only [hwf, max_eq_left hpr]; rw [if_neg hd]; rfl, ?_⟩
  rw [Real.logb_rpow (by norm_num) (by norm_num), pow_two]

/-- F_cent of the documentation for Tsang rates (Falloff.h:481). -/
theorem tsang_fcent (A B T : ℝ) :
    (∃ o, setTsang [A] = .ok o ∧ fcentTsang o T = A) ∧
    (∃ o, setTsang [A, B] = .ok o ∧ fcentTsang o T = A + B * T) := by
  refine ⟨⟨_, rfl, ?_⟩, ⟨_, rfl, ?_⟩⟩
  · simp [fcentTsang]
  · rfl

/-! ### Setters and getters -/

theorem recip_unrecip (c : ℝ) : recip (unrecip (recip c)) = recip c := by
  unfold recip
  by_cases h : |c| < small
  · rw [if_pos h]
    simp [unrecip, small_pos]
  · rw [if_neg h]
    simp only [unrecip, one_div, inv_inv]
    rw [if_neg h]

/-- Setting the coefficients read from a Troe rate gives the same rate, unless T2 is non-zero but
smaller than 1e-300. -/
theorem troe_set_get_partial {c : List ℝ} {o : Troe} (h : setTroe c = .ok o) (h2 : o.t2 = 0 ∨ small ≤ |o.t2|) :
    setTroe (getTroe o) = .ok o := by
  have key : ∀ c0 c1 c2 c3 : ℝ, (c3 = 0 ∨ small ≤ |c3|) →
      setTroe (getTroe ⟨c0, recip c1, recip c2, c3⟩) = .ok ⟨c0, recip c1, recip c2, c3⟩ := by
    intro c0 c1 c2 c3 h3
    unfold getTroe
    split_ifs with hs
    · simp only at hs
      have h0 : c3 = 0 := h3.resolve_right (not_le.mpr hs)
      simp only [setTroe, recip_unrecip, h0]
    · simp only [setTroe, recip_unrecip]
  rcases c with _ | ⟨c0, _ | ⟨c1, _ | ⟨c2, _ | ⟨c3, _ | ⟨c4, t⟩⟩⟩⟩⟩ <;>
    simp only [setTroe, Outcome.ok.injEq, reduceCtorEq] at h
  · subst h; exact key _ _ _ _ (Or.inl rfl)
  · subst h; exact key _ _ _ _ h2

/-- Reading the coefficients set on a Troe rate gives them back if no temperature is smaller than
1e-300 in magnitude (zero allowed for T3 and T1). -/
theorem troe_get_set_partial {c0 c1 c2 : ℝ} (h1 : c1 = 0 ∨ small ≤ |c1|) (h2 : c2 = 0 ∨ small ≤ |c2|) :
    (∃ o, setTroe [c0, c1, c2] = .ok o ∧ getTroe o = [c0, c1, c2]) ∧
    ∀ c3, small ≤ |c3| → ∃ o, setTroe [c0, c1, c2, c3] = .ok o ∧ getTroe o = [c0, c1, c2, c3] := by
  have hr : ∀ c : ℝ, (c = 0 ∨ small ≤ |c|) → unrecip (recip c) = c := by
    intro c hc
    unfold recip
    rcases hc with rfl | hc
    · simp [unrecip, small_pos]
    · rw [if_neg (not_lt.mpr hc)]; simp [unrecip]
  refine ⟨⟨_, rfl, ?_⟩, fun c3 h3 => ⟨_, rfl, ?_⟩⟩
  · unfold getTroe
    simp [small_pos, hr _ h1, hr _ h2]
  · unfold getTroe
    rw [if_neg (by simpa using h3)]
    simp [hr _ h1, hr _ h2]

/-- **Finding.** A non-zero T2 below 1e-300 is announced as omitted, is used in evaluation, and is
lost when the coefficients are read and set again: F_cent changes. -/
theorem troe_tiny_t2 (a T : ℝ) : ∃ o o', setTroe [a, 1, 1, small / 2] = .ok o ∧
    setTroe (getTroe o) = .ok o' ∧ fcentTroe o T ≠ fcentTroe o' T := by
  have hs := small_pos
  refine ⟨⟨a, recip 1, recip 1, small / 2⟩, ⟨a, recip 1, recip 1, 0⟩, rfl, ?_, ?_⟩
  · unfold getTroe
    rw [if_pos (by rw [abs_of_pos (by simpa using hs)]; simp only; linarith)]
    simp only [setTroe, recip_unrecip]
  · unfold fcentTroe
    simp only [ne_eq, not_true_eq_false, if_false, add_zero]
    rw [if_pos (by intro hh; linarith)]
    intro hcon
    have := Real.exp_pos (-(small / 2) / T)
    linarith

/-- Setters accept exactly the documented numbers of coefficients. -/
theorem troe_set_iff (c : List ℝ) : setTroe c = .throw ↔ c.length ≠ 3 ∧ c.length ≠ 4 := by
  rcases c with _ | ⟨c0, _ | ⟨c1, _ | ⟨c2, _ | ⟨c3, _ | ⟨c4, t⟩⟩⟩⟩⟩ <;> simp [setTroe]

theorem tsang_set_iff (c : List ℝ) : setTsang c = .throw ↔ c.length ≠ 1 ∧ c.length ≠ 2 := by
  rcases c with _ | ⟨c0, _ | ⟨c1, _ | ⟨c2, t⟩⟩⟩ <;> simp [setTsang]

/-- Tsang round trip, unless B is non-zero but below 1e-300. -/
theorem tsang_set_get_partial (o : Tsang) (h : o.b = 0 ∨ small ≤ |o.b|) : setTsang (getTsang o) = .ok o := by
  unfold getTsang
  split_ifs with hs
  · have h0 : o.b = 0 := h.resolve_right (not_le.mpr hs)
    cases o; simp only [setTsang] at *; rw [h0]
  · rfl

/-- **Finding.** The condition selecting the three coefficient form of `SriRate::getFalloffCoeffs` is
never true (`m_e` is compared instead of `m_d`): five coefficients are always returned. -/
theorem sri_get_five (o : Sri) : getSri o = [o.a, o.b, o.c, o.d, o.e] := by
  unfold getSri
  rw [if_neg]
  rintro ⟨h1, h2⟩
  have hs : small < 1 / 2 := by
    unfold small
    rw [div_lt_div_iff_of_pos_left (by norm_num) (by positivity) (by norm_num)]
    calc (2 : ℝ) < 10 ^ 1 := by norm_num
      _ ≤ 10 ^ 300 := pow_le_pow_right₀ (by norm_num) (by norm_num)
  have := (abs_lt.mp h2).1
  linarith

/-- Setting the coefficients read from an SRI rate gives the same rate (for c, d ≥ 0, as accepted by
the setter). -/
theorem sri_set_get (o p : Sri) (hc : 0 ≤ o.c) (hd : 0 ≤ o.d) : setSri p (getSri o) = (o, false) := by
  rw [sri_get_five]
  simp only [setSri]
  rw [if_neg (not_lt.mpr hc), if_neg (not_lt.mpr hd)]

/-- Objects accepted by the setter have non-negative c and d. -/
theorem sri_set_ok {p : Sri} {c : List ℝ} {o : Sri} (h : setSri p c = (o, false)) : 0 ≤ o.c ∧ 0 ≤ o.d := by
  unfold setSri at h
  split at h
  · split_ifs at h with h1
    · simp at h
    · simp only [Prod.mk.injEq, and_true] at h
      subst h
      exact ⟨not_lt.mp h1, zero_le_one⟩
  · split_ifs at h with h1 h2
    · simp at h
    · simp at h
    · simp only [Prod.mk.injEq, and_true] at h
      subst h
      exact ⟨not_lt.mp h1, not_lt.mp h2⟩
  · simp at h

/-- A throwing setter leaves the object unchanged, if the failing coefficient is not `d`. -/
theorem sri_throw_partial {p o : Sri} {c : List ℝ} (h : setSri p c = (o, true))
    (hd : ∀ c0 c1 c2 c3 c4, c = [c0, c1, c2, c3, c4] → 0 ≤ c3) : o = p := by
  unfold setSri at h
  split at h
  · split_ifs at h with h1
    · simp only [Prod.mk.injEq, and_true] at h; exact h.symm
    · simp at h
  · split_ifs at h with h1 h2
    · simp only [Prod.mk.injEq, and_true] at h; exact h.symm
    · exact absurd h2 (not_lt.mpr (hd _ _ _ _ _ rfl))
    · simp at h
  · simp only [Prod.mk.injEq, and_true] at h; exact h.symm

/-- **Finding.** With a negative `d` the setter throws after a, b and c were replaced. -/
theorem sri_throw_changes (p : Sri) (a b : ℝ) : setSri p [a, b, 1, -1, 0] = (⟨a, b, 1, p.d, p.e⟩, true) := by
  simp only [setSri]
  rw [if_neg (by norm_num), if_pos (by norm_num)]

/-! ### Examples -/

/-- Hypotheses of `rate_bounds` hold for the Lindemann form, with a rate strictly between. -/
example : rate false (fun _ => 1) 1 1 1 = 1 / (2 + small) := by
  have := small_pos
  unfold rate redP
  simp only [Bool.false_eq_true, if_false]
  field_simp
  ring

/-- F_cent ≤ 1 in `troe_rate_bounds` for a three parameter set. -/
example : ∃ o, setTroe [0.5, 100, 1000] = .ok o ∧ fcentTroe o 300 ≤ 1 :=
  ⟨_, rfl, (fcent_le_one rfl (by norm_num) (by norm_num) (by norm_num) (by norm_num) (by norm_num)).2⟩

/-- … but the bound is needed: with A = 2 and T3 tiny, F_cent exceeds one. -/
example : ∃ o, setTroe [2, 0, 1000] = .ok o ∧ 1 < fcentTroe o 1 := by
  refine ⟨_, rfl, ?_⟩
  unfold fcentTroe
  have h0 : recip 0 = none := by simp [recip, small_pos]
  have h1 : recip 1000 = some (1 / 1000) := by
    unfold recip
    rw [if_neg]
    rw [not_lt, abs_of_pos (by norm_num)]
    unfold small
    rw [div_le_iff₀ (by positivity)]
    have : (1 : ℝ) ≤ 10 ^ 300 := one_le_pow₀ (by norm_num)
    generalize (10 : ℝ) ^ 300 = z at *
    linarith
  rw [h0, h1]
  simp only [expT, ne_eq, not_true_eq_false, if_false, mul_zero, zero_add, add_zero]
  have := Real.add_one_le_exp (-1 * (1 / 1000 : ℝ))
  linarith

example : setTroe [1, 2] = .throw := (troe_set_iff _).mpr (by simp)

end Verif.Falloff
