import Mathlib.Data.Real.Basic
import Mathlib.Data.Nat.Factorial.Basic
import Mathlib.Algebra.Order.Archimedean.Real.Basic
import Mathlib.Analysis.SpecificLimits.Basic
import Mathlib.Topology.Algebra.Monoid
import Mathlib.Tactic.Ring
import Mathlib.Tactic.NormNum
import Mathlib.Tactic.Linarith
import Mathlib.Tactic.FieldSimp
import Mathlib.Tactic.Positivity
import Verif.Basic

/-!
# Advancing a reactor network with limits (C51)

Modelled: `ReactorNet::advance(double, bool)` (src/zeroD/ReactorNet.cpp:186-239), `getEstimate`
(253-274), `hasAdvanceLimits`, `getAdvanceLimits`, `setAdvanceLimits` (456-482),
`Reactor::setAdvanceLimits`, `getAdvanceLimits`, `setAdvanceLimit` (src/zeroD/Reactor.cpp:534-591),
`CVodesIntegrator::integrate` (src/numerics/CVodesIntegrator.cpp:482-522: only the check of the
requested time).

Oracle: the internal steps of CVODE.  Real numbers instead of doubles.
-/

open Finset

namespace Verif.ZeroD.Advance

/-! ## The estimate and the choice of the step -/

/-- The integrator as the network sees it: current time (`m_time` of `ReactorNet` and of
`CVodesIntegrator`, which agree between calls), order of the last step, number of unknowns,
solution, and derivatives `dky n j` of order `n` at the current time. -/
structure Integ where
  time : ℝ
  order : ℕ
  nv : ℕ
  y : ℕ → ℝ
  dky : ℕ → ℕ → ℝ

/-- Loop over `n` of `getEstimate` (ReactorNet.cpp:267-273); `m` more terms, next `n + 1`. -/
noncomputable def taylor (dky : ℕ → ℕ → ℝ) (deltat : ℝ) : ℕ → ℕ → ℝ → (ℕ → ℝ) → ℕ → ℝ
  | 0, _, _, yest => yest
  | m + 1, n, factor, yest =>
    let factor := factor * (deltat / ((n + 1 : ℕ) : ℝ))
    taylor dky deltat m (n + 1) factor fun j => yest j + factor * dky (n + 1) j

/-- `ReactorNet::getEstimate(time, k, yest)` (ReactorNet.cpp:253-274). -/
noncomputable def estimate (I : Integ) (time : ℝ) : ℕ → ℝ :=
  taylor I.dky (time - I.time) I.order 0 1 I.y

open Classical in
/-- Loop over the components (ReactorNet.cpp:219-231). -/
noncomputable def exceeded (I : Integ) (lim : ℕ → ℝ) (t : ℝ) : Bool :=
  (List.range I.nv).any fun j =>
    decide (lim j > 0) && decide (|estimate I t j - I.y j| > lim j)

/-- The loop of `advance` (ReactorNet.cpp:218-236); `none`: more than `fuel` passes. -/
noncomputable def halve (I : Integ) (lim : ℕ → ℝ) : ℕ → ℝ → Option ℝ
  | 0, _ => none
  | fuel + 1, t =>
    if exceeded I lim t then halve I lim fuel (1 / 2 * (I.time + t)) else some t

/-- Steps taken until a derivative is available (ReactorNet.cpp:209-211). -/
def ensure (step : Integ → Integ) : ℕ → Integ → Option Integ
  | 0, _ => none
  | fuel + 1, I => if I.order < 1 then ensure step fuel (step I) else some I

/-- `ReactorNet::advance(t)` (ReactorNet.cpp:174-184): throws if the time has passed
(CVodesIntegrator.cpp:484-491), otherwise ends at `t`. -/
noncomputable def advanceTo (I : Integ) (t : ℝ) : Outcome ℝ :=
  if t < I.time then .throw else .ok t

/-- `ReactorNet::advance(time, applylimit)` (ReactorNet.cpp:186-239); `lim = none` if no reactor
has limits.  The result is the time reached. -/
noncomputable def advance (step : Integ → Integ) (fuel : ℕ) (I : Integ) (lim : Option (ℕ → ℝ))
    (applylimit : Bool) (time : ℝ) : Option (Outcome ℝ) :=
  if applylimit = false then some (advanceTo I time)
  else
    match lim with
    | none => some (advanceTo I time)
    | some l =>
      match ensure step fuel I with
      | none => none
      | some I' =>
        match halve I' l fuel time with
        | none => none
        | some t => some (advanceTo I' t)

/-- The estimate is the Taylor polynomial of the order of the last step. -/
theorem estimate_eq (I : Integ) (t : ℝ) (j : ℕ) :
    estimate I t j = I.y j + ∑ n ∈ range I.order,
      (t - I.time) ^ (n + 1) / (Nat.factorial (n + 1) : ℝ) * I.dky (n + 1) j := by
  have h : ∀ (m n : ℕ) (yest : ℕ → ℝ),
      taylor I.dky (t - I.time) m n ((t - I.time) ^ n / (Nat.factorial n : ℝ)) yest j =
        yest j + ∑ i ∈ range m, (t - I.time) ^ (n + i + 1) / (Nat.factorial (n + i + 1) : ℝ) *
          I.dky (n + i + 1) j := by
    intro m
    induction m with
    | zero => intro n yest; simp [taylor]
    | succ m ih =>
      intro n yest
      have e : (t - I.time) ^ n / (Nat.factorial n : ℝ) * ((t - I.time) / ((n + 1 : ℕ) : ℝ)) =
          (t - I.time) ^ (n + 1) / (Nat.factorial (n + 1) : ℝ) := by
        have h1 : (Nat.factorial n : ℝ) ≠ 0 := by exact_mod_cast Nat.factorial_ne_zero n
        have h2 : ((n + 1 : ℕ) : ℝ) ≠ 0 := by exact_mod_cast Nat.succ_ne_zero n
        rw [Nat.factorial_succ, Nat.cast_mul, pow_succ]
        field_simp
      rw [taylor]
      simp only [e]
      rw [ih, sum_range_succ']
      simp only [add_zero]
      have : ∀ i, n + 1 + i + 1 = n + (i + 1) + 1 := fun i => by omega
      simp only [this]
      ring
  have := h I.order 0 I.y
  simp only [pow_zero, Nat.factorial_zero, Nat.cast_one, div_one, Nat.zero_add] at this
  exact this

theorem exceeded_false (I : Integ) (lim : ℕ → ℝ) (t : ℝ) :
    exceeded I lim t = false ↔ ∀ j < I.nv, 0 < lim j → |estimate I t j - I.y j| ≤ lim j := by
  unfold exceeded
  rw [List.any_eq_false]
  constructor
  · intro h j hj hl
    have := h j (List.mem_range.2 hj)
    simp only [Bool.and_eq_true, decide_eq_true_eq, not_and, not_lt] at this
    exact this hl
  · intro h j hj
    simp only [Bool.and_eq_true, decide_eq_true_eq, not_and, not_lt]
    exact h j (List.mem_range.1 hj)

/-- The candidate times. -/
noncomputable def candidate (I : Integ) (time : ℝ) (j : ℕ) : ℝ :=
  I.time + (time - I.time) / 2 ^ j

theorem candidate_half (I : Integ) (time : ℝ) (j : ℕ) :
    1 / 2 * (I.time + candidate I time j) = candidate I time (j + 1) := by
  rw [candidate, candidate, pow_succ]
  field_simp
  ring

/-- The loop stops at the first candidate that exceeds no limit. -/
theorem halve_spec (I : Integ) (lim : ℕ → ℝ) (fuel : ℕ) (time t : ℝ) :
    halve I lim fuel time = some t ↔ ∃ j < fuel, t = candidate I time j ∧
      exceeded I lim (candidate I time j) = false ∧
      ∀ i < j, exceeded I lim (candidate I time i) = true := by
  have h : ∀ fuel n, halve I lim fuel (candidate I time n) = some t ↔
      ∃ j < fuel, t = candidate I time (n + j) ∧
        exceeded I lim (candidate I time (n + j)) = false ∧
        ∀ i < j, exceeded I lim (candidate I time (n + i)) = true := by
    intro fuel
    induction fuel with
    | zero => intro n; simp [halve]
    | succ fuel ih =>
      intro n
      rw [halve]
      by_cases he : exceeded I lim (candidate I time n) = true
      · rw [if_pos he, candidate_half, ih]
        constructor
        · rintro ⟨j, hj, ht, hf, hi⟩
          have e : n + 1 + j = n + (j + 1) := by omega
          rw [e] at ht hf
          refine ⟨j + 1, by omega, ht, hf, fun i hij => ?_⟩
          cases i with
          | zero => exact he
          | succ i =>
            have := hi i (by omega)
            have e : n + 1 + i = n + (i + 1) := by omega
            rwa [e] at this
        · rintro ⟨j, hj, ht, hf, hi⟩
          cases j with
          | zero => rw [Nat.add_zero] at hf; rw [he] at hf; exact absurd hf (by simp)
          | succ j =>
            have e : n + 1 + j = n + (j + 1) := by omega
            refine ⟨j, by omega, by rw [e]; exact ht, by rw [e]; exact hf, fun i hij => ?_⟩
            have := hi (i + 1) (by omega)
            have e : n + 1 + i = n + (i + 1) := by omega
            rwa [e]
      · rw [if_neg he]
        rw [Bool.not_eq_true] at he
        constructor
        · intro h
          simp only [Option.some.injEq] at h
          exact ⟨0, by omega, h.symm, he, fun i hi => absurd hi (by omega)⟩
        · rintro ⟨j, hj, ht, hf, hi⟩
          cases j with
          | zero => rw [ht]; rfl
          | succ j =>
            have := hi 0 (by omega)
            rw [Nat.add_zero, he] at this
            exact absurd this (by simp)
  have e : candidate I time 0 = time := by simp [candidate]
  have := h fuel 0
  rw [e] at this
  simpa using this

theorem estimate_cont (I : Integ) (j : ℕ) : Continuous fun t => estimate I t j := by
  simp only [estimate_eq]
  refine continuous_const.add (continuous_finsetSum _ fun n _ => ?_)
  exact (((continuous_id.sub continuous_const).pow _).div_const _).mul_const _

theorem estimate_now (I : Integ) (j : ℕ) : estimate I I.time j = I.y j := by
  rw [estimate_eq]
  simp

/-- Some candidate exceeds no limit. -/
theorem exists_candidate (I : Integ) (lim : ℕ → ℝ) (time : ℝ) :
    ∃ j, exceeded I lim (candidate I time j) = false := by
  have hc : Filter.Tendsto (fun j : ℕ => candidate I time j) Filter.atTop (nhds I.time) := by
    have h0 : Filter.Tendsto (fun j : ℕ => (time - I.time) * (1 / 2 : ℝ) ^ j) Filter.atTop
        (nhds ((time - I.time) * 0)) :=
      (tendsto_pow_atTop_nhds_zero_of_lt_one (by norm_num) (by norm_num)).const_mul _
    have h1 := (tendsto_const_nhds (x := I.time)).add h0
    simp only [mul_zero, add_zero] at h1
    refine h1.congr fun j => ?_
    rw [candidate, div_pow, one_pow]
    ring
  have hj : ∀ k < I.nv, ∀ᶠ j : ℕ in Filter.atTop,
      0 < lim k → |estimate I (candidate I time j) k - I.y k| ≤ lim k := by
    intro k _
    by_cases hl : 0 < lim k
    · have h2 : Filter.Tendsto (fun j : ℕ => |estimate I (candidate I time j) k - I.y k|)
          Filter.atTop (nhds |estimate I I.time k - I.y k|) :=
        (((estimate_cont I k).tendsto _).comp hc |>.sub_const _).abs
      rw [estimate_now, sub_self, abs_zero] at h2
      filter_upwards [h2.eventually (gt_mem_nhds hl)] with j h _
      exact le_of_lt h
    · exact Filter.Eventually.of_forall fun _ h => absurd h hl
  have : ∀ᶠ j : ℕ in Filter.atTop, ∀ k ∈ Finset.range I.nv,
      0 < lim k → |estimate I (candidate I time j) k - I.y k| ≤ lim k := by
    rw [Filter.eventually_all_finset]
    intro k hk
    exact hj k (Finset.mem_range.1 hk)
  obtain ⟨j, h⟩ := this.exists
  exact ⟨j, (exceeded_false _ _ _).2 fun k hk => h k (Finset.mem_range.2 hk)⟩

/-- The loop ends for every target, whatever the limits and derivatives. -/
theorem halve_ends (I : Integ) (lim : ℕ → ℝ) (time : ℝ) :
    ∃ fuel t, ∀ f ≥ fuel, halve I lim f time = some t := by
  classical
  have hex := exists_candidate I lim time
  refine ⟨Nat.find hex + 1, candidate I time (Nat.find hex), fun f hf => ?_⟩
  rw [halve_spec]
  refine ⟨Nat.find hex, by omega, rfl, Nat.find_spec hex, fun i hi => ?_⟩
  have := Nat.find_min hex hi
  rwa [Bool.not_eq_false] at this

/-- C51: with a derivative available and limits set, `advance` to a later time ends, at the largest
of the times `now + (time - now)/2^j` for which the predicted change of every component with a
positive limit stays within its limit. -/
theorem advance_spec (step : Integ → Integ) (I : Integ) (lim : ℕ → ℝ) (time : ℝ)
    (ho : 1 ≤ I.order) (ht : I.time ≤ time) :
    ∃ fuel j, (∀ f ≥ fuel, advance step f I (some lim) true time =
        some (.ok (I.time + (time - I.time) / 2 ^ j))) ∧
      (∀ k < I.nv, 0 < lim k →
        |estimate I (I.time + (time - I.time) / 2 ^ j) k - I.y k| ≤ lim k) ∧
      ∀ i < j, ∃ k < I.nv, 0 < lim k ∧
        lim k < |estimate I (I.time + (time - I.time) / 2 ^ i) k - I.y k| := by
  obtain ⟨fuel, t, hf⟩ := halve_ends I lim time
  obtain ⟨j, _, hj, hx, hi⟩ := (halve_spec I lim fuel time t).1 (hf fuel le_rfl)
  refine ⟨fuel + 1, j, fun f hfu => ?_, (exceeded_false _ _ _).1 hx, fun i hij => ?_⟩
  · have he : ensure step f I = some I := by
      cases f with
      | zero => omega
      | succ f => rw [ensure, if_neg (by omega)]
    have hnot : ¬ t < I.time := by
      rw [hj, candidate, not_lt]
      have : 0 ≤ (time - I.time) / 2 ^ j := div_nonneg (by linarith) (by positivity)
      linarith
    simp only [advance]
    rw [if_neg (by simp), he]
    simp only
    rw [hf f (by omega)]
    simp only [advanceTo]
    rw [if_neg hnot, hj, candidate]
  · by_contra hcon
    push Not at hcon
    have := (exceeded_false I lim (candidate I time i)).2 hcon
    rw [hi i hij] at this
    exact absurd this (by simp)

/-- The time reached lies between the present and the target. -/
theorem advance_between (step : Integ → Integ) (f : ℕ) (I : Integ) (lim : Option (ℕ → ℝ))
    (a : Bool) (time t : ℝ) (ho : 1 ≤ I.order) (ht : I.time < time)
    (h : advance step f I lim a time = some (.ok t)) : I.time < t ∧ t ≤ time := by
  have hfull : advanceTo I time = .ok t → I.time < t ∧ t ≤ time := by
    unfold advanceTo
    intro h
    rw [if_neg (by linarith)] at h
    simp only [Outcome.ok.injEq] at h
    exact ⟨by linarith, by linarith⟩
  unfold advance at h
  split at h
  · exact hfull (by simpa using h)
  · split at h
    · exact hfull (by simpa using h)
    · rename_i l
      split at h
      · simp at h
      · rename_i I' he
        have hI : I' = I := by
          cases f with
          | zero => simp [ensure] at he
          | succ f =>
            rw [ensure, if_neg (by omega)] at he
            simpa using he.symm
        subst hI
        split at h
        · simp at h
        · rename_i t' hh
          obtain ⟨j, _, hj, _, _⟩ := (halve_spec I' l f time t').1 hh
          have hpos : 0 < (time - I'.time) / 2 ^ j := div_pos (by linarith) (by positivity)
          have hle : (time - I'.time) / 2 ^ j ≤ time - I'.time :=
            div_le_self (by linarith) (one_le_pow₀ (by norm_num))
          rw [candidate] at hj
          unfold advanceTo at h
          rw [if_neg (by linarith)] at h
          simp only [Option.some.injEq, Outcome.ok.injEq] at h
          exact ⟨by linarith, by linarith⟩

/-- Limits that are not positive limit nothing. -/
theorem no_limit (step : Integ → Integ) (I : Integ) (lim : ℕ → ℝ) (time : ℝ)
    (ho : 1 ≤ I.order) (ht : I.time ≤ time) (hl : ∀ k < I.nv, lim k ≤ 0) (f : ℕ) :
    advance step (f + 1) I (some lim) true time = some (.ok time) := by
  have hx : exceeded I lim time = false :=
    (exceeded_false _ _ _).2 fun k hk h => absurd h (not_lt.2 (hl k hk))
  simp only [advance, ensure]
  rw [if_neg (by simp), if_neg (by omega)]
  simp only [halve]
  rw [if_neg (by simp [hx])]
  simp only [advanceTo]
  rw [if_neg (by linarith)]

/-- Without limits, or if limits are not to be applied, the full step is taken. -/
theorem unlimited (step : Integ → Integ) (I : Integ) (lim : Option (ℕ → ℝ)) (a : Bool) (time : ℝ)
    (f : ℕ) (ht : I.time ≤ time) (h : a = false ∨ lim = none) :
    advance step f I lim a time = some (.ok time) := by
  have e : advanceTo I time = .ok time := by
    unfold advanceTo
    rw [if_neg (not_lt.2 ht)]
  unfold advance
  rcases h with rfl | rfl
  · rw [if_pos rfl, e]
  · simp only [e, ite_self]

/-- A target in the past is rejected. -/
theorem backwards (step : Integ → Integ) (I : Integ) (lim : ℕ → ℝ) (time : ℝ)
    (ho : 1 ≤ I.order) (ht : time < I.time) :
    ∃ fuel, ∀ f ≥ fuel, advance step f I (some lim) true time = some .throw := by
  obtain ⟨fuel, t, hf⟩ := halve_ends I lim time
  refine ⟨fuel + 1, fun f hfu => ?_⟩
  obtain ⟨j, _, hj, hx, hi⟩ := (halve_spec I lim fuel time t).1 (hf fuel le_rfl)
  have he : ensure step f I = some I := by
    cases f with
    | zero => omega
    | succ f => rw [ensure, if_neg (by omega)]
  have hlt : t < I.time := by
    rw [hj, candidate]
    have : (time - I.time) / 2 ^ j < 0 := div_neg_of_neg_of_pos (by linarith) (by positivity)
    linarith
  simp only [advance]
  rw [if_neg (by simp), he]
  simp only
  rw [hf f (by omega)]
  simp only [advanceTo]
  rw [if_pos hlt]

/-! ### Example and violation -/

/-- One unknown growing at rate 8, order 1, at time 1. -/
def exInteg : Integ := ⟨1, 1, 1, fun _ => 5, fun _ _ => 8⟩

theorem exEstimate (t : ℝ) : estimate exInteg t 0 = 5 + (t - 1) * 8 := by
  rw [estimate_eq]
  simp [exInteg]

/-- Target 2 with limit 3: the step is quartered. -/
example : advance id 3 exInteg (some fun _ => 3) true 2 = some (.ok (5 / 4)) := by
  have x0 : exceeded exInteg (fun _ => 3) 2 = true := by
    rw [← Bool.not_eq_false, exceeded_false]
    intro h
    have := h 0 (by decide) (by norm_num)
    rw [exEstimate] at this
    norm_num [exInteg] at this
  have x1 : exceeded exInteg (fun _ => 3) (3 / 2) = true := by
    rw [← Bool.not_eq_false, exceeded_false]
    intro h
    have := h 0 (by decide) (by norm_num)
    rw [exEstimate] at this
    norm_num [exInteg] at this
  have x2 : exceeded exInteg (fun _ => 3) (5 / 4) = false := by
    rw [exceeded_false]
    intro k hk _
    have : k = 0 := by simpa [exInteg] using hk
    subst this
    rw [exEstimate]
    norm_num [exInteg]
  have e1 : (1 : ℝ) / 2 * (exInteg.time + 2) = 3 / 2 := by norm_num [exInteg]
  have e2 : (1 : ℝ) / 2 * (exInteg.time + 3 / 2) = 5 / 4 := by norm_num [exInteg]
  have hh : halve exInteg (fun _ => 3) 3 2 = some (5 / 4) := by
    rw [halve, if_pos x0, e1, halve, if_pos x1, e2, halve, if_neg (by simp [x2])]
  have he : ensure id 3 exInteg = some exInteg := rfl
  simp only [advance]
  rw [if_neg (by simp), he]
  simp only [hh, advanceTo]
  rw [if_neg (by norm_num [exInteg])]

/-- The first call after (re)initialisation takes an internal step to have a derivative.  If this
step passes the target, `advance` throws although the target is ahead of the current time. -/
theorem overshoot_throws (step : Integ → Integ) (I : Integ) (lim : ℕ → ℝ) (time : ℝ)
    (ho : I.order = 0) (hs : 1 ≤ (step I).order) (hover : time < (step I).time) :
    ∃ fuel, ∀ f ≥ fuel, advance step f I (some lim) true time = some .throw := by
  obtain ⟨fuel, h⟩ := backwards step (step I) lim time hs hover
  refine ⟨fuel + 2, fun f hf => ?_⟩
  have h' := h f (by omega)
  obtain ⟨g, rfl⟩ : ∃ g, f = g + 2 := ⟨f - 2, by omega⟩
  have e : ensure step (g + 2) I = ensure step (g + 2) (step I) := by
    rw [ensure, if_pos (by omega), ensure, if_neg (by omega), ensure, if_neg (by omega)]
  simp only [advance] at h' ⊢
  rw [e]
  exact h'

/-- Target 0.5 ahead of the current time 0; the internal step reaches 1. -/
example : ∃ fuel, ∀ f ≥ fuel, advance (fun _ => exInteg) f ⟨0, 0, 1, fun _ => 5, fun _ _ => 8⟩
    (some fun _ => 3) true (1 / 2) = some .throw :=
  overshoot_throws _ _ _ _ rfl (le_refl 1) (by norm_num [exInteg])

/-! ## Setting and reading limits -/

/-- A reactor: `m_nv` and `m_advancelimits`. -/
structure Lim where
  nv : ℕ
  lim : List ℝ

open Classical in
/-- Reactor.cpp:542-546 and 586-590. -/
noncomputable def Lim.tidy (r : Lim) : Lim :=
  if r.lim.any fun v => decide (v > 0) then r else ⟨r.nv, []⟩

/-- `Reactor::setAdvanceLimits` (Reactor.cpp:534-547) of a reactor with contents. -/
noncomputable def Lim.setAll (r : Lim) (limits : ℕ → ℝ) : Lim :=
  Lim.tidy ⟨r.nv, (List.range r.nv).map limits⟩

/-- `Reactor::getAdvanceLimits` (Reactor.cpp:549-558) with `old` the part of the buffer beginning at
the reactor's first component; also whether the reactor has limits (Reactor.h:176-178). -/
def Lim.getAll (r : Lim) (old : List ℝ) : List ℝ × Bool :=
  if r.lim.isEmpty then (List.replicate r.nv (-1) ++ old.drop r.nv, false)
  else (r.lim ++ old.drop r.lim.length, true)

/-- `vector::resize(n, -1.0)`. -/
def resize (l : List ℝ) (n : ℕ) : List ℝ := l.take n ++ List.replicate (n - l.length) (-1)

/-- `Reactor::setAdvanceLimit` (Reactor.cpp:560-591): `k` the component found, `net` the value of
`m_nv` after the network has been initialised, if the reactor belongs to one.  Writing beyond the
end of the vector is undefined. -/
noncomputable def Lim.setOne (r : Lim) (k : Option ℕ) (net : Option ℕ) (limit : ℝ) : Outcome Lim :=
  match k with
  | none => .throw
  | some k =>
    if r.nv = 0 then
      match net with
      | none => .throw
      | some nv =>
        if k < nv then .ok (Lim.tidy ⟨nv, (resize r.lim nv).set k limit⟩) else .ub
    else if k > r.nv then .throw
    else if k < r.nv then .ok (Lim.tidy ⟨r.nv, (resize r.lim r.nv).set k limit⟩) else .ub

/-- `ReactorNet::getAdvanceLimits` (ReactorNet.cpp:475-482); `old` are the previous contents. -/
def netGet : List Lim → List ℝ → List ℝ × Bool
  | [], old => (old, false)
  | r :: l, old =>
    let a := r.getAll old
    let b := netGet l (a.1.drop r.nv)
    (a.1.take r.nv ++ b.1, a.2 || b.2)

/-- `ReactorNet::setAdvanceLimits` (ReactorNet.cpp:456-464). -/
noncomputable def netSet : List Lim → (ℕ → ℝ) → List Lim
  | [], _ => []
  | r :: l, limits => r.setAll limits :: netSet l fun j => limits (r.nv + j)

theorem getAll_setAll (r : Lim) (limits : ℕ → ℝ) (old : List ℝ) :
    (r.setAll limits).getAll old =
      if ∃ k < r.nv, 0 < limits k then ((List.range r.nv).map limits ++ old.drop r.nv, true)
      else (List.replicate r.nv (-1) ++ old.drop r.nv, false) := by
  unfold Lim.setAll Lim.tidy Lim.getAll
  by_cases h : ∃ k < r.nv, 0 < limits k
  · obtain ⟨k, hk, hl⟩ := h
    have hany : ((List.range r.nv).map limits).any (fun v => decide (v > 0)) = true := by
      rw [List.any_eq_true]
      exact ⟨limits k, List.mem_map.2 ⟨k, List.mem_range.2 hk, rfl⟩, by simpa using hl⟩
    have hex : ∃ k < r.nv, 0 < limits k := ⟨k, hk, hl⟩
    rw [if_pos hex]
    simp only [hany, if_true]
    have hne : ((List.range r.nv).map limits).isEmpty = false := by
      rw [List.isEmpty_eq_false_iff]
      intro e
      have := congrArg List.length e
      simp at this
      omega
    simp [hne]
  · rw [if_neg h]
    have hany : ((List.range r.nv).map limits).any (fun v => decide (v > 0)) = false := by
      rw [List.any_eq_false]
      intro v hv
      obtain ⟨k, hk, rfl⟩ := List.mem_map.1 hv
      push Not at h
      simpa using h k (List.mem_range.1 hk)
    simp only [hany]
    rfl

/-- Limits that are set are read back: of a reactor with a positive limit all of them, of a reactor
without, -1 for each component. -/
theorem limits_read_back (r : Lim) (limits : ℕ → ℝ) (old : List ℝ) (k : ℕ) (hk : k < r.nv) :
    ((r.setAll limits).getAll old).1[k]? =
      some (if ∃ i < r.nv, 0 < limits i then limits k else -1) := by
  rw [getAll_setAll]
  split
  · rw [List.getElem?_append_left (by simpa using hk)]
    simp [hk]
  · rw [List.getElem?_append_left (by simpa using hk)]
    simp [hk]

/-- Whether a component is limited, and by how much, is read back whatever the other limits. -/
theorem limit_effective (r : Lim) (limits : ℕ → ℝ) (old : List ℝ) (k : ℕ) (hk : k < r.nv) :
    ∃ v, ((r.setAll limits).getAll old).1[k]? = some v ∧ (0 < v ↔ 0 < limits k) ∧
      (0 < limits k → v = limits k) := by
  rw [limits_read_back r limits old k hk]
  refine ⟨_, rfl, ?_⟩
  split
  · exact ⟨Iff.rfl, fun _ => rfl⟩
  · rename_i h
    push Not at h
    have := h k hk
    exact ⟨⟨fun h => by linarith, fun h => by linarith⟩, fun h => by linarith⟩

/-- The vector of limits fits the reactor. -/
def Lim.Fits (r : Lim) : Prop := r.lim = [] ∨ r.lim.length = r.nv

theorem tidy_fits (r : Lim) (h : r.lim.length = r.nv) : r.tidy.Fits ∧ r.tidy.nv = r.nv := by
  unfold Lim.tidy
  split
  · exact ⟨.inr h, rfl⟩
  · exact ⟨.inl rfl, rfl⟩

theorem setAll_fits (r : Lim) (limits : ℕ → ℝ) : (r.setAll limits).Fits :=
  (tidy_fits _ (by simp)).1

theorem resize_length (l : List ℝ) (n : ℕ) : (resize l n).length = n := by
  simp [resize]
  omega

theorem resize_get (l : List ℝ) (n i : ℕ) (hi : i < n) :
    (resize l n)[i]? = some (l.getD i (-1)) := by
  unfold resize
  by_cases h : i < l.length
  · rw [List.getElem?_append_left (by simp; omega)]
    rw [List.getElem?_take, if_pos hi, List.getElem?_eq_getElem h]
    simp [List.getD, h]
  · rw [List.getElem?_append_right (by simp; omega)]
    rw [List.getElem?_replicate, if_pos (by simp; omega)]
    simp [List.getD, List.getElem?_eq_none (not_lt.1 h)]

/-- A component's limit as the network uses it. -/
def Lim.value (r : Lim) (k : ℕ) : ℝ := r.lim.getD k (-1)

theorem tidy_value (r : Lim) (k : ℕ) :
    (0 < r.tidy.value k ↔ 0 < r.value k) ∧ (0 < r.value k → r.tidy.value k = r.value k) := by
  unfold Lim.tidy
  split
  · exact ⟨Iff.rfl, fun _ => rfl⟩
  · rename_i h
    have hr : ¬ 0 < r.value k := by
      intro hp
      apply h
      rw [List.any_eq_true]
      unfold Lim.value at hp
      rw [List.getD] at hp
      cases hx : r.lim[k]? with
      | none => rw [hx] at hp; norm_num at hp
      | some v =>
        rw [hx] at hp
        exact ⟨v, List.mem_of_getElem? hx, by simpa using hp⟩
    have h1 : Lim.value ⟨r.nv, []⟩ k = -1 := by simp [Lim.value]
    exact ⟨⟨fun h => by rw [h1] at h; norm_num at h, fun h => absurd h hr⟩, fun h => absurd h hr⟩

/-- Setting one limit sets it and keeps the others. -/
theorem setOne_spec (r : Lim) (k : ℕ) (net : Option ℕ) (limit : ℝ) (hk : k < r.nv) :
    ∃ r', r.setOne (some k) net limit = .ok r' ∧ r'.nv = r.nv ∧ r'.Fits ∧
      ((0 < r'.value k ↔ 0 < limit) ∧ (0 < limit → r'.value k = limit)) ∧
      ∀ i < r.nv, i ≠ k → (0 < r'.value i ↔ 0 < r.value i) ∧
        (0 < r.value i → r'.value i = r.value i) := by
  have hlen : ((resize r.lim r.nv).set k limit).length = r.nv := by
    rw [List.length_set, resize_length]
  refine ⟨Lim.tidy ⟨r.nv, (resize r.lim r.nv).set k limit⟩, ?_, ?_, ?_, ?_, ?_⟩
  · simp only [Lim.setOne]
    rw [if_neg (by omega), if_neg (by omega), if_pos hk]
  · exact (tidy_fits _ hlen).2
  · exact (tidy_fits _ hlen).1
  · have h := tidy_value ⟨r.nv, (resize r.lim r.nv).set k limit⟩ k
    have e : Lim.value ⟨r.nv, (resize r.lim r.nv).set k limit⟩ k = limit := by
      simp [Lim.value, List.getD, resize_length, hk]
    rw [e] at h
    exact h
  · intro i hi hne
    have h := tidy_value ⟨r.nv, (resize r.lim r.nv).set k limit⟩ i
    have e : Lim.value ⟨r.nv, (resize r.lim r.nv).set k limit⟩ i = r.value i := by
      unfold Lim.value
      rw [List.getD, List.getElem?_set_ne (Ne.symm hne), resize_get _ _ _ hi]
      simp
    rw [e] at h
    exact h

/-- Reading the limits of the network: each reactor's own, whatever the buffer contained. -/
theorem netGet_eq (l : List Lim) (h : ∀ r ∈ l, r.Fits) (old : List ℝ)
    (hold : old.length = (l.map Lim.nv).sum) :
    (netGet l old).1 = l.flatMap fun r => (List.range r.nv).map r.value := by
  induction l generalizing old with
  | nil =>
    simp only [List.map_nil, List.sum_nil] at hold
    simpa [netGet] using List.eq_nil_of_length_eq_zero hold
  | cons r l ih =>
    rw [List.map_cons, List.sum_cons] at hold
    have hr := h r (List.mem_cons_self ..)
    have key : ∃ x : List ℝ, x.length = r.nv ∧ x = (List.range r.nv).map r.value ∧
        (r.getAll old).1 = x ++ old.drop r.nv := by
      unfold Lim.getAll
      rcases hr with hr | hr
      · refine ⟨List.replicate r.nv (-1), by simp, ?_, ?_⟩
        · apply List.ext_getElem
          · simp
          · intro i h1 h2
            simp [Lim.value, hr]
        · rw [if_pos (by rw [hr]; rfl)]
      · by_cases he : r.lim = []
        · refine ⟨List.replicate r.nv (-1), by simp, ?_, ?_⟩
          · apply List.ext_getElem
            · simp
            · intro i h1 h2
              simp [Lim.value, he]
          · rw [if_pos (by rw [he]; rfl)]
        · refine ⟨r.lim, hr, ?_, ?_⟩
          · apply List.ext_getElem
            · simp [hr]
            · intro i h1 h2
              simp [Lim.value, List.getD, h1]
          · rw [if_neg (by simpa using he), hr]
    obtain ⟨x, hx, hx', hg⟩ := key
    rw [netGet, List.flatMap_cons]
    simp only [hg]
    rw [List.take_left' hx, List.drop_left' hx, ih (fun r hr => h r (List.mem_cons_of_mem _ hr)) _
      (by simp; omega), hx']

/-- The network has limits exactly if some reactor has a positive one after setting. -/
theorem netSet_has (l : List Lim) (limits : ℕ → ℝ) (old : List ℝ) :
    (netGet (netSet l limits) old).2 = true ↔ ∃ k < (l.map Lim.nv).sum, 0 < limits k := by
  induction l generalizing limits old with
  | nil => simp [netGet, netSet]
  | cons r l ih =>
    rw [netSet, netGet, List.map_cons, List.sum_cons, Bool.or_eq_true, ih]
    rw [getAll_setAll]
    constructor
    · rintro (h | ⟨k, hk, h⟩)
      · split at h
        · rename_i hex
          obtain ⟨k, hk, hp⟩ := hex
          exact ⟨k, by omega, hp⟩
        · simp at h
      · exact ⟨r.nv + k, by omega, h⟩
    · rintro ⟨k, hk, hp⟩
      by_cases hlt : k < r.nv
      · left
        rw [if_pos ⟨k, hlt, hp⟩]
      · right
        exact ⟨k - r.nv, by omega, by rwa [Nat.add_sub_cancel' (by omega)]⟩

example : ∃ r', Lim.setOne ⟨3, []⟩ (some 1) none 5 = .ok r' ∧ r'.value 1 = 5 ∧ ¬ 0 < r'.value 0 := by
  obtain ⟨r', h, _, _, h1, h2⟩ := setOne_spec ⟨3, []⟩ 1 none 5 (by decide)
  refine ⟨r', h, h1.2 (by norm_num), fun hp => ?_⟩
  have := (h2 0 (by decide) (by decide)).1.1 hp
  norm_num [Lim.value] at this

/-- One component beyond the end passes the check `k > m_nv`: a surface added to an initialised
reactor makes its first species component `m_nv`. -/
theorem setOne_beyond (r : Lim) (h : r.nv ≠ 0) (net : Option ℕ) (limit : ℝ) :
    r.setOne (some r.nv) net limit = .ub ∧ r.setOne (some (r.nv + 1)) net limit = .throw := by
  constructor
  · simp only [Lim.setOne]
    rw [if_neg h, if_neg (by omega), if_neg (by omega)]
  · simp only [Lim.setOne]
    rw [if_neg h, if_pos (by omega)]

/-- If the number of unknowns of a reactor grows after its limits were set, the new components are
limited by what the buffer contained: here by the limit 9 of another reactor, once in its place. -/
theorem stale_limit :
    (netGet [⟨2, [4]⟩, ⟨1, []⟩] [4, 9, -1]).1 = [4, 9, -1] := by
  simp [netGet, Lim.getAll]

end Verif.ZeroD.Advance
