import Verif.Func1.Simp
import Mathlib.Analysis.SpecialFunctions.Pow.Deriv
import Mathlib.Analysis.SpecialFunctions.Trigonometric.Deriv
import Mathlib.Analysis.SpecialFunctions.ExpDeriv
import Mathlib.Analysis.SpecialFunctions.Log.Deriv
import Mathlib.Analysis.Calculus.Deriv.ZPow
import Mathlib.Analysis.Calculus.Deriv.Comp
import Mathlib.Analysis.Calculus.Deriv.Inv

/-!
# The derivative of a functor tree (C20)
-/

namespace Verif.Func1

open Topology Filter

/-- The function computed by a tree; the value 0 where the C++ result is infinite or NaN. -/
noncomputable def ev (f : F) (t : ℝ) : ℝ := (eval f t).getD 0

theorem ev_of {f : F} {t v : ℝ} (h : eval f t = some v) : ev f t = v := by
  unfold ev; rw [h]; rfl

/-- Points at which the tree is differentiable and the derivative is claimed: every node is
evaluated inside its domain, denominators are not zero, tables are strictly increasing and
evaluated off their nodes and not left of them, logarithms have the factor 1, and a power is
composed into another functor only at non-negative arguments. -/
def Reg : F → ℝ → Prop
  | .sin _, _ | .cos _, _ | .exp _, _ | .const _, _ => True
  | .log c, t => c = 1 ∧ 0 < t
  | .pow c, t => 0 < t ∨ (∃ n : ℤ, c = n ∧ (t ≠ 0 ∨ 0 ≤ n))
  | .tab b, t => b.Reg t
  | .sum f g, t | .diff f g, t | .prod f g, t => Reg f t ∧ Reg g t
  | .ratio f g, t => Reg f t ∧ Reg g t ∧ ev g t ≠ 0
  | .comp f g, t => Reg g t ∧ Reg f (ev g t) ∧ (0 ≤ t ∨ ∀ d, g ≠ .pow d)
  | .times f _, t | .plus f _, t => Reg f t
  | .periodic _ _, _ | .ext _, _ | .bad _, _ => False

theorem powE_int {n : ℤ} {s : ℝ} (h : s ≠ 0 ∨ 0 ≤ n) : powE n s = some (s ^ n) := by
  rcases lt_trichotomy s 0 with h1 | h1 | h1
  · exact powE_neg_int h1 n
  · subst h1
    have hn : 0 ≤ n := by
      rcases h with h | h
      · exact absurd rfl h
      · exact h
    rw [powE_zero]
    rcases hn.lt_or_eq with h2 | h2
    · rw [if_pos (by exact_mod_cast h2), zero_zpow n h2.ne']
    · subst h2; simp
  · rw [powE_pos h1, Real.rpow_intCast]

theorem deriv_nice : ∀ {f g : F}, f.Nice → deriv f = .ok g → g.Nice := by
  intro f
  induction f with
  | sin c => intro g _ h; simp only [deriv, Outcome.ok.injEq] at h; subst h; exact newTimes_nice trivial
  | cos c => intro g _ h; simp only [deriv, Outcome.ok.injEq] at h; subst h; exact newTimes_nice trivial
  | exp c =>
    intro g _ h
    simp only [deriv] at h
    split_ifs at h <;> cases h
    · exact newTimes_nice trivial
    · trivial
  | log c =>
    intro g _ h
    simp only [deriv] at h
    split_ifs at h <;> cases h
    · exact newTimes_nice trivial
    · trivial
  | pow c =>
    intro g _ h
    simp only [deriv] at h
    split_ifs at h <;> cases h
    · trivial
    · trivial
    · exact newTimes_nice trivial
  | tab b => intro g _ h; simp only [deriv, Outcome.ok.injEq] at h; subst h; trivial
  | const c => intro g _ h; simp only [deriv, Outcome.ok.injEq] at h; subst h; trivial
  | sum f g ihf ihg =>
    intro q hn h
    simp only [deriv] at h
    rcases hf : deriv f with a | _ | _ <;> rw [hf] at h <;> simp only [Outcome.bind_ok, Outcome.bind_throw, Outcome.bind_ub, reduceCtorEq] at h
    rcases hg : deriv g with b | _ | _ <;> rw [hg] at h <;> simp only [Outcome.bind_ok, Outcome.bind_throw, Outcome.bind_ub, reduceCtorEq, Outcome.pure_eq, Outcome.ok.injEq] at h
    subst h
    exact newSum_nice (ihf hn.1 hf) (ihg hn.2 hg)
  | diff f g ihf ihg =>
    intro q hn h
    simp only [deriv] at h
    rcases hf : deriv f with a | _ | _ <;> rw [hf] at h <;> simp only [Outcome.bind_ok, Outcome.bind_throw, Outcome.bind_ub, reduceCtorEq] at h
    rcases hg : deriv g with b | _ | _ <;> rw [hg] at h <;> simp only [Outcome.bind_ok, Outcome.bind_throw, Outcome.bind_ub, reduceCtorEq, Outcome.pure_eq, Outcome.ok.injEq] at h
    subst h
    exact newDiff_nice (ihf hn.1 hf) (ihg hn.2 hg)
  | prod f g ihf ihg =>
    intro q hn h
    simp only [deriv] at h
    rcases hg : deriv g with b | _ | _ <;> rw [hg] at h <;> simp only [Outcome.bind_ok, Outcome.bind_throw, Outcome.bind_ub, reduceCtorEq] at h
    rcases hf : deriv f with a | _ | _ <;> rw [hf] at h <;> simp only [Outcome.bind_ok, Outcome.bind_throw, Outcome.bind_ub, reduceCtorEq, Outcome.pure_eq, Outcome.ok.injEq] at h
    subst h
    exact newSum_nice (newProd_nice hn.1 (ihg hn.2 hg)) (newProd_nice hn.2 (ihf hn.1 hf))
  | times f c ihf =>
    intro q hn h
    simp only [deriv] at h
    rcases hf : deriv f with a | _ | _ <;> rw [hf] at h <;> simp only [Outcome.bind_ok, Outcome.bind_throw, Outcome.bind_ub, reduceCtorEq, Outcome.pure_eq, Outcome.ok.injEq] at h
    subst h
    exact newTimes_nice (ihf hn.1 hf)
  | plus f c ihf =>
    intro q hn h
    simp only [deriv] at h
    exact ihf hn h
  | ratio f g ihf ihg =>
    intro q hn h
    simp only [deriv] at h
    rcases hf : deriv f with a | _ | _ <;> rw [hf] at h <;> simp only [Outcome.bind_ok, Outcome.bind_throw, Outcome.bind_ub, reduceCtorEq] at h
    rcases hg : deriv g with b | _ | _ <;> rw [hg] at h <;> simp only [Outcome.bind_ok, Outcome.bind_throw, Outcome.bind_ub, reduceCtorEq] at h
    exact newRatio_nice (newDiff_nice (newProd_nice (ihf hn.1 hf) hn.2)
      (newProd_nice hn.1 (ihg hn.2 hg))) (newProd_nice hn.2 hn.2) h
  | comp f g ihf ihg =>
    intro q hn h
    simp only [deriv] at h
    rcases hf : deriv f with a | _ | _ <;> rw [hf] at h <;> simp only [Outcome.bind_ok, Outcome.bind_throw, Outcome.bind_ub, reduceCtorEq] at h
    rcases hg : deriv g with b | _ | _ <;> rw [hg] at h <;> simp only [Outcome.bind_ok, Outcome.bind_throw, Outcome.bind_ub, reduceCtorEq, Outcome.pure_eq, Outcome.ok.injEq] at h
    subst h
    exact newProd_nice (newComp_nice (ihf hn.1 hf) hn.2) (ihg hn.2 hg)
  | periodic f c _ => intro q _ h; simp only [deriv] at h; cases h
  | ext e => intro q _ h; simp only [deriv] at h; cases h
  | bad f _ => intro q hn _; exact hn.elim

/-- What is proved by induction over the tree: the derivative functor exists, has the value `v`
and the function has the derivative `v`; the function has values near the point. -/
def Good (f : F) (t : ℝ) : Prop :=
  (∃ g v, deriv f = .ok g ∧ eval g t = some v ∧ HasDerivAt (ev f) v t) ∧
    ∀ᶠ s in 𝓝 t, eval f s = some (ev f s)

theorem some_ev {f : F} {t : ℝ} (h : ∃ v, eval f t = some v) : eval f t = some (ev f t) := by
  obtain ⟨v, hv⟩ := h
  rw [hv, ev_of hv]

theorem good_sum {f g : F} {t : ℝ} (hn : F.Nice (.sum f g)) (hf : Good f t) (hg : Good g t) :
    Good (.sum f g) t := by
  obtain ⟨⟨a, va, ha, hva, hda⟩, hea⟩ := hf
  obtain ⟨⟨b, vb, hb, hvb, hdb⟩, heb⟩ := hg
  have hev : ∀ᶠ s in 𝓝 t, eval (.sum f g) s = some (ev f s + ev g s) := by
    filter_upwards [hea, heb] with s h1 h2
    exact eval_sum.mpr ⟨_, _, h1, h2, rfl⟩
  refine ⟨⟨newSum a b, va + vb, by simp [deriv, ha, hb], newSum_value
    (nice_root (deriv_nice hn.1 ha)) (eval_sum.mpr ⟨_, _, hva, hvb, rfl⟩), ?_⟩, ?_⟩
  · refine (hda.add hdb).congr_of_eventuallyEq ?_
    filter_upwards [hev] with s h
    exact ev_of h
  · filter_upwards [hev] with s h
    exact some_ev ⟨_, h⟩

theorem good_diff {f g : F} {t : ℝ} (hn : F.Nice (.diff f g)) (hf : Good f t) (hg : Good g t) :
    Good (.diff f g) t := by
  obtain ⟨⟨a, va, ha, hva, hda⟩, hea⟩ := hf
  obtain ⟨⟨b, vb, hb, hvb, hdb⟩, heb⟩ := hg
  have hev : ∀ᶠ s in 𝓝 t, eval (.diff f g) s = some (ev f s - ev g s) := by
    filter_upwards [hea, heb] with s h1 h2
    exact eval_diff.mpr ⟨_, _, h1, h2, rfl⟩
  refine ⟨⟨newDiff a b, va - vb, by simp [deriv, ha, hb], newDiff_value
    (nice_root (deriv_nice hn.1 ha)) (eval_diff.mpr ⟨_, _, hva, hvb, rfl⟩), ?_⟩, ?_⟩
  · refine (hda.sub hdb).congr_of_eventuallyEq ?_
    filter_upwards [hev] with s h
    exact ev_of h
  · filter_upwards [hev] with s h
    exact some_ev ⟨_, h⟩

theorem good_prod {f g : F} {t : ℝ} (hn : F.Nice (.prod f g)) (hf : Good f t) (hg : Good g t) :
    Good (.prod f g) t := by
  obtain ⟨⟨a, va, ha, hva, hda⟩, hea⟩ := hf
  obtain ⟨⟨b, vb, hb, hvb, hdb⟩, heb⟩ := hg
  have hev : ∀ᶠ s in 𝓝 t, eval (.prod f g) s = some (ev f s * ev g s) := by
    filter_upwards [hea, heb] with s h1 h2
    exact eval_prod.mpr ⟨_, _, h1, h2, rfl⟩
  have n1 : (newProd f b).Nice := newProd_nice hn.1 (deriv_nice hn.2 hb)
  have e1 : eval (newProd f b) t = some (ev f t * vb) :=
    newProd_value (eval_prod.mpr ⟨_, _, hea.self_of_nhds, hvb, rfl⟩)
  have e2 : eval (newProd g a) t = some (ev g t * va) :=
    newProd_value (eval_prod.mpr ⟨_, _, heb.self_of_nhds, hva, rfl⟩)
  refine ⟨⟨newSum (newProd f b) (newProd g a), va * ev g t + ev f t * vb,
    by simp [deriv, ha, hb], newSum_value (nice_root n1)
      (eval_sum.mpr ⟨_, _, e1, e2, by ring⟩), ?_⟩, ?_⟩
  · refine (hda.mul hdb).congr_of_eventuallyEq ?_
    filter_upwards [hev] with s h
    exact ev_of h
  · filter_upwards [hev] with s h
    exact some_ev ⟨_, h⟩

theorem good_ratio {f g : F} {t : ℝ} (hn : F.Nice (.ratio f g)) (hf : Good f t) (hg : Good g t)
    (h0 : ev g t ≠ 0) : Good (.ratio f g) t := by
  obtain ⟨⟨a, va, ha, hva, hda⟩, hea⟩ := hf
  obtain ⟨⟨b, vb, hb, hvb, hdb⟩, heb⟩ := hg
  have hne : ∀ᶠ s in 𝓝 t, ev g s ≠ 0 := hdb.continuousAt.eventually_ne h0
  have hev : ∀ᶠ s in 𝓝 t, eval (.ratio f g) s = some (ev f s / ev g s) := by
    filter_upwards [hea, heb, hne] with s h1 h2 h3
    exact eval_ratio.mpr ⟨_, _, h1, h2, h3, rfl⟩
  have n1 : (newProd a g).Nice := newProd_nice (deriv_nice hn.1 ha) hn.2
  have e1 : eval (newProd a g) t = some (va * ev g t) :=
    newProd_value (eval_prod.mpr ⟨_, _, hva, heb.self_of_nhds, rfl⟩)
  have e2 : eval (newProd f b) t = some (ev f t * vb) :=
    newProd_value (eval_prod.mpr ⟨_, _, hea.self_of_nhds, hvb, rfl⟩)
  have e3 : eval (newProd g g) t = some (ev g t * ev g t) :=
    newProd_value (eval_prod.mpr ⟨_, _, heb.self_of_nhds, heb.self_of_nhds, rfl⟩)
  have e4 : eval (newDiff (newProd a g) (newProd f b)) t = some (va * ev g t - ev f t * vb) :=
    newDiff_value (nice_root n1) (eval_diff.mpr ⟨_, _, e1, e2, rfl⟩)
  obtain ⟨q, hq, hq'⟩ := newRatio_value (eval_ratio.mpr ⟨_, _, e4, e3, mul_ne_zero h0 h0, rfl⟩)
  refine ⟨⟨q, _, by simp [deriv, ha, hb, hq], hq', ?_⟩, ?_⟩
  · have := hda.div hdb h0
    rw [pow_two] at this
    refine this.congr_of_eventuallyEq ?_
    filter_upwards [hev] with s h
    exact ev_of h
  · filter_upwards [hev] with s h
    exact some_ev ⟨_, h⟩

theorem good_comp {f g : F} {t : ℝ} (hf : Good f (ev g t)) (hg : Good g t)
    (hs : 0 ≤ t ∨ ∀ d, g ≠ .pow d) : Good (.comp f g) t := by
  obtain ⟨⟨a, va, ha, hva, hda⟩, hea⟩ := hf
  obtain ⟨⟨b, vb, hb, hvb, hdb⟩, heb⟩ := hg
  have hev : ∀ᶠ s in 𝓝 t, eval (.comp f g) s = some (ev f (ev g s)) := by
    filter_upwards [heb, hdb.continuousAt.eventually hea] with s h1 h2
    exact eval_comp.mpr ⟨_, h1, h2⟩
  have e1 : eval (newComp a g) t = some va := by
    refine newComp_value_partial ?_ (eval_comp.mpr ⟨_, heb.self_of_nhds, hva⟩)
    rcases hs with h | h
    · exact Or.inl h
    · exact Or.inr (fun c d _ h2 => absurd h2 (h d))
  refine ⟨⟨newProd (newComp a g) b, va * vb, by simp [deriv, ha, hb],
    newProd_value (eval_prod.mpr ⟨_, _, e1, hvb, rfl⟩), ?_⟩, ?_⟩
  · refine (hda.comp t hdb).congr_of_eventuallyEq ?_
    filter_upwards [hev] with s h
    exact ev_of h
  · filter_upwards [hev] with s h
    exact some_ev ⟨_, h⟩

theorem good_times {f : F} {c t : ℝ} (hf : Good f t) : Good (.times f c) t := by
  obtain ⟨⟨a, va, ha, hva, hda⟩, hea⟩ := hf
  have hev : ∀ᶠ s in 𝓝 t, eval (.times f c) s = some (ev f s * c) := by
    filter_upwards [hea] with s h1
    exact eval_times.mpr ⟨_, h1, rfl⟩
  refine ⟨⟨newTimes a c, va * c, by simp [deriv, ha],
    newTimes_value (eval_times.mpr ⟨_, hva, rfl⟩), ?_⟩, ?_⟩
  · refine (hda.mul_const c).congr_of_eventuallyEq ?_
    filter_upwards [hev] with s h
    exact ev_of h
  · filter_upwards [hev] with s h
    exact some_ev ⟨_, h⟩

theorem good_plus {f : F} {c t : ℝ} (hf : Good f t) : Good (.plus f c) t := by
  obtain ⟨⟨a, va, ha, hva, hda⟩, hea⟩ := hf
  have hev : ∀ᶠ s in 𝓝 t, eval (.plus f c) s = some (ev f s + c) := by
    filter_upwards [hea] with s h1
    exact eval_plus.mpr ⟨_, h1, rfl⟩
  refine ⟨⟨a, va, by simp [deriv, ha], hva, ?_⟩, ?_⟩
  · refine (hda.add_const c).congr_of_eventuallyEq ?_
    filter_upwards [hev] with s h
    exact ev_of h
  · filter_upwards [hev] with s h
    exact some_ev ⟨_, h⟩

theorem good_pow {c t : ℝ} (hr : Reg (.pow c) t) : Good (.pow c) t := by
  by_cases h0 : c = 0
  · subst h0
    have hev : ∀ s, eval (.pow 0) s = some 1 := fun s => powE_exp_zero s
    refine ⟨⟨.const 0, 0, by simp [deriv], rfl, ?_⟩, Eventually.of_forall
      (fun s => some_ev ⟨_, hev s⟩)⟩
    have : ev (.pow 0) = fun _ => 1 := funext (fun s => ev_of (hev s))
    rw [this]
    exact hasDerivAt_const t 1
  by_cases h1 : c = 1
  · subst h1
    have hev : ∀ s, eval (.pow 1) s = some s := fun s => powE_one s
    refine ⟨⟨.const 1, 1, by simp [deriv], rfl, ?_⟩, Eventually.of_forall
      (fun s => some_ev ⟨_, hev s⟩)⟩
    have : ev (.pow 1) = fun s => s := funext (fun s => ev_of (hev s))
    rw [this]
    exact hasDerivAt_id t
  have hd : deriv (.pow c) = .ok (newTimes (.pow (c - 1)) c) := by
    simp only [deriv]; rw [if_neg h0, if_neg h1]
  rcases hr with ht | ⟨n, rfl, hn⟩
  · have hev : ∀ᶠ s in 𝓝 t, eval (.pow c) s = some (s ^ c) := by
      filter_upwards [Ioi_mem_nhds ht] with s hs
      exact powE_pos hs
    refine ⟨⟨_, c * t ^ (c - 1), hd, newTimes_value (eval_times.mpr
      ⟨t ^ (c - 1), powE_pos ht, mul_comm _ _⟩), ?_⟩, ?_⟩
    · refine (Real.hasDerivAt_rpow_const (Or.inl ht.ne')).congr_of_eventuallyEq ?_
      filter_upwards [hev] with s h
      exact ev_of h
    · filter_upwards [hev] with s h
      exact some_ev ⟨_, h⟩
  · have hn0 : n ≠ 0 := by rintro rfl; simp at h0
    have hn1 : n ≠ 1 := by rintro rfl; simp at h1
    have hev : ∀ᶠ s in 𝓝 t, eval (.pow n) s = some (s ^ n) := by
      rcases hn with h | h
      · filter_upwards [eventually_ne_nhds h] with s hs
        exact powE_int (Or.inl hs)
      · exact Eventually.of_forall (fun s => powE_int (Or.inr h))
    have he : powE ((n : ℝ) - 1) t = some (t ^ (n - 1)) := by
      have : ((n : ℝ) - 1) = ((n - 1 : ℤ) : ℝ) := by push_cast; ring
      rw [this]
      refine powE_int ?_
      rcases hn with h | h
      · exact Or.inl h
      · exact Or.inr (by omega)
    refine ⟨⟨_, n * t ^ (n - 1), hd, newTimes_value (eval_times.mpr
      ⟨_, he, mul_comm _ _⟩), ?_⟩, ?_⟩
    · refine (hasDerivAt_zpow n t hn).congr_of_eventuallyEq ?_
      filter_upwards [hev] with s h
      exact ev_of h
    · filter_upwards [hev] with s h
      exact some_ev ⟨_, h⟩

theorem good_log {t : ℝ} (ht : 0 < t) : Good (.log 1) t := by
  have hev : ∀ᶠ s in 𝓝 t, eval (.log 1) s = some (Real.log s) := by
    filter_upwards [Ioi_mem_nhds ht] with s hs
    have hs' : 0 < s := hs
    rw [eval, one_mul, logE, if_pos hs']
  refine ⟨⟨.pow (-1), t⁻¹, by simp [deriv], ?_, ?_⟩, ?_⟩
  · rw [eval, powE_pos ht, Real.rpow_neg_one]
  · refine (Real.hasDerivAt_log ht.ne').congr_of_eventuallyEq ?_
    filter_upwards [hev] with s h
    exact ev_of h
  · filter_upwards [hev] with s h
    exact some_ev ⟨_, h⟩

theorem good_sin (c t : ℝ) : Good (.sin c) t := by
  refine ⟨⟨_, Real.cos (c * t) * c, rfl, newTimes_value (eval_times.mpr ⟨_, rfl, rfl⟩), ?_⟩,
    Eventually.of_forall (fun s => some_ev ⟨_, rfl⟩)⟩
  have : ev (.sin c) = fun s => Real.sin (c * s) := rfl
  rw [this]
  have h := ((hasDerivAt_id t).const_mul c).sin
  simpa using h

theorem good_cos (c t : ℝ) : Good (.cos c) t := by
  refine ⟨⟨_, Real.sin (c * t) * -c, rfl, newTimes_value (eval_times.mpr ⟨_, rfl, rfl⟩), ?_⟩,
    Eventually.of_forall (fun s => some_ev ⟨_, rfl⟩)⟩
  have : ev (.cos c) = fun s => Real.cos (c * s) := rfl
  rw [this]
  have h := ((hasDerivAt_id t).const_mul c).cos
  simpa using h

theorem good_exp (c t : ℝ) : Good (.exp c) t := by
  have hd : HasDerivAt (ev (.exp c)) (Real.exp (c * t) * c) t := by
    have : ev (.exp c) = fun s => Real.exp (c * s) := rfl
    rw [this]
    have h := ((hasDerivAt_id t).const_mul c).exp
    simpa using h
  refine ⟨?_, Eventually.of_forall (fun s => some_ev ⟨_, rfl⟩)⟩
  by_cases h1 : c = 1
  · refine ⟨.exp c, _, ?_, ?_, hd⟩
    · simp only [deriv]; rw [if_neg (not_not.mpr h1)]
    · rw [eval, h1, mul_one]
  · refine ⟨_, _, ?_, newTimes_value (f := .exp c) (eval_times.mpr ⟨_, rfl, rfl⟩), hd⟩
    simp only [deriv]; rw [if_pos h1]

/-- The derivative functor of a tree without zero factors exists at every regular point and
evaluates to the derivative of the function computed by the tree. -/
theorem deriv_value_partial : ∀ {f : F} {t : ℝ}, f.Nice → Reg f t →
    ∃ g v, deriv f = .ok g ∧ eval g t = some v ∧ HasDerivAt (ev f) v t := by
  suffices H : ∀ (f : F) (t : ℝ), f.Nice → Reg f t → Good f t from
    fun {f t} h1 h2 => (H f t h1 h2).1
  intro f
  induction f with
  | sin c => intro t _ _; exact good_sin c t
  | cos c => intro t _ _; exact good_cos c t
  | exp c => intro t _ _; exact good_exp c t
  | log c => intro t _ hr; obtain ⟨rfl, ht⟩ := hr; exact good_log ht
  | pow c => intro t _ hr; exact good_pow hr
  | tab b =>
    intro t _ hr
    exact ⟨⟨.tab b.deriv, _, rfl, rfl, Func1Tab.hasDerivAt_tab hr⟩,
      Eventually.of_forall (fun s => some_ev ⟨_, rfl⟩)⟩
  | const c =>
    intro t _ _
    exact ⟨⟨.const 0, 0, rfl, rfl, hasDerivAt_const t c⟩,
      Eventually.of_forall (fun s => some_ev ⟨_, rfl⟩)⟩
  | sum f g ihf ihg => intro t hn hr; exact good_sum hn (ihf t hn.1 hr.1) (ihg t hn.2 hr.2)
  | diff f g ihf ihg => intro t hn hr; exact good_diff hn (ihf t hn.1 hr.1) (ihg t hn.2 hr.2)
  | prod f g ihf ihg => intro t hn hr; exact good_prod hn (ihf t hn.1 hr.1) (ihg t hn.2 hr.2)
  | ratio f g ihf ihg =>
    intro t hn hr; exact good_ratio hn (ihf t hn.1 hr.1) (ihg t hn.2 hr.2.1) hr.2.2
  | comp f g ihf ihg =>
    intro t hn hr; exact good_comp (ihf _ hn.1 hr.2.1) (ihg t hn.2 hr.1) hr.2.2
  | times f c ihf => intro t hn hr; exact good_times (ihf t hn.1 hr)
  | plus f c ihf => intro t hn hr; exact good_plus (ihf t hn hr)
  | periodic f c _ => intro t _ hr; exact hr.elim
  | ext e => intro t _ hr; exact hr.elim
  | bad f _ => intro t _ hr; exact hr.elim

/-- The hypotheses hold for `exp(sin t) / (t² + 1)` at -2. -/
example : F.Nice (.ratio (.comp (.exp 1) (.sin 1)) (.plus (.pow 2) 1)) ∧
    Reg (.ratio (.comp (.exp 1) (.sin 1)) (.plus (.pow 2) 1)) (-2) := by
  have h2 : powE 2 (-2) = some 4 := by
    have := powE_int (n := 2) (s := -2) (Or.inr (by norm_num))
    norm_num at this
    exact this
  refine ⟨⟨⟨trivial, trivial⟩, trivial⟩, ⟨trivial, trivial, Or.inr (by intro d h; cases h)⟩,
    Or.inr ⟨2, by norm_num, Or.inr (by norm_num)⟩, ?_⟩
  have : eval (.plus (.pow 2) 1) (-2) = some 5 := eval_plus.mpr ⟨4, h2, by norm_num⟩
  rw [ev_of this]; norm_num

/-- `log(2t)` has the derivative 1 at 1; the derivative functor returns 2. -/
theorem deriv_log_wrong : ∃ g, deriv (.log 2) = .ok g ∧ eval g 1 = some 2 ∧
    HasDerivAt (ev (.log 2)) 1 1 := by
  refine ⟨newTimes (.pow (-1)) 2, ?_, ?_, ?_⟩
  · simp [deriv]
  · refine newTimes_value (eval_times.mpr ⟨1, ?_, by norm_num⟩)
    rw [eval, powE_pos one_pos, Real.one_rpow]
  · have hev : ∀ᶠ s in 𝓝 (1 : ℝ), ev (.log 2) s = Real.log (2 * s) := by
      filter_upwards [Ioi_mem_nhds (zero_lt_one)] with s hs
      have hs' : 0 < s := hs
      refine ev_of ?_
      rw [eval, logE, if_pos (by linarith)]
    have h := ((hasDerivAt_id (1 : ℝ)).const_mul 2).log (by norm_num)
    norm_num at h
    exact h.congr_of_eventuallyEq hev

/-- The functors without a derivative: Gaussians, polynomials, Fourier series, Arrhenius
expressions and periodic functors (and every tree containing one of them below a sum, ...). -/
theorem deriv_throws (e : ℝ → Option ℝ) (f : F) (c : ℝ) :
    deriv (.ext e) = .throw ∧ deriv (.periodic f c) = .throw := ⟨rfl, rfl⟩

/-- The tree of the next theorem: `h(u) = (1·u⁰)·(2·u^(1/2))`. -/
noncomputable def exH : F := .prod (.times (.pow 0) 1) (.times (.pow (1 / 2)) 2)

theorem deriv_exH : deriv exH = .ok (.pow (-1 / 2)) := by
  have e1 : deriv (.times (.pow (1 / 2)) 2) = .ok (.times (.pow (-1 / 2)) 1) := by
    have : deriv (.pow (1 / 2)) = .ok (.times (.pow (-1 / 2)) (1 / 2)) := by
      norm_num [deriv, newTimes]
    rw [deriv, this, Outcome.bind_ok, Outcome.pure_eq, newTimes, if_neg (by norm_num),
      if_neg (by norm_num)]
    norm_num
  have e2 : deriv (.times (.pow 0) 1) = .ok (.const 0) := by
    norm_num [deriv, newTimes]
  have e3 : newProd (.times (.pow 0) 1) (.times (.pow (-1 / 2)) 1) = .pow (-1 / 2) := by
    unfold newProd
    have : prodBase (.times (.pow 0) 1) (.times (.pow (-1 / 2)) 1) = none := by
      simp [prodBase, F.const?, F.pow?, F.exp?]
    rw [this]
    simp only
    have : newProd (.pow 0) (.pow (-1 / 2)) = .pow (-1 / 2) := by
      unfold newProd
      have : prodBase (.pow 0) (.pow (-1 / 2)) = some (.pow (-1 / 2)) := by
        simp [prodBase, F.const?, F.pow?]
      rw [this]
    rw [this, prodScale, if_neg (by norm_num)]
  have e4 : newProd (.times (.pow (1 / 2)) 2) (.const 0) = .const 0 := by
    unfold newProd
    have : prodBase (.times (.pow (1 / 2)) 2) (.const 0) = some (.const 0) := by
      simp [prodBase, F.const?]
    rw [this]
  rw [exH, deriv, e1, Outcome.bind_ok]
  rw [e2, Outcome.bind_ok]
  rw [e3, e4, Outcome.pure_eq]
  simp [newSum, ident, F.const?]

/-- Composed with `t²` this is `2|t|`, which has the derivative -2 at -1; the derivative functor
returns 2.  (The composition of two powers in `newCompositeFunction`.) -/
theorem deriv_comp_wrong : F.Nice (.comp exH (.pow 2)) ∧
    (∃ g, deriv (.comp exH (.pow 2)) = .ok g ∧ eval g (-1) = some 2) ∧
    HasDerivAt (ev (.comp exH (.pow 2))) (-2) (-1) := by
  refine ⟨⟨⟨⟨trivial, by norm_num⟩, trivial, by norm_num⟩, trivial⟩, ?_, ?_⟩
  · have e1 : deriv (.pow 2) = .ok (.times (.pow 1) 2) := by norm_num [deriv, newTimes]
    have e2 : newComp (.pow (-1 / 2)) (.pow 2) = .pow (-1) := by
      unfold newComp
      rw [if_neg (by simp [F.const?])]
      norm_num [F.const?, F.pow?]
    refine ⟨newProd (.pow (-1)) (.times (.pow 1) 2), ?_, ?_⟩
    · rw [deriv, deriv_exH, Outcome.bind_ok, e1, Outcome.bind_ok, e2, Outcome.pure_eq]
    · refine newProd_value (eval_prod.mpr ⟨-1, -2, ?_, eval_times.mpr ⟨-1, powE_one _, by norm_num⟩,
        by norm_num⟩)
      have := powE_int (n := -1) (s := -1) (Or.inl (by norm_num))
      norm_num at this
      rw [eval, this]
  · have hev : ∀ᶠ s in 𝓝 (-1 : ℝ), ev (.comp exH (.pow 2)) s = -2 * s := by
      filter_upwards [Iio_mem_nhds (show (-1 : ℝ) < 0 by norm_num)] with s hs
      have hs' : s < 0 := hs
      refine ev_of (eval_comp.mpr ⟨s ^ (2 : ℤ), powE_int (n := 2) (Or.inr (by norm_num)) , ?_⟩)
      have hp : (0 : ℝ) < s ^ (2 : ℤ) := by
        have : s ^ (2 : ℤ) = s * s := by norm_cast; ring
        rw [this]; exact mul_pos_of_neg_of_neg hs' hs'
      refine eval_prod.mpr ⟨1, -2 * s, eval_times.mpr ⟨1, powE_exp_zero _, by norm_num⟩,
        eval_times.mpr ⟨-s, ?_, by ring⟩, by ring⟩
      rw [eval, powE_pos hp, ← Real.sqrt_eq_rpow]
      congr 1
      have : s ^ (2 : ℤ) = (-s) ^ 2 := by norm_cast; ring
      rw [this, Real.sqrt_sq (by linarith)]
    refine HasDerivAt.congr_of_eventuallyEq ?_ hev
    have h := (hasDerivAt_id (-1 : ℝ)).const_mul (-2)
    rw [mul_one] at h
    exact h

end Verif.Func1
