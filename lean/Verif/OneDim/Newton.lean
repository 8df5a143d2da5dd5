import Verif.Basic
import Mathlib.Data.Real.Basic
import Mathlib.Analysis.Real.Sqrt
import Mathlib.Tactic.Linarith
import Mathlib.Tactic.Positivity
import Mathlib.Tactic.SplitIfs
import Mathlib.Tactic.NormNum
import Mathlib.Tactic.FieldSimp
import Mathlib.Algebra.BigOperators.Group.Finset.Basic
import Mathlib.Algebra.Order.BigOperators.Group.Finset

/-!
# C29: bounded and damped Newton steps

Model of the damped Newton solver of the one-dimensional problems
(`src/oneD/MultiNewton.cpp`): `bound_step`, `norm_square`, `norm2`, `boundStep`, `dampStep` and
`solve`.

Not modelled: log output, timers, not-a-number values, and the computation of the Newton step, which
is an arbitrary function of the Jacobian at hand and the point (`Env.stp`), possibly throwing
(`MultiNewton::step`, 184-216).
-/

namespace Verif.Newton

open Verif

/-- A solution or step vector. -/
abbrev Vec := ℕ → ℝ

/-- What the solver asks of a domain: `nComponents`, `nPoints`, where it starts in the solution vector,
`lowerBound`, `upperBound`, `rtol`, `atol` of each component. -/
structure Dom where
  nv : ℕ
  np : ℕ
  start : ℕ
  lower : ℕ → ℝ
  upper : ℕ → ℝ
  rtol : ℕ → ℝ
  atol : ℕ → ℝ

/-- MultiNewton.cpp:20-28 `Indx`, relative to the start of the domain: place of component `m` at
point `j`. -/
def Dom.at (d : Dom) (m j : ℕ) : ℕ := d.start + (j * d.nv + m)

open Classical in
/-- MultiNewton.cpp:49-63: the factor after looking at one component at one point.  A zero
denominator needs `val` out of bounds and a zero step: above the upper bound C++ gets `max(0, -∞) = 0`
as here; below the lower bound C++ gets `-∞` where this model has `0` (both make `dampStep` fail). -/
noncomputable def boundOne (below above val step f : ℝ) : ℝ :=
  if val + step > above then max 0 (min f ((above - val) / (val + step - val)))
  else if val + step < below then min f ((val - below) / (val - (val + step)))
  else f

/-- MultiNewton.cpp:48-92: all points of one component. -/
noncomputable def boundComp (d : Dom) (x step : Vec) (f : ℝ) (m : ℕ) : ℝ :=
  (List.range d.np).foldl
    (fun f j => boundOne (d.lower m) (d.upper m) (x (d.at m j)) (step (d.at m j)) f) f

/-- MultiNewton.cpp:35-99 `bound_step`: the factor for one domain. -/
noncomputable def boundDom (d : Dom) (x step : Vec) : ℝ :=
  (List.range d.nv).foldl (boundComp d x step) 1

/-- MultiNewton.cpp:218-228 `boundStep`: the smallest of the factors of the domains. -/
noncomputable def boundStep (ds : List Dom) (x step : Vec) : ℝ :=
  ds.foldl (fun f d => min f (boundDom d x step)) 1

/-- MultiNewton.cpp:140-144: the error weight of component `n`. -/
noncomputable def ewt (d : Dom) (x : Vec) (n : ℕ) : ℝ :=
  d.rtol n * ((List.range d.np).map fun j => |x (d.at n j)|).sum / d.np + d.atol n

/-- MultiNewton.cpp:132-152 `norm_square` (`f2max` is computed there but not used). -/
noncomputable def normSquare (d : Dom) (x step : Vec) : ℝ :=
  ((List.range d.nv).map fun n =>
    ((List.range d.np).map fun j =>
      (step (d.at n j) / ewt d x n) * (step (d.at n j) / ewt d x n)).sum).sum

/-- OneDim::size(): total number of variables. -/
def size (ds : List Dom) : ℕ := (ds.map fun d => d.nv * d.np).sum

/-- MultiNewton.cpp:172-182 `norm2`. -/
noncomputable def norm2 (ds : List Dom) (x step : Vec) : ℝ :=
  Real.sqrt ((ds.map fun d => normSquare d x step).sum / size ds)

/-- The surroundings of the solver: the domains, `m_dampFactor`, `m_maxDampIter`, `m_maxAge`
(MultiNewton.h:189-195), the Newton step for a Jacobian of the (abstract) type `J`
(MultiNewton.cpp:184-216) and the evaluation of the Jacobian at a point (OneDim.cpp:293-337, which
leaves the point itself unchanged and sets the age to 0). -/
structure Env (J : Type) where
  doms : List Dom
  damp : ℝ
  maxDamp : ℕ
  maxAge : ℕ
  stp : J → Vec → Outcome Vec
  newJac : Vec → J

/-- The damped point `x0 + alpha*step0` (MultiNewton.cpp:267-269). -/
noncomputable def move (x0 step0 : Vec) (alpha : ℝ) : Vec := fun j => x0 j + alpha * step0 j

open Classical in
/-- MultiNewton.cpp:264-294: the damping loop with `m` tries left.  `some (x1, s1)`: left by `break`;
`none`: all tries used, where `x1` is the last point tried. -/
noncomputable def dampLoop {J : Type} (E : Env J) (jac : J) (x0 step0 : Vec) (s0 : ℝ) :
    ℕ → ℝ → Vec → Outcome (Vec × Option ℝ)
  | 0, _, x1 => .ok (x1, none)
  | m + 1, alpha, _ =>
    match E.stp jac (move x0 step0 alpha) with
    | .ok step1 =>
      if norm2 E.doms (move x0 step0 alpha) step1 < 1 ∨
          norm2 E.doms (move x0 step0 alpha) step1 < s0 then
        .ok (move x0 step0 alpha, some (norm2 E.doms (move x0 step0 alpha) step1))
      else dampLoop E jac x0 step0 s0 m (alpha / E.damp) (move x0 step0 alpha)
    | .throw => .throw
    | .ub => .ub

open Classical in
/-- MultiNewton.cpp:299-310: the status for the value of `s1` at the `break`. -/
noncomputable def dampStatus : Option ℝ → ℤ
  | some s1 => if s1 > 1 then 0 else 1
  | none => -2

open Classical in
/-- MultiNewton.cpp:230-311 `dampStep`: the status and the new contents of `x1`. -/
noncomputable def dampStep {J : Type} (E : Env J) (jac : J) (x0 step0 x1 : Vec) :
    Outcome (ℤ × Vec) :=
  if boundStep E.doms x0 step0 < 1e-10 then .ok (-3, x1)
  else
    match dampLoop E jac x0 step0 (norm2 E.doms x0 step0) E.maxDamp
        (boundStep E.doms x0 step0 * 1) x1 with
    | .ok r => .ok (dampStatus r.2, r.1)
    | .throw => .throw
    | .ub => .ub

/-- The variables of the loop of `solve`: `m_x`, `x1`, the Jacobian, its age, `forceNewJac`,
`nJacReeval`. -/
structure St (J : Type) where
  mx : Vec
  x1 : Vec
  jac : J
  age : ℕ
  force : Bool
  reeval : ℕ

/-- MultiNewton.cpp:327-339: evaluate the Jacobian if it is too old or this was asked for. -/
def refresh {J : Type} (E : Env J) (s : St J) : St J :=
  if s.force || decide (s.age > E.maxAge) then
    { s with
      jac := E.newJac s.mx
      age := 0
      force := false }
  else s

open Classical in
/-- MultiNewton.cpp:353-377: what is done with the status of `dampStep`; `s` is the state after it, with
the age already incremented.  `Sum.inl`: another pass; `Sum.inr`: leave the loop with this status. -/
noncomputable def react {J : Type} (s : St J) (status : ℤ) : St J ⊕ (ℤ × St J) :=
  if status = 0 then .inl { s with mx := s.x1 }
  else if status = 1 then .inr (status, s)
  else if status < 0 then
    if s.age > 1 then
      if s.reeval > 3 then .inr (status, { s with force := true })
      else .inl { s with
        force := true
        reeval := s.reeval + 1 }
    else .inr (status, s)
  else .inl s

/-- MultiNewton.cpp:326-378: one pass of the loop. -/
noncomputable def pass {J : Type} (E : Env J) (s : St J) : Outcome (St J ⊕ (ℤ × St J)) :=
  match E.stp (refresh E s).jac (refresh E s).mx with
  | .ok st =>
    match dampStep E (refresh E s).jac (refresh E s).mx st (refresh E s).x1 with
    | .ok r =>
      .ok (react { refresh E s with
        x1 := r.2
        age := (refresh E s).age + 1 } r.1)
    | .throw => .throw
    | .ub => .ub
  | .throw => .throw
  | .ub => .ub

/-- MultiNewton.cpp:326-386: the loop, which has no limit on the number of passes in C++, followed for
at most `fuel` passes (`none`: not finished), and the final copy to `x1`. -/
noncomputable def solveLoop {J : Type} (E : Env J) : ℕ → St J → Outcome (Option (ℤ × Vec))
  | 0, _ => .ok none
  | fuel + 1, s =>
    match pass E s with
    | .ok (.inl s') => solveLoop E fuel s'
    | .ok (.inr r) => .ok (some (r.1, if r.1 < 0 then r.2.mx else r.2.x1))
    | .throw => .throw
    | .ub => .ub

/-- MultiNewton.cpp:313-389 `solve` from the point `x0` with Jacobian `jac` of age `age`. -/
noncomputable def solve {J : Type} (E : Env J) (fuel : ℕ) (x0 x1 : Vec) (jac : J) (age : ℕ) :
    Outcome (Option (ℤ × Vec)) :=
  solveLoop E fuel { mx := x0, x1 := x1, jac := jac, age := age, force := false, reeval := 0 }

/-! ## Statements -/

/-- Every component of every domain is inside its bounds. -/
def InBounds (ds : List Dom) (x : Vec) : Prop :=
  ∀ d ∈ ds, ∀ m < d.nv, ∀ j < d.np, d.lower m ≤ x (d.at m j) ∧ x (d.at m j) ≤ d.upper m

theorem boundOne_spec {below above val step f : ℝ} (h1 : below ≤ val) (h2 : val ≤ above)
    (hf : 0 ≤ f) :
    0 ≤ boundOne below above val step f ∧ boundOne below above val step f ≤ f ∧
    ∀ a, 0 ≤ a → a ≤ 1 → a ≤ boundOne below above val step f →
      below ≤ val + a * step ∧ val + a * step ≤ above := by
  unfold boundOne
  split_ifs with ha hb
  · have hs : 0 < step := by linarith
    have hq : 0 ≤ (above - val) / (val + step - val) := by
      apply div_nonneg <;> linarith
    rw [max_eq_right (le_min hf hq)]
    refine ⟨le_min hf hq, min_le_left _ _, fun a h0 _ hle => ?_⟩
    have := le_trans hle (min_le_right _ _)
    rw [le_div_iff₀ (by linarith)] at this
    constructor
    · nlinarith
    · linarith
  · have hs : step < 0 := by linarith
    have hq : 0 ≤ (val - below) / (val - (val + step)) := by
      apply div_nonneg <;> linarith
    refine ⟨le_min hf hq, min_le_left _ _, fun a h0 _ hle => ?_⟩
    have := le_trans hle (min_le_right _ _)
    rw [le_div_iff₀ (by linarith)] at this
    constructor
    · linarith
    · nlinarith
  · refine ⟨hf, le_refl _, fun a h0 h1a _ => ?_⟩
    rw [not_lt] at ha hb
    constructor
    · rcases le_total 0 step with h | h
      · nlinarith
      · nlinarith
    · rcases le_total 0 step with h | h
      · nlinarith
      · nlinarith

/-- A fold of functions that each lower a non-negative number to a non-negative number and make a claim
true that persists for smaller numbers. -/
theorem fold_spec {α : Type} (P : α → ℝ → Prop) (g : ℝ → α → ℝ) (l : List α)
    (hP : ∀ a f f', f' ≤ f → P a f → P a f')
    (hg : ∀ a ∈ l, ∀ f, 0 ≤ f → 0 ≤ g f a ∧ g f a ≤ f ∧ P a (g f a)) :
    ∀ f, 0 ≤ f → 0 ≤ l.foldl g f ∧ l.foldl g f ≤ f ∧ ∀ a ∈ l, P a (l.foldl g f) := by
  induction l with
  | nil => intro f hf; simp [hf]
  | cons b l ih =>
    intro f hf
    obtain ⟨h1, h2, h3⟩ := hg b (by simp) f hf
    obtain ⟨i1, i2, i3⟩ := ih (fun a ha => hg a (by simp [ha])) (g f b) h1
    refine ⟨i1, le_trans i2 h2, fun a ha => ?_⟩
    rcases List.mem_cons.1 ha with h | h
    · subst h
      exact hP _ _ _ i2 h3
    · exact i3 a h

/-- `a` as a step fraction keeps the component in bounds. -/
def Safe (d : Dom) (x step : Vec) (m j : ℕ) (a : ℝ) : Prop :=
  d.lower m ≤ x (d.at m j) + a * step (d.at m j) ∧
    x (d.at m j) + a * step (d.at m j) ≤ d.upper m

theorem boundComp_spec (d : Dom) (x step : Vec) (m : ℕ)
    (h : ∀ j < d.np, d.lower m ≤ x (d.at m j) ∧ x (d.at m j) ≤ d.upper m) (f : ℝ) (hf : 0 ≤ f) :
    0 ≤ boundComp d x step f m ∧ boundComp d x step f m ≤ f ∧
    ∀ j < d.np, ∀ a, 0 ≤ a → a ≤ 1 → a ≤ boundComp d x step f m → Safe d x step m j a := by
  obtain ⟨h1, h2, h3⟩ := fold_spec
    (fun j f => ∀ a, 0 ≤ a → a ≤ 1 → a ≤ f → Safe d x step m j a)
    (fun f j => boundOne (d.lower m) (d.upper m) (x (d.at m j)) (step (d.at m j)) f)
    (List.range d.np)
    (fun j f f' hle hp a h0 h1 h2 => hp a h0 h1 (le_trans h2 hle))
    (fun j hj f hf => boundOne_spec (h j (List.mem_range.1 hj)).1 (h j (List.mem_range.1 hj)).2 hf)
    f hf
  exact ⟨h1, h2, fun j hj => h3 j (List.mem_range.2 hj)⟩

theorem boundDom_spec (d : Dom) (x step : Vec)
    (h : ∀ m < d.nv, ∀ j < d.np, d.lower m ≤ x (d.at m j) ∧ x (d.at m j) ≤ d.upper m) :
    0 ≤ boundDom d x step ∧ boundDom d x step ≤ 1 ∧
    ∀ m < d.nv, ∀ j < d.np, ∀ a, 0 ≤ a → a ≤ 1 → a ≤ boundDom d x step → Safe d x step m j a := by
  obtain ⟨h1, h2, h3⟩ := fold_spec
    (fun m f => ∀ j < d.np, ∀ a, 0 ≤ a → a ≤ 1 → a ≤ f → Safe d x step m j a)
    (boundComp d x step) (List.range d.nv)
    (fun m f f' hle hp j hj a h0 h1 h2 => hp j hj a h0 h1 (le_trans h2 hle))
    (fun m hm f hf => boundComp_spec d x step m (h m (List.mem_range.1 hm)) f hf)
    1 zero_le_one
  exact ⟨h1, h2, fun m hm => h3 m (List.mem_range.2 hm)⟩

/-- From a point inside the bounds, the factor of `boundStep` is in `[0, 1]`, and every fraction of the
step not larger than it leads to a point inside the bounds. -/
theorem boundStep_safe (ds : List Dom) (x step : Vec) (h : InBounds ds x) :
    0 ≤ boundStep ds x step ∧ boundStep ds x step ≤ 1 ∧
    ∀ a, 0 ≤ a → a ≤ boundStep ds x step → InBounds ds (move x step a) := by
  obtain ⟨h1, h2, h3⟩ := fold_spec
    (fun d f => ∀ m < d.nv, ∀ j < d.np, ∀ a, 0 ≤ a → a ≤ 1 → a ≤ f → Safe d x step m j a)
    (fun f d => min f (boundDom d x step)) ds
    (fun d f f' hle hp m hm j hj a h0 h1 h2 => hp m hm j hj a h0 h1 (le_trans h2 hle))
    (fun d hd f hf => by
      obtain ⟨i1, i2, i3⟩ := boundDom_spec d x step (h d hd)
      exact ⟨le_min hf i1, min_le_left _ _, fun m hm j hj a h0 h1 h2 =>
        i3 m hm j hj a h0 h1 (le_trans h2 (min_le_right _ _))⟩)
    1 zero_le_one
  exact ⟨h1, h2, fun a h0 ha d hd m hm j hj => h3 d hd m hm j hj a h0 (le_trans ha h2) ha⟩

/-- The domain of the examples: one component at one point. -/
def dom1 (lo hi : ℝ) : Dom :=
  { nv := 1, np := 1, start := 0, lower := fun _ => lo, upper := fun _ => hi,
    rtol := fun _ => 0, atol := fun _ => 1 }

theorem boundStep_dom1 (lo hi : ℝ) (x step : Vec) :
    boundStep [dom1 lo hi] x step = min 1 (boundOne lo hi (x 0) (step 0) 1) := by
  simp [boundStep, boundDom, boundComp, dom1, Dom.at]

example : boundStep [dom1 0 1] (fun _ => 1 / 2) (fun _ => 2) = 1 / 4 := by
  rw [boundStep_dom1]
  norm_num [boundOne]

example : InBounds [dom1 0 1] (fun _ => 1 / 2) := by
  intro d hd m hm j hj
  simp only [List.mem_singleton] at hd
  subst hd
  norm_num [dom1]

/-- The factor is the largest one: beyond it (and up to 1) some component leaves its bounds. -/
theorem boundOne_tight {below above val step f a : ℝ} (h1 : below ≤ val) (h2 : val ≤ above)
    (hf : 0 ≤ f) (ha : boundOne below above val step f < a) (haf : a ≤ f) :
    val + a * step < below ∨ above < val + a * step := by
  unfold boundOne at ha
  split_ifs at ha with hb hc
  · have hs : 0 < step := by linarith
    have hq : 0 ≤ (above - val) / (val + step - val) := by
      apply div_nonneg <;> linarith
    rw [max_eq_right (le_min hf hq), min_lt_iff] at ha
    rcases ha with ha | ha
    · linarith
    · rw [div_lt_iff₀ (by linarith)] at ha
      right
      linarith
  · have hs : step < 0 := by linarith
    rw [min_lt_iff] at ha
    rcases ha with ha | ha
    · linarith
    · rw [div_lt_iff₀ (by linarith)] at ha
      left
      linarith
  · linarith

theorem fold_tight {α : Type} (P : α → ℝ → Prop) (g : ℝ → α → ℝ) (l : List α)
    (hg : ∀ a ∈ l, ∀ f, 0 ≤ f → 0 ≤ g f a ∧ ∀ t, g f a < t → t ≤ f → P a t) :
    ∀ f, 0 ≤ f → ∀ t, l.foldl g f < t → t ≤ f → ∃ a ∈ l, P a t := by
  induction l with
  | nil => intro f hf t h1 h2; simp at h1; linarith
  | cons b l ih =>
    intro f hf t h1 h2
    obtain ⟨i1, i2⟩ := hg b (by simp) f hf
    by_cases hb : g f b < t
    · exact ⟨b, by simp, i2 t hb h2⟩
    · obtain ⟨a, ha, hp⟩ := ih (fun a ha => hg a (by simp [ha])) (g f b) i1 t h1 (by linarith)
      exact ⟨a, by simp [ha], hp⟩

/-- The factor is the largest possible: a larger fraction of the step, up to the whole step, takes some
component of some domain out of its bounds. -/
theorem boundStep_largest (ds : List Dom) (x step : Vec) (h : InBounds ds x) (t : ℝ)
    (h1 : boundStep ds x step < t) (h2 : t ≤ 1) : ¬ InBounds ds (move x step t) := by
  have hdom : ∀ d ∈ ds, ∀ t, boundDom d x step < t → t ≤ 1 → ∃ m < d.nv, ∃ j < d.np,
      ¬ Safe d x step m j t := by
    intro d hd t ht ht1
    obtain ⟨m, hm, j, hj, hp⟩ := fold_tight
      (fun m t => ∃ j ∈ List.range d.np, ¬ Safe d x step m j t) (boundComp d x step)
      (List.range d.nv)
      (fun m hm f hf => by
        have hb := fun j hj => h d hd m (List.mem_range.1 hm) j hj
        refine ⟨(boundComp_spec d x step m hb f hf).1, fun t h1 h2 => ?_⟩
        exact fold_tight (fun j t => ¬ Safe d x step m j t)
          (fun f j => boundOne (d.lower m) (d.upper m) (x (d.at m j)) (step (d.at m j)) f)
          (List.range d.np)
          (fun j hj f hf => by
            have hj' := hb j (List.mem_range.1 hj)
            refine ⟨(boundOne_spec hj'.1 hj'.2 hf).1, fun t h1 h2 hs => ?_⟩
            rcases boundOne_tight hj'.1 hj'.2 hf h1 h2 with hh | hh
            · exact absurd hs.1 (not_le.2 hh)
            · exact absurd hs.2 (not_le.2 hh)) f hf t h1 h2)
      1 zero_le_one t ht ht1
    exact ⟨m, List.mem_range.1 hm, j, List.mem_range.1 hj, hp⟩
  obtain ⟨d, hd, hp⟩ := fold_tight
    (fun d t => t ≤ 1 → ∃ m < d.nv, ∃ j < d.np, ¬ Safe d x step m j t)
    (fun f d => min f (boundDom d x step)) ds
    (fun d hd f hf => by
      refine ⟨le_min hf (boundDom_spec d x step (h d hd)).1, fun t h1 h2 ht1 => ?_⟩
      rcases min_lt_iff.1 h1 with hh | hh
      · linarith
      · exact hdom d hd t hh ht1)
    1 zero_le_one t h1 h2
  obtain ⟨m, hm, j, hj, hp⟩ := hp h2
  exact fun hb => hp (hb d hd m hm j hj)

example : ¬ InBounds [dom1 0 1] (move (fun _ => 1 / 2) (fun _ => 2) (1 / 2)) := by
  refine boundStep_largest _ _ _ ?_ _ ?_ (by norm_num)
  · intro d hd m hm j hj
    simp only [List.mem_singleton] at hd
    subst hd
    norm_num [dom1]
  · rw [boundStep_dom1]
    norm_num [boundOne]

/-- **Finding.**  The factor is not always in `[0, 1]`: for a value already below its lower bound and a
step further down it is negative.  (The upper side is clipped at zero, MultiNewton.cpp:59, the lower side
is not, MultiNewton.cpp:62.) -/
theorem boundStep_negative :
    ∃ (ds : List Dom) (x step : Vec), boundStep ds x step < 0 := by
  refine ⟨[dom1 0 1], fun _ => -1, fun _ => -1, ?_⟩
  rw [boundStep_dom1]
  norm_num [boundOne]

/-- Whatever the point is, the factor is at most one. -/
theorem boundStep_le_one (ds : List Dom) (x step : Vec) : boundStep ds x step ≤ 1 := by
  have : ∀ f, ds.foldl (fun f d => min f (boundDom d x step)) f ≤ f := by
    induction ds with
    | nil => simp
    | cons d ds ih => exact fun f => le_trans (ih _) (min_le_left _ _)
  exact this 1

example : boundStep [dom1 0 1] (fun _ => -1) (fun _ => -1) ≤ 1 := boundStep_le_one _ _ _

/-! ## The damping loop -/

/-- What the damping loop returns: a point `x0 + alpha*step0` with `0 ≤ alpha ≤ alpha0`, and the norm of
the next step there, which was found acceptable. -/
theorem dampLoop_spec {J : Type} (E : Env J) (hE : 1 ≤ E.damp) (jac : J) (x0 step0 : Vec) (s0 : ℝ) :
    ∀ (m : ℕ) (alpha : ℝ) (x1 : Vec), 0 ≤ alpha →
      ∀ r, dampLoop E jac x0 step0 s0 m alpha x1 = .ok r →
      (∀ s1, r.2 = some s1 →
        ∃ k < m, ∃ st, r.1 = move x0 step0 (alpha / E.damp ^ k) ∧ E.stp jac r.1 = .ok st ∧
          s1 = norm2 E.doms r.1 st ∧ (s1 < 1 ∨ s1 < s0) ∧
          ∀ i < k, ∃ st', E.stp jac (move x0 step0 (alpha / E.damp ^ i)) = .ok st' ∧
            1 ≤ norm2 E.doms (move x0 step0 (alpha / E.damp ^ i)) st' ∧
            s0 ≤ norm2 E.doms (move x0 step0 (alpha / E.damp ^ i)) st') ∧
      (r.2 = none → ∀ i < m, ∃ st', E.stp jac (move x0 step0 (alpha / E.damp ^ i)) = .ok st' ∧
            1 ≤ norm2 E.doms (move x0 step0 (alpha / E.damp ^ i)) st' ∧
            s0 ≤ norm2 E.doms (move x0 step0 (alpha / E.damp ^ i)) st') := by
  have hpos : 0 < E.damp := by linarith
  intro m
  induction m with
  | zero =>
    intro alpha x1 ha r hr
    simp only [dampLoop, Outcome.ok.injEq] at hr
    subst hr
    simp
  | succ m ih =>
    intro alpha x1 ha r hr
    simp only [dampLoop] at hr
    cases hst : E.stp jac (move x0 step0 alpha) with
    | throw => simp [hst] at hr
    | ub => simp [hst] at hr
    | ok st =>
      simp only [hst] at hr
      by_cases hacc : norm2 E.doms (move x0 step0 alpha) st < 1 ∨
          norm2 E.doms (move x0 step0 alpha) st < s0
      · rw [if_pos hacc, Outcome.ok.injEq] at hr
        subst hr
        refine ⟨fun s1 hs => ?_, fun h => by simp at h⟩
        simp only [Option.some.injEq] at hs
        subst hs
        exact ⟨0, by omega, st, by simp, hst, rfl, hacc, fun i hi => by omega⟩
      · rw [if_neg hacc] at hr
        obtain ⟨h1, h2⟩ := ih (alpha / E.damp) _ (by positivity) r hr
        push Not at hacc
        have step : ∀ i : ℕ, alpha / E.damp / E.damp ^ i = alpha / E.damp ^ (i + 1) := by
          intro i
          rw [div_div, pow_succ']
        refine ⟨fun s1 hs => ?_, fun hn => ?_⟩
        · obtain ⟨k, hk, st', e1, e2, e3, e4, e5⟩ := h1 s1 hs
          refine ⟨k + 1, by omega, st', by rw [e1, step], e2, e3, e4, fun i hi => ?_⟩
          cases i with
          | zero => exact ⟨st, by simpa using hst, by simpa using hacc.1, by simpa using hacc.2⟩
          | succ i => rw [← step]; exact e5 i (by omega)
        · intro i hi
          cases i with
          | zero => exact ⟨st, by simpa using hst, by simpa using hacc.1, by simpa using hacc.2⟩
          | succ i => rw [← step]; exact h2 hn i (by omega)

theorem div_pow_le {a d : ℝ} (ha : 0 ≤ a) (hd : 1 ≤ d) (k : ℕ) : 0 ≤ a / d ^ k ∧ a / d ^ k ≤ a := by
  have h1 : 1 ≤ d ^ k := one_le_pow₀ hd
  refine ⟨by positivity, div_le_self ha h1⟩

/-- What `dampStep` promises.  The status is 1, 0, -2 or -3.  With 1 and 0 the new point is
`x0 + alpha*step0` for the first of the tried fractions `fbound / damp^k` where the norm of the next step
is below 1 or below the norm of the current step; 1 means that this norm is at most 1 and 0 that it is
larger; -2 means that none of the fractions was acceptable; -3 that `fbound` is too small. -/
theorem dampStep_spec {J : Type} (E : Env J) (hE : 1 ≤ E.damp) (jac : J) (x0 step0 x1 : Vec) (r : ℤ × Vec)
    (h : dampStep E jac x0 step0 x1 = .ok r) :
    (r.1 = -3 ∧ r.2 = x1 ∧ boundStep E.doms x0 step0 < 1e-10) ∨
    (r.1 = -2 ∧ 1e-10 ≤ boundStep E.doms x0 step0 ∧ ∀ i < E.maxDamp,
      ∃ st', E.stp jac (move x0 step0 (boundStep E.doms x0 step0 / E.damp ^ i)) = .ok st' ∧
        1 ≤ norm2 E.doms (move x0 step0 (boundStep E.doms x0 step0 / E.damp ^ i)) st' ∧
        norm2 E.doms x0 step0 ≤
          norm2 E.doms (move x0 step0 (boundStep E.doms x0 step0 / E.damp ^ i)) st') ∨
    ((r.1 = 0 ∨ r.1 = 1) ∧ 1e-10 ≤ boundStep E.doms x0 step0 ∧ ∃ k < E.maxDamp, ∃ st,
      r.2 = move x0 step0 (boundStep E.doms x0 step0 / E.damp ^ k) ∧ E.stp jac r.2 = .ok st ∧
      (r.1 = 1 → norm2 E.doms r.2 st ≤ 1) ∧
      (r.1 = 0 → 1 < norm2 E.doms r.2 st ∧ norm2 E.doms r.2 st < norm2 E.doms x0 step0) ∧
      ∀ i < k, ∃ st', E.stp jac (move x0 step0 (boundStep E.doms x0 step0 / E.damp ^ i)) = .ok st' ∧
        1 ≤ norm2 E.doms (move x0 step0 (boundStep E.doms x0 step0 / E.damp ^ i)) st' ∧
        norm2 E.doms x0 step0 ≤
          norm2 E.doms (move x0 step0 (boundStep E.doms x0 step0 / E.damp ^ i)) st') := by
  unfold dampStep at h
  by_cases hb : boundStep E.doms x0 step0 < 1e-10
  · rw [if_pos hb, Outcome.ok.injEq] at h
    subst h
    exact Or.inl ⟨rfl, rfl, hb⟩
  · rw [if_neg hb, mul_one] at h
    rw [not_lt] at hb
    cases hl : dampLoop E jac x0 step0 (norm2 E.doms x0 step0) E.maxDamp
        (boundStep E.doms x0 step0) x1 with
    | throw => simp [hl] at h
    | ub => simp [hl] at h
    | ok q =>
      simp only [hl, Outcome.ok.injEq] at h
      subst h
      obtain ⟨h1, h2⟩ := dampLoop_spec E hE jac x0 step0 _ _ _ _
        (le_trans (by norm_num) hb) q hl
      obtain ⟨y, o⟩ := q
      cases o with
      | none => exact Or.inr (Or.inl ⟨rfl, hb, h2 rfl⟩)
      | some s1 =>
        obtain ⟨k, hk, st, e1, e2, e3, e4, e5⟩ := h1 s1 rfl
        refine Or.inr (Or.inr ⟨?_, hb, k, hk, st, e1, e2, ?_, ?_, e5⟩)
        · simp only [dampStatus]
          split_ifs <;> simp
        · intro hs
          simp only [dampStatus] at hs
          split_ifs at hs with hgt
          · omega
          · rw [not_lt] at hgt
            rw [← e3]
            exact hgt
        · intro hs
          simp only [dampStatus] at hs
          split_ifs at hs with hgt
          · rw [← e3]
            refine ⟨hgt, ?_⟩
            rcases e4 with e4 | e4
            · linarith
            · exact e4
          · omega

theorem move_inBounds {J : Type} (E : Env J) (hE : 1 ≤ E.damp) (x0 step0 : Vec) (hx : InBounds E.doms x0)
    (k : ℕ) : InBounds E.doms (move x0 step0 (boundStep E.doms x0 step0 / E.damp ^ k)) := by
  obtain ⟨h1, -, h3⟩ := boundStep_safe E.doms x0 step0 hx
  obtain ⟨h4, h5⟩ := div_pow_le h1 hE k
  exact h3 _ h4 h5

/-- From a point in bounds, an accepted damped step (status 0 or 1) leads to a point in bounds. -/
theorem dampStep_inBounds {J : Type} (E : Env J) (hE : 1 ≤ E.damp) (jac : J) (x0 step0 x1 : Vec)
    (r : ℤ × Vec) (hx : InBounds E.doms x0) (h : dampStep E jac x0 step0 x1 = .ok r) (hr : 0 ≤ r.1) :
    InBounds E.doms r.2 := by
  rcases dampStep_spec E hE jac x0 step0 x1 r h with ⟨h1, -, -⟩ | ⟨h1, -, -⟩ | ⟨-, -, k, -, st, h1, -⟩
  · omega
  · omega
  · rw [h1]
    exact move_inBounds E hE x0 step0 hx k

theorem sum_map_nonneg {α : Type} (l : List α) (f : α → ℝ) (h : ∀ a, 0 ≤ f a) : 0 ≤ (l.map f).sum := by
  induction l with
  | nil => simp
  | cons a l ih =>
    simp only [List.map_cons, List.sum_cons]
    have := h a
    linarith

theorem le_sum_map {α : Type} (l : List α) (f : α → ℝ) (h : ∀ a, 0 ≤ f a) (a : α) (ha : a ∈ l) :
    f a ≤ (l.map f).sum := by
  induction l with
  | nil => simp at ha
  | cons b l ih =>
    simp only [List.map_cons, List.sum_cons]
    have hb := h b
    have hl := sum_map_nonneg l f h
    rcases List.mem_cons.1 ha with e | e
    · subst e
      linarith
    · have := ih e
      linarith

theorem normSquare_nonneg (d : Dom) (x step : Vec) : 0 ≤ normSquare d x step :=
  sum_map_nonneg _ _ fun _ => sum_map_nonneg _ _ fun _ => mul_self_nonneg _

/-- What the norm criterion says: the norm is at most 1 exactly if the sum of squares of the weighted
components is at most their number. -/
theorem norm2_le_one_iff (ds : List Dom) (x step : Vec) (hs : 0 < size ds) :
    norm2 ds x step ≤ 1 ↔ (ds.map fun d => normSquare d x step).sum ≤ size ds := by
  have hp : (0 : ℝ) < size ds := by exact_mod_cast hs
  unfold norm2
  rw [Real.sqrt_le_one, div_le_one hp]

example : norm2 [dom1 0 1] (fun _ => 0) (fun _ => 1) ≤ 1 := by
  rw [norm2_le_one_iff _ _ _ (by simp [size, dom1])]
  norm_num [normSquare, size, dom1, ewt, Dom.at]

/-- ... so that no single component exceeds its weight times the square root of the number of unknowns. -/
theorem norm2_component (ds : List Dom) (x step : Vec) (hs : 0 < size ds) (h : norm2 ds x step ≤ 1)
    (d : Dom) (hd : d ∈ ds) (m j : ℕ) (hm : m < d.nv) (hj : j < d.np) (hw : 0 < ewt d x m) :
    |step (d.at m j)| ≤ ewt d x m * Real.sqrt (size ds) := by
  rw [norm2_le_one_iff ds x step hs] at h
  have h1 := le_sum_map ds (fun d => normSquare d x step) (fun d => normSquare_nonneg d x step) d hd
  have h2 := le_sum_map (List.range d.nv) (fun n => ((List.range d.np).map fun j =>
      (step (d.at n j) / ewt d x n) * (step (d.at n j) / ewt d x n)).sum)
      (fun _ => sum_map_nonneg _ _ fun _ => mul_self_nonneg _) m (List.mem_range.2 hm)
  have h3 := le_sum_map (List.range d.np) (fun j =>
      (step (d.at m j) / ewt d x m) * (step (d.at m j) / ewt d x m))
      (fun _ => mul_self_nonneg _) j (List.mem_range.2 hj)
  have h4 : (step (d.at m j) / ewt d x m) ^ 2 ≤ size ds := by
    rw [pow_two]
    exact le_trans h3 (le_trans h2 (le_trans h1 h))
  have h5 := Real.abs_le_sqrt h4
  rw [abs_div, abs_of_pos hw, div_le_iff₀ hw] at h5
  linarith

example : |(fun _ => (1 : ℝ)) ((dom1 0 1).at 0 0)| ≤
    ewt (dom1 0 1) (fun _ => 0) 0 * Real.sqrt (size [dom1 0 1]) := by
  refine norm2_component [dom1 0 1] (fun _ => 0) (fun _ => 1) (by simp [size, dom1]) ?_ _ (by simp)
    0 0 (by simp [dom1]) (by simp [dom1]) ?_
  · rw [norm2_le_one_iff _ _ _ (by simp [size, dom1])]
    norm_num [normSquare, size, dom1, ewt, Dom.at]
  · norm_num [ewt, dom1]

/-! ## The Newton iteration -/

/-- What is known of the result of a pass. -/
theorem pass_spec {J : Type} (E : Env J) (hE : 1 ≤ E.damp) (s : St J) (hs : InBounds E.doms s.mx)
    (r : St J ⊕ (ℤ × St J)) (h : pass E s = .ok r) :
    (∀ s', r = .inl s' → InBounds E.doms s'.mx) ∧
    (∀ q, r = .inr q →
      (q.1 = 1 ∧ InBounds E.doms q.2.x1 ∧ ∃ st, E.stp q.2.jac q.2.x1 = .ok st ∧
        norm2 E.doms q.2.x1 st ≤ 1) ∨
      ((q.1 = -2 ∨ q.1 = -3) ∧ q.2.mx = s.mx)) := by
  have hmx : (refresh E s).mx = s.mx := by
    unfold refresh
    split_ifs <;> rfl
  unfold pass at h
  cases hst : E.stp (refresh E s).jac (refresh E s).mx with
  | throw => simp [hst] at h
  | ub => simp [hst] at h
  | ok st =>
    simp only [hst] at h
    cases hd : dampStep E (refresh E s).jac (refresh E s).mx st (refresh E s).x1 with
    | throw => simp [hd] at h
    | ub => simp [hd] at h
    | ok p =>
      simp only [hd, Outcome.ok.injEq] at h
      have hin : InBounds E.doms (refresh E s).mx := by rw [hmx]; exact hs
      have hb := dampStep_inBounds E hE _ _ _ _ p hin hd
      have hsp := dampStep_spec E hE _ _ _ _ p hd
      subst h
      unfold react
      by_cases h0 : p.1 = 0
      · rw [if_pos h0]
        refine ⟨fun s' hs' => ?_, fun q hq => by simp at hq⟩
        simp only [Sum.inl.injEq] at hs'
        subst hs'
        exact hb (by omega)
      · rw [if_neg h0]
        by_cases h1 : p.1 = 1
        · rw [if_pos h1]
          refine ⟨fun s' hs' => by simp at hs', fun q hq => ?_⟩
          simp only [Sum.inr.injEq] at hq
          subst hq
          refine Or.inl ⟨h1, hb (by omega), ?_⟩
          rcases hsp with ⟨e, -⟩ | ⟨e, -⟩ | ⟨-, -, k, -, st', -, e2, e3, -⟩
          · omega
          · omega
          · exact ⟨st', e2, e3 h1⟩
        · rw [if_neg h1]
          have hcase : p.1 = -2 ∨ p.1 = -3 := by
            rcases hsp with ⟨e, -⟩ | ⟨e, -⟩ | ⟨e, -⟩
            · exact Or.inr e
            · exact Or.inl e
            · omega
          rw [if_pos (by omega)]
          split_ifs with ha hr
          · refine ⟨fun s' hs' => by simp at hs', fun q hq => ?_⟩
            simp only [Sum.inr.injEq] at hq
            subst hq
            exact Or.inr ⟨hcase, hmx⟩
          · refine ⟨fun s' hs' => ?_, fun q hq => by simp at hq⟩
            simp only [Sum.inl.injEq] at hs'
            subst hs'
            exact hin
          · refine ⟨fun s' hs' => by simp at hs', fun q hq => ?_⟩
            simp only [Sum.inr.injEq] at hq
            subst hq
            exact Or.inr ⟨hcase, hmx⟩

theorem solveLoop_spec {J : Type} (E : Env J) (hE : 1 ≤ E.damp) :
    ∀ (fuel : ℕ) (s : St J), InBounds E.doms s.mx → ∀ status x,
      solveLoop E fuel s = .ok (some (status, x)) →
      InBounds E.doms x ∧ ((status = 1 ∧ ∃ jac st, E.stp jac x = .ok st ∧ norm2 E.doms x st ≤ 1) ∨
        status = -2 ∨ status = -3) := by
  intro fuel
  induction fuel with
  | zero => intro s _ status x h; simp [solveLoop] at h
  | succ fuel ih =>
    intro s hs status x h
    simp only [solveLoop] at h
    cases hp : pass E s with
    | throw => simp [hp] at h
    | ub => simp [hp] at h
    | ok r =>
      obtain ⟨p1, p2⟩ := pass_spec E hE s hs r hp
      cases r with
      | inl s' =>
        simp only [hp] at h
        exact ih s' (p1 s' rfl) status x h
      | inr q =>
        simp only [hp, Outcome.ok.injEq, Option.some.injEq, Prod.mk.injEq] at h
        obtain ⟨e1, e2⟩ := h
        rcases p2 q rfl with ⟨h1, h2, st, h3, h4⟩ | ⟨h1, h2⟩
        · rw [if_neg (by omega)] at e2
          subst e1 e2
          exact ⟨h2, Or.inl ⟨h1, _, st, h3, h4⟩⟩
        · rw [if_pos (by omega), h2] at e2
          subst e1 e2
          exact ⟨hs, Or.inr h1⟩

/-- The damped Newton iteration, for any domains, Jacobians and step functions and any number of passes:
started in bounds it only ever leaves a point in bounds in `x1`, the status is 1, -2 or -3, and it is 1
only if the norm of the next Newton step at that point is at most 1. -/
theorem solve_sound {J : Type} (E : Env J) (hE : 1 ≤ E.damp) (fuel : ℕ) (x0 x1 : Vec) (jac : J) (age : ℕ)
    (hx : InBounds E.doms x0) (status : ℤ) (x : Vec)
    (h : solve E fuel x0 x1 jac age = .ok (some (status, x))) :
    InBounds E.doms x ∧
    (status = 1 ∨ status = -2 ∨ status = -3) ∧
    (status = 1 → ∃ jac st, E.stp jac x = .ok st ∧ norm2 E.doms x st ≤ 1) := by
  obtain ⟨h1, h2⟩ := solveLoop_spec E hE fuel _ hx status x h
  refine ⟨h1, ?_, fun hs => ?_⟩
  · rcases h2 with h | h | h
    · exact Or.inl h.1
    · exact Or.inr (Or.inl h)
    · exact Or.inr (Or.inr h)
  · rcases h2 with h | h | h
    · exact h.2
    · omega
    · omega

/-! ### Examples and the point left after a failure -/

theorem norm2_dom1 (lo hi : ℝ) (x step : Vec) : norm2 [dom1 lo hi] x step = |step 0| := by
  simp [norm2, normSquare, size, dom1, ewt, Dom.at, ← pow_two, Real.sqrt_sq_eq_abs]

open Classical in
/-- Newton steps 4 at 0, 2 at 4, 1/2 at 6 if `good`, and 10 elsewhere. -/
noncomputable def demo (good : Prop) : Env Unit :=
  { doms := [dom1 (-100) 100], damp := Real.sqrt 2, maxDamp := 7, maxAge := 5,
    stp := fun _ x => .ok fun _ =>
      if x 0 = 0 then 4 else if x 0 = 4 then 2 else if good ∧ x 0 = 6 then 1 / 2 else 10,
    newJac := fun _ => () }

theorem demo_damp (good : Prop) : 1 ≤ (demo good).damp := by
  show 1 ≤ Real.sqrt 2
  rw [Real.one_le_sqrt]
  norm_num

theorem demo_bound (c d : ℝ) (h1 : -100 ≤ c + d) (h2 : c + d ≤ 100) (good : Prop) :
    boundStep (demo good).doms (fun _ => c) (fun _ => d) = 1 := by
  show boundStep [dom1 (-100) 100] _ _ = 1
  rw [boundStep_dom1]
  unfold boundOne
  rw [if_neg (by simpa using h2), if_neg (by simpa using h1)]
  simp

theorem demo_norm (good : Prop) (x : Vec) (d : ℝ) : norm2 (demo good).doms x (fun _ => d) = |d| :=
  norm2_dom1 _ _ _ _

theorem demo_start : InBounds (demo True).doms (fun _ => 0) := by
  intro d hd m hm j hj
  have : d = dom1 (-100) 100 := by simpa [demo] using hd
  subst this
  norm_num [dom1]

theorem move_const (c d a : ℝ) : move (fun _ => c) (fun _ => d) a = fun _ => c + a * d := rfl

/-- The state of the examples at 4. -/
def st4 (age : ℕ) : St Unit :=
  { mx := fun _ => 4, x1 := fun _ => 4, jac := (), age := age, force := false, reeval := 0 }

/-- The first pass of the examples: from 0 to 4, not converged. -/
theorem demo_pass1 (good : Prop) (x1 : Vec) :
    pass (demo good) { mx := fun _ => 0, x1 := x1, jac := (), age := 0, force := false, reeval := 0 } =
      .ok (.inl (st4 1)) := by
  have hr : refresh (demo good)
      { mx := fun _ => 0, x1 := x1, jac := (), age := 0, force := false, reeval := 0 } =
      { mx := fun _ => 0, x1 := x1, jac := (), age := 0, force := false, reeval := 0 } := by
    simp [refresh]
  have hs : (demo good).stp () (fun _ => 0) = .ok (fun _ => 4) := by simp [demo]
  have hs4 : (demo good).stp () (fun _ => 4) = .ok (fun _ => 2) := by norm_num [demo]
  have hd : dampStep (demo good) () (fun _ => 0) (fun _ => 4) x1 = .ok (0, fun _ => 4) := by
    unfold dampStep
    rw [demo_bound 0 4 (by norm_num) (by norm_num), if_neg (by norm_num)]
    have hl : dampLoop (demo good) () (fun _ => 0) (fun _ => 4)
        (norm2 (demo good).doms (fun _ => 0) (fun _ => 4)) (demo good).maxDamp (1 * 1) x1 =
        .ok (fun _ => 4, some 2) := by
      show dampLoop (demo good) () _ _ _ (6 + 1) _ _ = _
      have hm : move (fun _ => 0) (fun _ => 4) (1 * 1) = fun _ => 4 := by
        rw [move_const]
        norm_num
      simp only [dampLoop, hm, hs4, demo_norm]
      norm_num
    rw [hl]
    norm_num [dampStatus]
  unfold pass
  simp only [hr, hs, hd]
  simp [react, st4]

/-- Without the good point, every damped step from 4 is rejected. -/
theorem demo_loop (m : ℕ) : ∀ (a : ℝ) (x1 : Vec), 0 < a →
    ∃ y, dampLoop (demo False) () (fun _ => 4) (fun _ => 2) 2 m a x1 = .ok (y, none) := by
  induction m with
  | zero => intro a x1 _; exact ⟨x1, rfl⟩
  | succ m ih =>
    intro a x1 ha
    have hs : (demo False).stp () (move (fun _ => 4) (fun _ => 2) a) = .ok (fun _ => 10) := by
      rw [move_const]
      have h1 : (4 : ℝ) + a * 2 ≠ 0 := by positivity
      have h2 : (4 : ℝ) + a * 2 ≠ 4 := by
        intro h
        linarith
      have h3 : a ≠ 0 := ha.ne'
      simp [demo, h1, h3]
    simp only [dampLoop, hs, demo_norm]
    rw [if_neg (by norm_num)]
    refine ih _ _ (div_pos ha ?_)
    linarith [demo_damp False]

theorem demo_damp4 (x1 : Vec) :
    ∃ y, dampStep (demo False) () (fun _ => 4) (fun _ => 2) x1 = .ok (-2, y) := by
  obtain ⟨y, hy⟩ := demo_loop (demo False).maxDamp (1 * 1) x1 (by norm_num)
  refine ⟨y, ?_⟩
  unfold dampStep
  rw [demo_bound 4 2 (by norm_num) (by norm_num), if_neg (by norm_num), demo_norm,
    abs_of_pos (by norm_num), hy]
  rfl

/-- **Finding.**  After a failure `x1` holds the last accepted point, not the starting point `x0` as the
comment at MultiNewton.cpp:384 says. -/
theorem solve_failure_not_reset :
    ∃ (E : Env Unit) (x0 : Vec) (x : Vec), 1 ≤ E.damp ∧ (∀ x1, solve E 3 x0 x1 () 0 = .ok (some (-2, x))) ∧
      x 0 ≠ x0 0 := by
  refine ⟨demo False, fun _ => 0, fun _ => 4, demo_damp _, fun x1 => ?_, by norm_num⟩
  have hs4 : (demo False).stp () (fun _ => 4) = .ok (fun _ => 2) := by norm_num [demo]
  unfold solve
  rw [solveLoop, demo_pass1]
  show solveLoop (demo False) 2 _ = _
  have h2 : ∀ s : St Unit, s.mx = (fun _ => 4) → s.age = 1 → s.force = false → s.reeval = 0 →
      ∃ s' : St Unit, pass (demo False) s = .ok (.inl s') ∧ s'.mx = (fun _ => 4) ∧ s'.force = true := by
    intro s e1 e2 e3 e4
    have hr : refresh (demo False) s = s := by
      unfold refresh
      rw [if_neg (by simp [e2, e3, demo])]
    obtain ⟨y, hy⟩ := demo_damp4 s.x1
    unfold pass
    rw [hr, e1, hs4]
    simp only [hy]
    refine ⟨{ s with
        x1 := y
        age := 2
        force := true
        reeval := 1 }, ?_, e1, rfl⟩
    simp [react, e2, e4]
  have h3 : ∀ s : St Unit, s.mx = (fun _ => 4) → s.force = true →
      ∃ s' : St Unit, pass (demo False) s = .ok (.inr (-2, s')) ∧ s'.mx = (fun _ => 4) := by
    intro s e1 e3
    have hr : refresh (demo False) s = { s with
        jac := ()
        age := 0
        force := false } := by
      unfold refresh
      rw [if_pos (by simp [e3])]
    obtain ⟨y, hy⟩ := demo_damp4 s.x1
    unfold pass
    rw [hr]
    simp only [e1, hs4, hy]
    refine ⟨{ s with
        mx := fun _ => 4
        x1 := y
        jac := ()
        age := 1
        force := false }, ?_, rfl⟩
    simp [react]
  obtain ⟨s2, g1, g2, g3⟩ := h2 (st4 1) rfl rfl rfl rfl
  obtain ⟨s3, g4, g5⟩ := h3 s2 g2 g3
  rw [solveLoop, g1]
  show solveLoop (demo False) 1 s2 = _
  rw [solveLoop, g4]
  simp [g5]

/-- A run that converges: 0, 4, 6. -/
theorem demo_converges (x1 : Vec) :
    solve (demo True) 2 (fun _ => 0) x1 () 0 = .ok (some (1, fun _ => 6)) := by
  have hs4 : (demo True).stp () (fun _ => 4) = .ok (fun _ => 2) := by norm_num [demo]
  have hs6 : (demo True).stp () (fun _ => 6) = .ok (fun _ => 1 / 2) := by norm_num [demo]
  have hd : dampStep (demo True) () (fun _ => 4) (fun _ => 2) (fun _ => 4) = .ok (1, fun _ => 6) := by
    unfold dampStep
    rw [demo_bound 4 2 (by norm_num) (by norm_num), if_neg (by norm_num)]
    have hl : dampLoop (demo True) () (fun _ => 4) (fun _ => 2)
        (norm2 (demo True).doms (fun _ => 4) (fun _ => 2)) (demo True).maxDamp (1 * 1) (fun _ => 4) =
        .ok (fun _ => 6, some (1 / 2)) := by
      show dampLoop (demo True) () _ _ _ (6 + 1) _ _ = _
      have hm : move (fun _ => 4) (fun _ => 2) (1 * 1) = fun _ => 6 := by
        rw [move_const]
        norm_num
      simp only [dampLoop, hm, hs6, demo_norm]
      norm_num
    rw [hl]
    norm_num [dampStatus]
  have hp : pass (demo True) (st4 1) = .ok (.inr (1, { st4 2 with x1 := fun _ => 6 })) := by
    have hr : refresh (demo True) (st4 1) = st4 1 := by
      simp [refresh, demo, st4]
    unfold pass
    rw [hr]
    simp only [st4, hs4, hd]
    simp [react]
  unfold solve
  rw [solveLoop, demo_pass1]
  show solveLoop (demo True) 1 _ = _
  rw [solveLoop, hp]
  simp

example : InBounds (demo True).doms (fun _ => 6) ∧
    ∃ jac st, (demo True).stp jac (fun _ => 6) = .ok st ∧ norm2 (demo True).doms (fun _ => 6) st ≤ 1 := by
  have h := solve_sound (demo True) (demo_damp _) 2 (fun _ => 0) (fun _ => 0) () 0 demo_start 1 _
    (demo_converges _)
  exact ⟨h.1, h.2.2 rfl⟩

end Verif.Newton
