import Verif.Basic
import Mathlib.Data.Real.Basic
import Mathlib.Algebra.Order.Archimedean.Real.Basic
import Mathlib.Analysis.SpecificLimits.Basic
import Mathlib.Tactic.Linarith
import Mathlib.Tactic.Positivity
import Mathlib.Tactic.SplitIfs
import Mathlib.Tactic.NormNum

/-!
# C46: the pseudo-transient time stepping loop

Model of `OneDim::timeStep` (`src/oneD/OneDim.cpp:397-489`) with the Newton solution of each step, the
number of Jacobian evaluations and the reset of bad values as arbitrary oracles.

Not modelled: log output, the time step callback.
-/

namespace Verif.TimeStep

open Verif

/-- `m_tfactor`, `m_tmin`, `m_tmax`, `m_nsteps_max` (include/cantera/oneD/OneDim.h). -/
structure Opt where
  tfactor : ℝ
  tmin : ℝ
  tmax : ℝ
  nmax : ℕ

/-- The variables of the loop: `n`, `successiveFailures`, `dt`, the solution `x` and the member
`m_nsteps`. -/
structure St (X : Type) where
  n : ℕ
  fails : ℕ
  dt : ℝ
  x : X
  nsteps : ℕ

/-- What the surroundings do in pass `k` of the loop, which may depend on anything: `solve` with the
step size and solution at hand returns `some xnew` (status ≥ 0) or `none` (status < 0); whether the number
of Jacobian evaluations changed; `resetBadValues`. -/
structure Oracle (X : Type) where
  solve : ℕ → ℝ → X → Option X
  jacEval : ℕ → Bool
  reset : X → X

/-- OneDim.cpp:430-450: a successful step. -/
noncomputable def success {X : Type} (o : Opt) (s : St X) (xnew : X) (jacEval : Bool) :
    Outcome (St X) :=
  if s.nsteps + 1 ≥ o.nmax then .throw
  else .ok
    { n := s.n + 1
      fails := 0
      dt := min (if jacEval then s.dt else s.dt * 1.5) o.tmax
      x := xnew
      nsteps := s.nsteps + 1 }

open Classical in
/-- OneDim.cpp:451-473: a failed step. -/
noncomputable def failure {X : Type} (o : Opt) (reset : X → X) (s : St X) : Outcome (St X) :=
  if s.fails + 1 > 2 then
    .ok { s with
      x := reset s.x
      fails := 0 }
  else if s.dt * o.tfactor < o.tmin then .throw
  else
    .ok { s with
      dt := s.dt * o.tfactor
      fails := s.fails + 1 }

/-- OneDim.cpp:412-473: pass `k` of the loop. -/
noncomputable def pass {X : Type} (o : Opt) (E : Oracle X) (k : ℕ) (s : St X) : Outcome (St X) :=
  match E.solve k s.dt s.x with
  | some xnew => success o s xnew (E.jacEval k)
  | none => failure o E.reset s

/-- OneDim.cpp:411-474: the loop from pass `k`, followed for at most `fuel` passes (`none`: not
finished). -/
noncomputable def loop {X : Type} (o : Opt) (E : Oracle X) (nsteps : ℕ) :
    ℕ → ℕ → St X → Outcome (Option (St X))
  | fuel, k, s =>
    if s.n < nsteps then
      match fuel with
      | 0 => .ok none
      | fuel + 1 =>
        match pass o E k s with
        | .ok s' => loop o E nsteps fuel (k + 1) s'
        | .throw => .throw
        | .ub => .ub
    else .ok (some s)

/-- OneDim.cpp:397-489 `timeStep(nsteps, dt, x, ...)`, with `m_nsteps` before the call. -/
noncomputable def timeStep {X : Type} (o : Opt) (E : Oracle X) (fuel nsteps : ℕ) (dt : ℝ) (x : X)
    (msteps : ℕ) : Outcome (Option (St X)) :=
  loop o E nsteps fuel 0 { n := 0, fails := 0, dt := dt, x := x, nsteps := msteps }

/-! ## Termination -/

/-- `dt` can be reduced fewer than `K` times before it is below the minimum. -/
def Reducible (o : Opt) (dt : ℝ) (K : ℕ) : Prop := dt * o.tfactor ^ K < o.tmin

theorem exists_reducible (o : Opt) (h1 : o.tfactor < 1) (hm : 0 < o.tmin) (dt : ℝ) :
    ∃ K, Reducible o dt K := by
  rcases le_or_gt dt 0 with h | h
  · refine ⟨0, ?_⟩
    unfold Reducible
    linarith
  · obtain ⟨K, hK⟩ := exists_pow_lt_of_lt_one (div_pos hm h) h1
    refine ⟨K, ?_⟩
    unfold Reducible
    rw [lt_div_iff₀ h] at hK
    linarith

theorem success_n {X : Type} {o : Opt} {s s' : St X} {xnew : X} {b : Bool}
    (h : success o s xnew b = .ok s') : s'.n = s.n + 1 := by
  unfold success at h
  by_cases hc : s.nsteps + 1 ≥ o.nmax
  · rw [if_pos hc] at h
    simp at h
  · rw [if_neg hc, Outcome.ok.injEq] at h
    subst h
    rfl

/-- From any state the loop ends after finitely many passes. -/
theorem loop_terminates {X : Type} (o : Opt) (h0 : 0 < o.tfactor) (h1 : o.tfactor < 1) (hm : 0 < o.tmin)
    (E : Oracle X) (nsteps : ℕ) :
    ∀ (left : ℕ) (budget : ℕ) (k : ℕ) (s : St X) (K : ℕ), nsteps - s.n = left → Reducible o s.dt K →
      4 * K + s.fails ≤ budget → ∃ fuel, loop o E nsteps fuel k s ≠ .ok none := by
  intro left
  induction left with
  | zero =>
    intro budget k s K hl _ _
    refine ⟨0, ?_⟩
    unfold loop
    rw [if_neg (by omega)]
    simp
  | succ left ihl =>
    intro budget
    induction budget with
    | zero =>
      intro k s K hl hK hb
      have hK0 : K = 0 := by omega
      subst hK0
      have hf : s.fails = 0 := by omega
      have hdt : s.dt < o.tmin := by simpa [Reducible] using hK
      cases hs : E.solve k s.dt s.x with
      | none =>
        refine ⟨1, ?_⟩
        rw [loop, if_pos (by omega)]
        have : pass o E k s = .throw := by
          simp only [pass, hs, failure, hf]
          rw [if_neg (by omega), if_pos]
          rcases le_or_gt s.dt 0 with h | h
          · nlinarith
          · nlinarith
        simp [this]
      | some xnew =>
        cases hp : pass o E k s with
        | ok s' =>
          have hn : s'.n = s.n + 1 := by
            rw [pass, hs] at hp
            exact success_n hp
          obtain ⟨K', hK'⟩ := exists_reducible o h1 hm s'.dt
          obtain ⟨fuel, hfu⟩ := ihl (4 * K' + s'.fails) (k + 1) s' K' (by omega) hK' (le_refl _)
          refine ⟨fuel + 1, ?_⟩
          rw [loop, if_pos (by omega)]
          simpa [hp] using hfu
        | throw =>
          refine ⟨1, ?_⟩
          rw [loop, if_pos (by omega)]
          simp [hp]
        | ub =>
          refine ⟨1, ?_⟩
          rw [loop, if_pos (by omega)]
          simp [hp]
    | succ budget ihb =>
      intro k s K hl hK hb
      cases hs : E.solve k s.dt s.x with
      | some xnew =>
        cases hp : pass o E k s with
        | ok s' =>
          have hn : s'.n = s.n + 1 := by
            rw [pass, hs] at hp
            exact success_n hp
          obtain ⟨K', hK'⟩ := exists_reducible o h1 hm s'.dt
          obtain ⟨fuel, hfu⟩ := ihl (4 * K' + s'.fails) (k + 1) s' K' (by omega) hK' (le_refl _)
          refine ⟨fuel + 1, ?_⟩
          rw [loop, if_pos (by omega)]
          simpa [hp] using hfu
        | throw =>
          refine ⟨1, ?_⟩
          rw [loop, if_pos (by omega)]
          simp [hp]
        | ub =>
          refine ⟨1, ?_⟩
          rw [loop, if_pos (by omega)]
          simp [hp]
      | none =>
        by_cases hf : s.fails + 1 > 2
        · have hp : pass o E k s = .ok { s with
              x := E.reset s.x
              fails := 0 } := by
            simp only [pass, hs, failure]
            rw [if_pos hf]
          obtain ⟨fuel, hfu⟩ := ihb (k + 1) { s with
              x := E.reset s.x
              fails := 0 } K hl hK (by simp only; omega)
          refine ⟨fuel + 1, ?_⟩
          rw [loop, if_pos (by omega)]
          simpa [hp] using hfu
        · by_cases hd : s.dt * o.tfactor < o.tmin
          · refine ⟨1, ?_⟩
            rw [loop, if_pos (by omega)]
            have hp : pass o E k s = .throw := by
              simp only [pass, hs, failure]
              rw [if_neg hf, if_pos hd]
            simp [hp]
          · have hp : pass o E k s = .ok { s with
                dt := s.dt * o.tfactor
                fails := s.fails + 1 } := by
              simp only [pass, hs, failure]
              rw [if_neg hf, if_neg hd]
            cases K with
            | zero =>
              exfalso
              apply hd
              have hdt : s.dt < o.tmin := by simpa [Reducible] using hK
              rcases le_or_gt s.dt 0 with h | h
              · nlinarith
              · nlinarith
            | succ K =>
              obtain ⟨fuel, hfu⟩ := ihb (k + 1) { s with
                  dt := s.dt * o.tfactor
                  fails := s.fails + 1 } K hl
                (by
                  unfold Reducible at hK ⊢
                  rw [pow_succ] at hK
                  calc s.dt * o.tfactor * o.tfactor ^ K = s.dt * (o.tfactor ^ K * o.tfactor) := by ring
                    _ < o.tmin := hK)
                (by simp only; omega)
              refine ⟨fuel + 1, ?_⟩
              rw [loop, if_pos (by omega)]
              simpa [hp] using hfu

/-- For every behaviour of the Newton solver, the time stepping loop ends (by returning or by throwing),
provided the reduction factor is between 0 and 1 and the minimum step is positive. -/
theorem timeStep_terminates {X : Type} (o : Opt) (h0 : 0 < o.tfactor) (h1 : o.tfactor < 1)
    (hm : 0 < o.tmin) (E : Oracle X) (nsteps : ℕ) (dt : ℝ) (x : X) (msteps : ℕ) :
    ∃ fuel, timeStep o E fuel nsteps dt x msteps ≠ .ok none := by
  obtain ⟨K, hK⟩ := exists_reducible o h1 hm dt
  exact loop_terminates o h0 h1 hm E nsteps _ _ 0
    { n := 0, fails := 0, dt := dt, x := x, nsteps := msteps } K rfl hK (le_refl _)

/-- The default options (OneDim.h): `m_tfactor = 0.5`, `m_tmin = 1e-16`, `m_tmax = 1e8`,
`m_nsteps_max = 500`. -/
noncomputable def dflt : Opt := { tfactor := 0.5, tmin := 1e-16, tmax := 1e8, nmax := 500 }

example (E : Oracle ℝ) (nsteps : ℕ) (dt x : ℝ) : ∃ fuel, timeStep dflt E fuel nsteps dt x 0 ≠ .ok none :=
  timeStep_terminates dflt (by norm_num [dflt]) (by norm_num [dflt]) (by norm_num [dflt]) E nsteps dt x 0

/-- **Finding.**  `setTimeStepFactor` (OneDim.h:279-282) takes any factor; with the factor 1 and a
solver that always fails, the loop never ends: neither returns nor throws. -/
theorem timeStep_hangs {X : Type} (o : Opt) (h1 : o.tfactor = 1) (E : Oracle X)
    (hE : ∀ k dt x, E.solve k dt x = none) (nsteps : ℕ) (hn : 0 < nsteps) (dt : ℝ) (hdt : o.tmin ≤ dt)
    (x : X) (msteps fuel : ℕ) : timeStep o E fuel nsteps dt x msteps = .ok none := by
  have : ∀ fuel k (s : St X), s.n < nsteps → s.dt = dt → loop o E nsteps fuel k s = .ok none := by
    intro fuel
    induction fuel with
    | zero =>
      intro k s hs _
      rw [loop, if_pos hs]
    | succ fuel ih =>
      intro k s hs hd
      rw [loop, if_pos hs]
      simp only [pass, hE, failure]
      by_cases hf : s.fails + 1 > 2
      · simp only [if_pos hf]
        exact ih _ _ hs hd
      · rw [if_neg hf, if_neg (by rw [h1, hd]; linarith)]
        exact ih _ _ hs (by simp [h1, hd])
  exact this fuel 0 _ hn rfl

example : timeStep { dflt with tfactor := 1 }
    { solve := fun _ _ _ => none, jacEval := fun _ => false, reset := id } 1000 10 1e-5 (0 : ℝ) 0 =
      .ok none :=
  timeStep_hangs _ rfl _ (fun _ _ _ => rfl) 10 (by norm_num) _ (by norm_num [dflt]) _ _ _

/-! ## What holds at the end -/

/-- What a pass does to the state. -/
theorem pass_cases {X : Type} (o : Opt) (E : Oracle X) (k : ℕ) (s s' : St X) (h : pass o E k s = .ok s') :
    (∃ xnew, E.solve k s.dt s.x = some xnew ∧ s'.n = s.n + 1 ∧ s'.x = xnew ∧ s'.fails = 0 ∧
      s'.nsteps = s.nsteps + 1 ∧ s'.nsteps < o.nmax ∧
      s'.dt = min (if E.jacEval k then s.dt else s.dt * 1.5) o.tmax) ∨
    (E.solve k s.dt s.x = none ∧ s'.n = s.n ∧ s'.nsteps = s.nsteps ∧
      ((2 ≤ s.fails ∧ s'.dt = s.dt ∧ s'.x = E.reset s.x ∧ s'.fails = 0) ∨
       (s.fails < 2 ∧ s'.dt = s.dt * o.tfactor ∧ o.tmin ≤ s'.dt ∧ s'.x = s.x ∧
         s'.fails = s.fails + 1))) := by
  unfold pass at h
  cases hs : E.solve k s.dt s.x with
  | some xnew =>
    simp only [hs] at h
    unfold success at h
    by_cases hc : s.nsteps + 1 ≥ o.nmax
    · rw [if_pos hc] at h
      simp at h
    · rw [if_neg hc, Outcome.ok.injEq] at h
      subst h
      exact Or.inl ⟨xnew, rfl, rfl, rfl, rfl, rfl, by simp only; omega, rfl⟩
  | none =>
    simp only [hs] at h
    unfold failure at h
    by_cases hf : s.fails + 1 > 2
    · rw [if_pos hf, Outcome.ok.injEq] at h
      subst h
      exact Or.inr ⟨rfl, rfl, rfl, Or.inl ⟨by omega, rfl, rfl, rfl⟩⟩
    · rw [if_neg hf] at h
      by_cases hd : s.dt * o.tfactor < o.tmin
      · rw [if_pos hd] at h
        simp at h
      · rw [if_neg hd, Outcome.ok.injEq] at h
        subst h
        exact Or.inr ⟨rfl, rfl, rfl, Or.inr ⟨by omega, rfl, not_lt.1 hd, rfl, rfl⟩⟩

theorem loop_inv {X : Type} (o : Opt) (E : Oracle X) (nsteps : ℕ) (P : St X → Prop)
    (hP : ∀ k s s', s.n < nsteps → P s → pass o E k s = .ok s' → P s') :
    ∀ (fuel k : ℕ) (s r : St X), P s → loop o E nsteps fuel k s = .ok (some r) →
      P r ∧ nsteps ≤ r.n := by
  intro fuel
  induction fuel with
  | zero =>
    intro k s r hs h
    unfold loop at h
    by_cases hn : s.n < nsteps
    · rw [if_pos hn] at h
      simp at h
    · rw [if_neg hn, Outcome.ok.injEq, Option.some.injEq] at h
      subst h
      exact ⟨hs, not_lt.1 hn⟩
  | succ fuel ih =>
    intro k s r hs h
    unfold loop at h
    by_cases hn : s.n < nsteps
    · rw [if_pos hn] at h
      cases hp : pass o E k s with
      | throw => simp [hp] at h
      | ub => simp [hp] at h
      | ok s' =>
        simp only [hp] at h
        exact ih _ s' r (hP k s s' hn hs hp) h
    · rw [if_neg hn, Outcome.ok.injEq, Option.some.injEq] at h
      subst h
      exact ⟨hs, not_lt.1 hn⟩

/-- When `timeStep` returns, exactly the requested number of steps succeeded and were counted, the count is
still below the maximum, and the solution is what the Newton solver returned for the last of them. -/
theorem timeStep_steps {X : Type} (o : Opt) (E : Oracle X) (fuel nsteps : ℕ) (dt : ℝ) (x : X) (msteps : ℕ)
    (r : St X) (h : timeStep o E fuel nsteps dt x msteps = .ok (some r)) :
    r.n = nsteps ∧ r.nsteps = msteps + nsteps ∧
    (0 < nsteps → r.nsteps < o.nmax ∧ ∃ k dt' x', E.solve k dt' x' = some r.x) ∧
    (nsteps = 0 → r.x = x ∧ r.dt = dt) := by
  have key := loop_inv o E nsteps
    (fun s => s.n ≤ nsteps ∧ s.nsteps = msteps + s.n ∧
      (s.n = nsteps → 0 < nsteps → s.nsteps < o.nmax ∧ ∃ k dt' x', E.solve k dt' x' = some s.x) ∧
      (nsteps = 0 → s.x = x ∧ s.dt = dt))
    (by
      intro k s s' hn ⟨h1, h2, h3, h4⟩ hp
      rcases pass_cases o E k s s' hp with ⟨xnew, e1, e2, e3, -, e5, e6, -⟩ | ⟨e1, e2, e3, -⟩
      · refine ⟨by omega, by omega, fun _ _ => ⟨e6, k, s.dt, s.x, by rw [e1, e3]⟩, fun h => by omega⟩
      · refine ⟨by omega, by omega, fun h => by omega, fun h => by omega⟩)
    fuel 0 _ r ⟨by simp, by simp, fun h h' => by simp only at h; omega, fun _ => ⟨rfl, rfl⟩⟩ h
  obtain ⟨⟨h1, h2, h3, h4⟩, h5⟩ := key
  have h6 : r.n = nsteps := by omega
  exact ⟨h6, by omega, fun h => h3 h6 h, h4⟩

/-- The step size that is returned is not below the minimum, and after at least one step not above the
maximum. -/
theorem timeStep_size {X : Type} (o : Opt) (hmm : o.tmin ≤ o.tmax) (h0 : 0 ≤ o.tmin) (E : Oracle X)
    (fuel nsteps : ℕ) (dt : ℝ) (hdt : o.tmin ≤ dt) (x : X) (msteps : ℕ) (r : St X)
    (h : timeStep o E fuel nsteps dt x msteps = .ok (some r)) :
    o.tmin ≤ r.dt ∧ (0 < nsteps → r.dt ≤ o.tmax) := by
  have hn := (timeStep_steps o E fuel nsteps dt x msteps r h).1
  have key := loop_inv o E nsteps
    (fun s => o.tmin ≤ s.dt ∧ (s.n = nsteps → 0 < nsteps → s.dt ≤ o.tmax))
    (by
      intro k s s' hlt ⟨h1, h2⟩ hp
      rcases pass_cases o E k s s' hp with ⟨xnew, -, e2, -, -, -, -, e7⟩ | ⟨-, e2, -, e4⟩
      · refine ⟨?_, fun _ _ => by rw [e7]; exact min_le_right _ _⟩
        rw [e7]
        refine le_min ?_ hmm
        split_ifs
        · exact h1
        · linarith
      · refine ⟨?_, fun h => by omega⟩
        rcases e4 with ⟨-, e, -⟩ | ⟨-, -, e, -⟩
        · rw [e]; exact h1
        · exact e)
    fuel 0 _ r ⟨hdt, fun h h' => by simp only at h; omega⟩ h
  exact ⟨key.1.1, fun hp => key.1.2 hn hp⟩

/-- Fails in the first pass, then succeeds. -/
noncomputable def demo : Oracle ℝ :=
  { solve := fun k _ x => if k = 0 then none else some (x + 1), jacEval := fun _ => false, reset := id }

/-- A run with one failure and one success. -/
theorem demo_run :
    timeStep dflt demo 2 1 1 0 0 =
      .ok (some { n := 1, fails := 0, dt := 0.75, x := 1, nsteps := 1 }) := by
  have p0 : pass dflt demo 0 { n := 0, fails := 0, dt := 1, x := 0, nsteps := 0 } =
      .ok { n := 0, fails := 1, dt := 0.5, x := 0, nsteps := 0 } := by
    have hs : demo.solve 0 1 0 = none := rfl
    simp only [pass, hs, failure]
    rw [if_neg (by norm_num), if_neg (by norm_num [dflt])]
    norm_num [dflt]
  have p1 : pass dflt demo 1 { n := 0, fails := 1, dt := 0.5, x := 0, nsteps := 0 } =
      .ok { n := 1, fails := 0, dt := 0.75, x := 1, nsteps := 1 } := by
    have hs : ∀ d, demo.solve 1 d 0 = some 1 := by
      intro d
      show (if 1 = 0 then none else some ((0 : ℝ) + 1)) = some 1
      norm_num
    have hj : demo.jacEval 1 = false := rfl
    simp only [pass, hs, success, hj]
    rw [if_neg (by norm_num [dflt])]
    norm_num [dflt]
  unfold timeStep
  rw [loop, if_pos (by norm_num)]
  simp only [p0]
  rw [loop, if_pos (by norm_num)]
  simp only [Nat.zero_add, p1]
  rw [loop, if_neg (by norm_num)]

example : dflt.tmin ≤ (0.75 : ℝ) ∧ (0 < 1 → (0.75 : ℝ) ≤ dflt.tmax) :=
  timeStep_size dflt (by norm_num [dflt]) (by norm_num [dflt]) demo 2 1 1 (by norm_num [dflt]) 0 0 _
    demo_run

example : ∃ k dt' x', demo.solve k dt' x' = some 1 := by
  obtain ⟨-, -, h, -⟩ := timeStep_steps dflt demo 2 1 1 0 0 _ demo_run
  exact (h (by norm_num)).2

end Verif.TimeStep
