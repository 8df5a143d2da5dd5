import Verif.Thermo.SetState
import Mathlib.Tactic.Ring
import Mathlib.Tactic.Linarith
import Mathlib.Tactic.FieldSimp
import Mathlib.Tactic.NormNum
import Mathlib.Tactic.Positivity
import Mathlib.Analysis.SpecialFunctions.Log.Basic

/-!
# Setting the state of a phase by two properties: theorems (C77)
-/

namespace Verif.SetState

open Classical

/-! ## Steps -/

theorem set_true (q : Ph) (cur T : ℝ) : (q.set cur T).1 = true ↔ 0 < T ∧ q.ok T := by
  unfold Ph.set
  by_cases h : T ≤ 0
  · simp [h]
  · by_cases k : q.ok T <;> (simp [h, k]; try linarith)

/-- A setter which fails for a temperature that is not positive leaves the old one. -/
theorem set_neg (q : Ph) (cur T : ℝ) (h : T ≤ 0) : q.set cur T = (false, cur) := by
  simp [Ph.set, h]

theorem set_pos (q : Ph) (cur T : ℝ) (h : 0 < T) (k : q.ok T) : q.set cur T = (true, T) := by
  simp [Ph.set, not_le.2 h, k]

/-- A failure of `setPressure` leaves the new temperature. -/
theorem set_fail (q : Ph) (cur T : ℝ) (h : 0 < T) (k : ¬ q.ok T) : q.set cur T = (false, T) := by
  simp [Ph.set, not_le.2 h, k]

theorem newton_pos (num c : ℝ) (h : 0 < c) :
    newton num c = max (-100) (min 100 (num / c)) := by
  simp [newton, clip100, h.ne']

/-- The step is at most 100 K in either direction, whatever the heat capacity. -/
theorem newton_abs (num c : ℝ) : |newton num c| ≤ 100 := by
  rw [abs_le]
  unfold newton clip100
  split_ifs
  · norm_num
  · norm_num
  · exact ⟨le_max_left _ _, max_le (by norm_num) (min_le_left _ _)⟩

example : newton 5 0 = 100 ∧ newton (-5) 0 = -100 ∧ newton 10 2 = 5 := by
  refine ⟨by simp [newton], by norm_num [newton], ?_⟩
  rw [newton_pos _ _ (by norm_num)]; norm_num

theorem innerH_inr (q : Ph) (Told : ℝ) (unst : Bool) (n : ℕ) :
    ∀ (cur dt T h c d : ℝ), innerH q Told unst n cur dt = .inr (T, h, c, d) →
      0 < T ∧ q.ok T ∧ h = q.H T ∧ c = q.C T ∧ Told / 3 ≤ T ∧
      (d = T - Told ∨ (c < 0 ∧ unst = false ∧ d = (T - Told) / 4)) := by
  induction n with
  | zero => intro cur dt T h c d e; simp [innerH] at e
  | succ n ih =>
    intro cur dt T h c d e
    unfold innerH at e
    set w : ℝ × ℝ := if Told + dt < Told / 3 then (Told / 3, -2 * Told / 3) else (Told + dt, dt)
      with hw
    have w1 : Told / 3 ≤ w.1 ∧ w.2 = w.1 - Told := by
      rw [hw]; split_ifs with k
      · exact ⟨le_refl _, by ring⟩
      · exact ⟨not_lt.1 k, by ring⟩
    simp only at e
    by_cases hs : (q.set cur w.1).1 = true
    · rw [if_pos hs] at e
      have hp := (set_true q cur w.1).1 hs
      by_cases hc : q.C w.1 < 0
      · rw [if_pos hc] at e
        by_cases hn : n = 0
        · rw [if_pos hn] at e
          simp only [Sum.inr.injEq, Prod.mk.injEq] at e
          obtain ⟨rfl, rfl, rfl, rfl⟩ := e
          refine ⟨hp.1, hp.2, rfl, rfl, w1.1, ?_⟩
          cases unst
          · right; refine ⟨hc, rfl, ?_⟩
            simp only [Bool.false_eq_true, if_false]; rw [w1.2]; ring
          · left; simp only [if_true]; exact w1.2
        · rw [if_neg hn] at e
          exact ih _ _ _ _ _ _ e
      · rw [if_neg hc] at e
        simp only [Sum.inr.injEq, Prod.mk.injEq] at e
        obtain ⟨rfl, rfl, rfl, rfl⟩ := e
        exact ⟨hp.1, hp.2, rfl, rfl, w1.1, Or.inl w1.2⟩
    · rw [if_neg hs] at e; simp at e

/-- If the heat capacity at the first trial temperature is not negative, the inner loop ends
there: the trial temperature is the larger of `Told + dt` and `Told / 3`. -/
theorem innerH_first (q : Ph) (Told : ℝ) (unst : Bool) (n : ℕ) (cur dt : ℝ)
    (hT : 0 < Told) (hok : q.ok (max (Told + dt) (Told / 3)))
    (hc : 0 ≤ q.C (max (Told + dt) (Told / 3))) :
    innerH q Told unst (n + 1) cur dt =
      .inr (max (Told + dt) (Told / 3), q.H (max (Told + dt) (Told / 3)),
        q.C (max (Told + dt) (Told / 3)), max (Told + dt) (Told / 3) - Told) := by
  have hp : 0 < max (Told + dt) (Told / 3) := lt_max_of_lt_right (by positivity)
  unfold innerH
  by_cases k : Told + dt < Told / 3
  · rw [max_eq_right k.le] at hok hc hp ⊢
    simp only [k, if_true, set_pos q cur _ hp hok, not_lt.2 hc, if_false]
    congr 4; ring
  · have k' := not_lt.1 k
    rw [max_eq_left k'] at hok hc hp ⊢
    simp only [k, if_true, set_pos q cur _ hp hok, not_lt.2 hc, if_false]
    congr 4; ring

theorem innerS_inr (q : Ph) (Told : ℝ) (unst : Bool) (n : ℕ) :
    ∀ (cur dt T h c d : ℝ), innerS q Told unst n cur dt = .inr (T, h, c, d) →
      0 < T ∧ q.ok T ∧ h = q.H T ∧ c = q.C T ∧
      (d = T - Told ∨ (c < 0 ∧ unst = false ∧ d = (T - Told) / 4)) := by
  induction n with
  | zero => intro cur dt T h c d e; simp [innerS] at e
  | succ n ih =>
    intro cur dt T h c d e
    unfold innerS at e
    simp only at e
    by_cases hs : (q.set cur (Told + dt)).1 = true
    · rw [if_pos hs] at e
      have hp := (set_true q cur _).1 hs
      by_cases hc : q.C (Told + dt) < 0
      · rw [if_pos hc] at e
        by_cases hn : n = 0
        · rw [if_pos hn] at e
          simp only [Sum.inr.injEq, Prod.mk.injEq] at e
          obtain ⟨rfl, rfl, rfl, rfl⟩ := e
          refine ⟨hp.1, hp.2, rfl, rfl, ?_⟩
          cases unst
          · right; refine ⟨hc, rfl, ?_⟩
            simp only [Bool.false_eq_true, if_false]; ring
          · left; simp only [if_true]; ring
        · rw [if_neg hn] at e
          exact ih _ _ _ _ _ _ e
      · rw [if_neg hc] at e
        simp only [Sum.inr.injEq, Prod.mk.injEq] at e
        obtain ⟨rfl, rfl, rfl, rfl⟩ := e
        exact ⟨hp.1, hp.2, rfl, rfl, Or.inl (by ring)⟩
    · rw [if_neg hs] at e; simp at e

/-! ## The end of an iteration -/

/-- Return at the end of an iteration: exact, small error, or small step. -/
theorem finish_conv (tgt rtol cpd scale : ℝ) (s : It) (T h c dt T' : ℝ)
    (e : finish tgt rtol cpd scale s T h c dt = .conv T') :
    T' = T ∧ (h = tgt ∨ |(tgt - h) * scale / max |tgt| (max |cpd| (1 / 10 ^ 5) * T)| < rtol ∨
      |dt / T| < rtol) := by
  unfold finish at e
  by_cases h1 : h = tgt
  · rw [if_pos h1] at e; injection e with e; exact ⟨e.symm, Or.inl h1⟩
  · rw [if_neg h1] at e
    simp only at e
    split_ifs at e with h2
    injection e with e
    exact ⟨e.symm, Or.inr h2⟩

theorem finish_exact (tgt rtol cpd scale : ℝ) (s : It) (T h c dt : ℝ) (e : h = tgt) :
    finish tgt rtol cpd scale s T h c dt = .conv T := by simp [finish, e]

/-- Continuation: none of the three criteria holds, and the brackets are updated on the side of
the new value when it is nearer to the target or the bracket was not on that side. -/
theorem finish_more (tgt rtol cpd scale : ℝ) (s s' : It) (T h c dt : ℝ)
    (e : finish tgt rtol cpd scale s T h c dt = .more s') :
    h ≠ tgt ∧ rtol ≤ |(tgt - h) * scale / max |tgt| (max |cpd| (1 / 10 ^ 5) * T)| ∧
    rtol ≤ |dt / T| ∧ s'.T = T ∧ s'.H = h ∧ s'.C = c ∧ s'.ign = s.ign ∧ s'.unst = s.unst ∧
    ((tgt < h ∧ (s.Htop < tgt ∨ h < s.Htop)) →
      s'.Htop = h ∧ s'.Ttop = T ∧ s'.Hbot = s.Hbot ∧ s'.Tbot = s.Tbot) ∧
    ((h < tgt ∧ (tgt < s.Hbot ∨ s.Hbot < h)) →
      s'.Hbot = h ∧ s'.Tbot = T ∧ s'.Htop = s.Htop ∧ s'.Ttop = s.Ttop) ∧
    (¬ (tgt < h ∧ (s.Htop < tgt ∨ h < s.Htop)) → ¬ (h < tgt ∧ (tgt < s.Hbot ∨ s.Hbot < h)) →
      s'.Hbot = s.Hbot ∧ s'.Tbot = s.Tbot ∧ s'.Htop = s.Htop ∧ s'.Ttop = s.Ttop) := by
  unfold finish at e
  by_cases h1 : h = tgt
  · rw [if_pos h1] at e; cases e
  · rw [if_neg h1] at e
    simp only at e
    by_cases h2 : |(tgt - h) * scale / max |tgt| (max |cpd| (1 / 10 ^ 5) * T)| < rtol ∨
        |dt / T| < rtol
    · rw [if_pos h2] at e; cases e
    · rw [if_neg h2] at e
      push Not at h2
      injection e with e
      subst e
      refine ⟨h1, h2.1, h2.2, ?_⟩
      by_cases a : tgt < h ∧ (s.Htop < tgt ∨ h < s.Htop)
      · have b : ¬ (h < tgt ∧ (tgt < s.Hbot ∨ s.Hbot < h)) := fun b => by linarith [a.1, b.1]
        rw [if_pos a]
        exact ⟨rfl, rfl, rfl, rfl, rfl, fun _ => ⟨rfl, rfl, rfl, rfl⟩, fun k => absurd k b,
          fun k => absurd a k⟩
      · rw [if_neg a]
        by_cases b : h < tgt ∧ (tgt < s.Hbot ∨ s.Hbot < h)
        · rw [if_pos b]
          exact ⟨rfl, rfl, rfl, rfl, rfl, fun k => absurd k a, fun _ => ⟨rfl, rfl, rfl, rfl⟩,
            fun _ k => absurd b k⟩
        · rw [if_neg b]
          exact ⟨rfl, rfl, rfl, rfl, rfl, fun k => absurd k a, fun k => absurd k b,
            fun _ _ => ⟨rfl, rfl, rfl, rfl⟩⟩

/-- What the checks of the temperature limits do to the variables, for the trial temperature
`Tn`. -/
def Checked (q : Ph) (tgt Tn : ℝ) (s s1 : It) : Prop :=
  ((s1.Htop = s.Htop ∧ s1.Ttop = s.Ttop) ∨
    (q.maxTemp + 0.1 < Tn ∧ s.Htop < tgt ∧ tgt ≤ q.H (q.maxTemp + 0.1) ∧ s1.Ttop = q.maxTemp + 0.1 ∧
      s1.Htop = q.H (q.maxTemp + 0.1))) ∧
  ((s1.Hbot = s.Hbot ∧ s1.Tbot = s.Tbot) ∨
    (Tn < q.minTemp - 0.1 ∧ tgt < s.Hbot ∧ q.H (q.minTemp - 0.1) ≤ tgt ∧ s1.Tbot = q.minTemp - 0.1 ∧
      s1.Hbot = q.H (q.minTemp - 0.1)))

theorem checkMax_spec (q : Ph) (tgt : ℝ) (s : It) (T : ℝ) (hT : q.maxTemp + 0.1 < T) :
    Checked q tgt T s (checkMax q tgt s T).2 ∧ (checkMax q tgt s T).2.unst = s.unst ∧
      (checkMax q tgt s T).2.Hbot = s.Hbot ∧ (checkMax q tgt s T).2.Tbot = s.Tbot := by
  unfold checkMax Checked
  simp only
  split_ifs with a b
  · exact ⟨⟨Or.inr ⟨hT, b, a, rfl, rfl⟩, Or.inl ⟨rfl, rfl⟩⟩, rfl, rfl, rfl⟩
  · exact ⟨⟨Or.inl ⟨rfl, rfl⟩, Or.inl ⟨rfl, rfl⟩⟩, rfl, rfl, rfl⟩
  · exact ⟨⟨Or.inl ⟨rfl, rfl⟩, Or.inl ⟨rfl, rfl⟩⟩, rfl, rfl, rfl⟩

theorem checkMin_spec (q : Ph) (tgt : ℝ) (s : It) (T : ℝ) (hT : T < q.minTemp - 0.1) :
    Checked q tgt T s (checkMin q tgt s T).2 ∧ (checkMin q tgt s T).2.unst = s.unst ∧
      (checkMin q tgt s T).2.Htop = s.Htop ∧ (checkMin q tgt s T).2.Ttop = s.Ttop := by
  unfold checkMin Checked
  simp only
  split_ifs with a b
  · exact ⟨⟨Or.inl ⟨rfl, rfl⟩, Or.inr ⟨hT, b, a, rfl, rfl⟩⟩, rfl, rfl, rfl⟩
  · exact ⟨⟨Or.inl ⟨rfl, rfl⟩, Or.inl ⟨rfl, rfl⟩⟩, rfl, rfl, rfl⟩
  · exact ⟨⟨Or.inl ⟨rfl, rfl⟩, Or.inl ⟨rfl, rfl⟩⟩, rfl, rfl, rfl⟩

/-- An iteration either ends by an exception of a setter or by `finish`. -/
theorem hpStep_cases (q : Ph) (tgt rtol : ℝ) (s : It) :
    (∃ T, hpStep q tgt rtol s = .threw T) ∨
    ∃ (s1 : It) (cur T h c d : ℝ),
      innerH q s.T (s.unst || decide (s.C < 0)) 10 cur
        (limitH tgt s (s.unst || decide (s.C < 0)) (newton (tgt - s.H) s.C)) = .inr (T, h, c, d) ∧
      hpStep q tgt rtol s = finish tgt rtol s.C 1 s1 T h c d ∧
      Checked q tgt (s.T + limitH tgt s (s.unst || decide (s.C < 0)) (newton (tgt - s.H) s.C))
        s s1 ∧
      s1.unst = (s.unst || decide (s.C < 0)) := by
  unfold hpStep
  simp only
  generalize limitH tgt s (s.unst || decide (s.C < 0)) (newton (tgt - s.H) s.C) = dt
  generalize hu : (s.unst || decide (s.C < 0)) = u
  set s0 : It := { s with unst := u } with hs0
  have c0 : Checked q tgt (s.T + dt) s s0 := ⟨Or.inl ⟨rfl, rfl⟩, Or.inl ⟨rfl, rfl⟩⟩
  generalize ha : (if q.maxTemp + 0.1 < s.T + dt ∧ ¬ s.ign then
      ((q.set s.T (q.maxTemp + 0.1)).1, (q.set s.T (q.maxTemp + 0.1)).2,
        checkMax q tgt s0 (s.T + dt)) else (true, s.T, s.T + dt, s0)) = a
  have c1 : Checked q tgt (s.T + dt) s a.2.2.2 ∧ a.2.2.2.unst = u ∧ a.2.2.2.Hbot = s.Hbot ∧
      a.2.2.2.Tbot = s.Tbot ∧ (a.2.2.1 = s.T + dt ∨ a.2.2.2.ign = true) := by
    rw [← ha]; split_ifs with k
    · obtain ⟨k1, k2, k3, k4⟩ := checkMax_spec q tgt s0 _ k.1
      refine ⟨k1, k2, k3, k4, ?_⟩
      unfold checkMax; simp only; split_ifs
      · left; rfl
      · left; rfl
      · right; rfl
    · exact ⟨c0, rfl, rfl, rfl, Or.inl rfl⟩
  by_cases h1 : a.1 = true
  swap
  · left; exact ⟨a.2.1, by simp [h1]⟩
  generalize hb : (if a.2.2.1 < q.minTemp - 0.1 ∧ ¬ a.2.2.2.ign then
      ((q.set a.2.1 (q.minTemp - 0.1)).1, (q.set a.2.1 (q.minTemp - 0.1)).2,
        checkMin q tgt a.2.2.2 a.2.2.1) else (true, a.2.1, a.2.2.1, a.2.2.2)) = b
  have c2 : Checked q tgt (s.T + dt) s b.2.2.2 ∧ b.2.2.2.unst = u := by
    rw [← hb]; split_ifs with k
    · obtain ⟨k1, k2, k3, k4⟩ := checkMin_spec q tgt a.2.2.2 a.2.2.1 k.1
      have k5 : a.2.2.1 = s.T + dt := c1.2.2.2.2.resolve_right k.2
      rw [k5] at k1 k2 k3 k4 ⊢
      refine ⟨⟨?_, ?_⟩, k2.trans c1.2.1⟩
      · rw [k3, k4]; exact c1.1.1
      · have := k1.2; rw [c1.2.2.1, c1.2.2.2.1] at this; exact this
    · exact ⟨c1.1, c1.2.1⟩
  by_cases h2 : b.1 = true
  swap
  · left; refine ⟨b.2.1, ?_⟩; simp [h1, h2]
  cases hi : innerH q s.T u 10 b.2.1 dt with
  | inl T => left; exact ⟨T, by simp [h1, h2]⟩
  | inr x =>
    obtain ⟨T, h, c, d⟩ := x
    right
    exact ⟨b.2.2.2, b.2.1, T, h, c, d, hi, by simp [h1, h2], c2.1, c2.2⟩

/-- An iteration of the entropy solver likewise. -/
theorem spStep_cases (q : Ph) (tgt rtol : ℝ) (s : It) :
    (∃ T, spStep q tgt rtol s = .threw T) ∨
    ∃ (s1 : It) (cur T h c d : ℝ),
      innerS q s.T (s.unst || decide (s.C < 0)) 10 cur
        (limitS tgt s (s.unst || decide (s.C < 0)) (newton ((tgt - s.H) * s.T) s.C))
          = .inr (T, h, c, d) ∧
      spStep q tgt rtol s = finish tgt rtol s.C T s1 T h c d ∧
      Checked q tgt
        (s.T + limitS tgt s (s.unst || decide (s.C < 0)) (newton ((tgt - s.H) * s.T) s.C)) s s1 ∧
      s1.unst = (s.unst || decide (s.C < 0)) := by
  unfold spStep
  simp only
  generalize limitS tgt s (s.unst || decide (s.C < 0)) (newton ((tgt - s.H) * s.T) s.C) = dt
  generalize hu : (s.unst || decide (s.C < 0)) = u
  set s0 : It := { s with unst := u } with hs0
  have c0 : Checked q tgt (s.T + dt) s s0 := ⟨Or.inl ⟨rfl, rfl⟩, Or.inl ⟨rfl, rfl⟩⟩
  generalize ha : (if q.maxTemp + 0.1 < s.T + dt ∧ ¬ s.ign then
      ((q.set s.T (q.maxTemp + 0.1)).1, (q.set s.T (q.maxTemp + 0.1)).2,
        checkMax q tgt s0 (s.T + dt))
      else if s.T + dt < q.minTemp - 0.1 ∧ ¬ s.ign then
      ((q.set s.T (q.minTemp - 0.1)).1, (q.set s.T (q.minTemp - 0.1)).2,
        checkMin q tgt s0 (s.T + dt)) else (true, s.T, s.T + dt, s0)) = a
  have c1 : Checked q tgt (s.T + dt) s a.2.2.2 ∧ a.2.2.2.unst = u := by
    rw [← ha]; split_ifs with k k'
    · exact ⟨(checkMax_spec q tgt s0 _ k.1).1, (checkMax_spec q tgt s0 _ k.1).2.1⟩
    · exact ⟨(checkMin_spec q tgt s0 _ k'.1).1, (checkMin_spec q tgt s0 _ k'.1).2.1⟩
    · exact ⟨c0, rfl⟩
  by_cases h1 : a.1 = true
  swap
  · left; exact ⟨a.2.1, by simp [h1]⟩
  cases hi : innerS q s.T u 10 a.2.1 dt with
  | inl T => left; exact ⟨T, by simp [h1]⟩
  | inr x =>
    obtain ⟨T, h, c, d⟩ := x
    right
    exact ⟨a.2.2.2, a.2.1, T, h, c, d, hi, by simp [h1], c1.1, c1.2⟩

/-! ## Invariants and the result -/

/-- The variables belong to the phase: temperature positive, properties those at the temperature,
brackets with their own values. -/
def Inv (q : Ph) (s : It) : Prop :=
  0 < s.T ∧ s.H = q.H s.T ∧ s.C = q.C s.T ∧ s.Htop = q.H s.Ttop ∧ s.Hbot = q.H s.Tbot

theorem inv_init (q : Ph) (T : ℝ) (h : 0 < T) : Inv q (It.init q T) :=
  ⟨h, rfl, rfl, rfl, rfl⟩

theorem inv_finish (q : Ph) (tgt rtol cpd scale Tn : ℝ) (s s1 s' : It) (T h c d : ℝ)
    (hi : Inv q s) (hc : Checked q tgt Tn s s1) (hT : 0 < T) (hh : h = q.H T) (hcc : c = q.C T)
    (e : finish tgt rtol cpd scale s1 T h c d = .more s') : Inv q s' := by
  obtain ⟨-, -, -, hT', hH', hC', -, -, a, b, z⟩ := finish_more _ _ _ _ _ _ _ _ _ _ e
  have top : s1.Htop = q.H s1.Ttop := by
    rcases hc.1 with ⟨k1, k2⟩ | ⟨-, -, -, k1, k2⟩
    · rw [k1, k2]; exact hi.2.2.2.1
    · rw [k2, k1]
  have bot : s1.Hbot = q.H s1.Tbot := by
    rcases hc.2 with ⟨k1, k2⟩ | ⟨-, -, -, k1, k2⟩
    · rw [k1, k2]; exact hi.2.2.2.2
    · rw [k2, k1]
  refine ⟨by rw [hT']; exact hT, by rw [hH', hT', hh], by rw [hC', hT', hcc], ?_, ?_⟩
  · by_cases A : tgt < h ∧ (s1.Htop < tgt ∨ h < s1.Htop)
    · rw [(a A).1, (a A).2.1, hh]
    · by_cases B : h < tgt ∧ (tgt < s1.Hbot ∨ s1.Hbot < h)
      · rw [(b B).2.2.1, (b B).2.2.2, top]
      · rw [(z A B).2.2.1, (z A B).2.2.2, top]
  · by_cases A : tgt < h ∧ (s1.Htop < tgt ∨ h < s1.Htop)
    · rw [(a A).2.2.1, (a A).2.2.2, bot]
    · by_cases B : h < tgt ∧ (tgt < s1.Hbot ∨ s1.Hbot < h)
      · rw [(b B).1, (b B).2.1, hh]
      · rw [(z A B).1, (z A B).2.1, bot]

theorem hpStep_inv (q : Ph) (tgt rtol : ℝ) (s s' : It) (hi : Inv q s)
    (e : hpStep q tgt rtol s = .more s') : Inv q s' := by
  rcases hpStep_cases q tgt rtol s with ⟨T, h⟩ | ⟨s1, cur, T, h, c, d, h1, h2, h3, -⟩
  · rw [h] at e; cases e
  · rw [h2] at e
    obtain ⟨k1, -, k3, k4, -⟩ := innerH_inr _ _ _ _ _ _ _ _ _ _ h1
    exact inv_finish q tgt rtol _ _ _ s s1 s' T h c d hi h3 k1 k3 k4 e

theorem spStep_inv (q : Ph) (tgt rtol : ℝ) (s s' : It) (hi : Inv q s)
    (e : spStep q tgt rtol s = .more s') : Inv q s' := by
  rcases spStep_cases q tgt rtol s with ⟨T, h⟩ | ⟨s1, cur, T, h, c, d, h1, h2, h3, -⟩
  · rw [h] at e; cases e
  · rw [h2] at e
    obtain ⟨k1, -, k3, k4, -⟩ := innerS_inr _ _ _ _ _ _ _ _ _ _ h1
    exact inv_finish q tgt rtol _ _ _ s s1 s' T h c d hi h3 k1 k3 k4 e

theorem run_conv (step : It → StepR) (rep : ℝ) (P : It → Prop)
    (hstep : ∀ s s', P s → step s = .more s' → P s') (n : ℕ) :
    ∀ (s : It) (T : ℝ), P s → run step rep n s = .conv T → ∃ s', P s' ∧ step s' = .conv T := by
  induction n with
  | zero => intro s T _ e; simp [run] at e
  | succ n ih =>
    intro s T hp e
    unfold run at e
    cases hs : step s with
    | more s' => rw [hs] at e; exact ih s' T (hstep s s' hp hs) e
    | conv T' => rw [hs] at e; injection e with e; exact ⟨s, hp, by rw [hs, e]⟩
    | threw T' => rw [hs] at e; cases e

theorem start_pos (q : Ph) (T0 : ℝ) (h0 : 0 < T0)
    (h : (if start q T0 ≠ T0 then q.set T0 (start q T0) else (true, T0)).1 = true) :
    0 < start q T0 := by
  by_cases k : start q T0 = T0
  · rw [k]; exact h0
  · rw [if_pos k] at h; exact ((set_true _ _ _).1 h).1

/-- A successful return of `setState_HP` or `setState_UV`: the temperature is positive, the
pressure could be set there, and either the property equals the target, or its error is below
`rtol` relative to the larger of the target and `cp T` (with the heat capacity before the last
step), or the last step was below `rtol` relative to the temperature (four times that in a region
of negative heat capacity, since `dt` is reduced after the last trial). -/
theorem hp_result (q : Ph) (tgt p rtol T0 T : ℝ) (uv : Bool) (h0 : 0 < T0)
    (e : hpMain q tgt p rtol uv T0 = .conv T) :
    0 < T ∧ q.ok T ∧ ∃ Told, 0 < Told ∧ Told / 3 ≤ T ∧
      (q.H T = tgt ∨
        |tgt - q.H T| < rtol * max |tgt| (max |q.C Told| (1 / 10 ^ 5) * T) ∨
        |T - Told| < rtol * T ∨ (q.C T < 0 ∧ |T - Told| < 4 * (rtol * T))) := by
  unfold hpMain at e
  by_cases hp : p < 1 / 10 ^ 300
  · rw [if_pos hp] at e; cases e
  rw [if_neg hp] at e
  simp only at e
  by_cases hs : (if start q T0 ≠ T0 then q.set T0 (start q T0) else (true, T0)).1 = true
  swap
  · rw [if_neg hs] at e; cases e
  rw [if_pos hs] at e
  obtain ⟨s, hi, hc⟩ := run_conv _ _ (Inv q) (fun s s' => hpStep_inv q tgt rtol s s') _ _ _
    (inv_init q _ (start_pos q T0 h0 hs)) e
  rcases hpStep_cases q tgt rtol s with ⟨T', h⟩ | ⟨s1, cur, T', h, c, d, h1, h2, h3, -⟩
  · rw [h] at hc; cases hc
  rw [h2] at hc
  obtain ⟨rfl, hq⟩ := finish_conv _ _ _ _ _ _ _ _ _ _ hc
  obtain ⟨k1, k2, k3, k4, k5, k6⟩ := innerH_inr _ _ _ _ _ _ _ _ _ _ h1
  refine ⟨k1, k2, s.T, hi.1, k5, ?_⟩
  have hden : 0 < max |tgt| (max |s.C| (1 / 10 ^ 5) * T) :=
    lt_max_of_lt_right (mul_pos (lt_max_of_lt_right (by positivity)) k1)
  rcases hq with hq | hq | hq
  · left; rw [← k3]; exact hq
  · right; left
    rw [mul_one, abs_div, abs_of_pos hden, div_lt_iff₀ hden] at hq
    rw [← hi.2.2.1, ← k3]; exact hq
  · right; right
    rw [abs_div, abs_of_pos k1, div_lt_iff₀ k1] at hq
    rcases k6 with k6 | ⟨k6, -, k7⟩
    · left; rw [← k6]; exact hq
    · right
      refine ⟨by rw [← k4]; exact k6, ?_⟩
      rw [k7, abs_div] at hq
      norm_num at hq
      rw [div_lt_iff₀ (by norm_num)] at hq
      linarith

/-- A successful return of `setState_SP` or `setState_SV`. -/
theorem sp_result (q : Ph) (tgt p rtol T0 T : ℝ) (h0 : 0 < T0)
    (e : spMain q tgt p rtol T0 = .conv T) :
    0 < T ∧ q.ok T ∧ ∃ Told, 0 < Told ∧
      (q.H T = tgt ∨
        |tgt - q.H T| * T < rtol * max |tgt| (max |q.C Told| (1 / 10 ^ 5) * T) ∨
        |T - Told| < rtol * T ∨ (q.C T < 0 ∧ |T - Told| < 4 * (rtol * T))) := by
  unfold spMain at e
  by_cases hp : p < 1 / 10 ^ 300
  · rw [if_pos hp] at e; cases e
  rw [if_neg hp] at e
  simp only at e
  by_cases hs : (if start q T0 ≠ T0 then q.set T0 (start q T0) else (true, T0)).1 = true
  swap
  · rw [if_neg hs] at e; cases e
  rw [if_pos hs] at e
  obtain ⟨s, hi, hc⟩ := run_conv _ _ (Inv q) (fun s s' => spStep_inv q tgt rtol s s') _ _ _
    (inv_init q _ (start_pos q T0 h0 hs)) e
  rcases spStep_cases q tgt rtol s with ⟨T', h⟩ | ⟨s1, cur, T', h, c, d, h1, h2, h3, -⟩
  · rw [h] at hc; cases hc
  rw [h2] at hc
  obtain ⟨rfl, hq⟩ := finish_conv _ _ _ _ _ _ _ _ _ _ hc
  obtain ⟨k1, k2, k3, k4, k6⟩ := innerS_inr _ _ _ _ _ _ _ _ _ _ h1
  refine ⟨k1, k2, s.T, hi.1, ?_⟩
  have hden : 0 < max |tgt| (max |s.C| (1 / 10 ^ 5) * T) :=
    lt_max_of_lt_right (mul_pos (lt_max_of_lt_right (by positivity)) k1)
  rcases hq with hq | hq | hq
  · left; rw [← k3]; exact hq
  · right; left
    rw [abs_div, abs_of_pos hden, div_lt_iff₀ hden, abs_mul, abs_of_pos k1] at hq
    rw [← hi.2.2.1, ← k3]; exact hq
  · right; right
    rw [abs_div, abs_of_pos k1, div_lt_iff₀ k1] at hq
    rcases k6 with k6 | ⟨k6, -, k7⟩
    · left; rw [← k6]; exact hq
    · right
      refine ⟨by rw [← k4]; exact k6, ?_⟩
      rw [k7, abs_div] at hq
      norm_num at hq
      rw [div_lt_iff₀ (by norm_num)] at hq
      linarith

end Verif.SetState
