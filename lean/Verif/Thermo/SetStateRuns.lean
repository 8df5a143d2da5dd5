import Verif.Thermo.SetStateProps

/-!
# Setting the state of a phase by two properties: runs and dispatch (C77)
-/

namespace Verif.SetState

open Classical

/-! ## Explicit iteration of the enthalpy solver -/

/-- With a phase which can be set at every positive temperature and a heat capacity which is
nowhere negative, an iteration moves to the larger of `Told + dt` and `Told / 3`, whatever the
checks of the limits do. -/
theorem hpStep_ok (q : Ph) (tgt rtol : ℝ) (s : It) (hok : ∀ T, 0 < T → q.ok T)
    (hC : ∀ T, 0 ≤ q.C T) (hT : 0 < s.T) (hsC : 0 ≤ s.C) (hu : s.unst = false)
    (hmax : 0 < q.maxTemp + 0.1)
    (hmin : 0 < q.minTemp - 0.1 ∨
      q.minTemp - 0.1 ≤ s.T + limitH tgt s false (newton (tgt - s.H) s.C)) :
    ∃ (T : ℝ) (s1 : It),
      T = max (s.T + limitH tgt s false (newton (tgt - s.H) s.C)) (s.T / 3) ∧
      hpStep q tgt rtol s = finish tgt rtol s.C 1 s1 T (q.H T) (q.C T) (T - s.T) ∧
      Checked q tgt (s.T + limitH tgt s false (newton (tgt - s.H) s.C)) s s1 ∧
      s1.unst = false := by
  have hun : (s.unst || decide (s.C < 0)) = false := by simp [hu, hsC]
  rcases hpStep_cases q tgt rtol s with ⟨T, h⟩ | ⟨s1, cur, T, h, c, d, h1, h2, h3, h4⟩
  · exfalso
    revert h
    unfold hpStep
    simp only
    rw [hun]
    generalize limitH tgt s false (newton (tgt - s.H) s.C) = dt at hmin ⊢
    set s0 : It := { s with unst := false } with hs0
    have hp : 0 < max (s.T + dt) (s.T / 3) := lt_max_of_lt_right (by positivity)
    generalize ha : (if q.maxTemp + 0.1 < s.T + dt ∧ ¬ s.ign then
      ((q.set s.T (q.maxTemp + 0.1)).1, (q.set s.T (q.maxTemp + 0.1)).2,
        checkMax q tgt s0 (s.T + dt)) else (true, s.T, s.T + dt, s0)) = a
    have a1 : a.1 = true ∧ (a.2.2.1 = s.T + dt ∨ a.2.2.2.ign = true) := by
      rw [← ha]; split_ifs
      · refine ⟨by rw [set_pos q _ _ hmax (hok _ hmax)], ?_⟩
        unfold checkMax; simp only; split_ifs
        · left; rfl
        · left; rfl
        · right; rfl
      · exact ⟨rfl, Or.inl rfl⟩
    generalize hb : (if a.2.2.1 < q.minTemp - 0.1 ∧ ¬ a.2.2.2.ign then
      ((q.set a.2.1 (q.minTemp - 0.1)).1, (q.set a.2.1 (q.minTemp - 0.1)).2,
        checkMin q tgt a.2.2.2 a.2.2.1) else (true, a.2.1, a.2.2.1, a.2.2.2)) = b
    have b1 : b.1 = true := by
      rw [← hb]; split_ifs with k
      · have : 0 < q.minTemp - 0.1 := by
          rcases a1.2 with k1 | k1
          · rw [k1] at k
            rcases hmin with h | h
            · exact h
            · exact absurd k.1 (not_lt.2 h)
          · exact absurd k1 k.2
        simp only [set_pos q _ _ this (hok _ this)]
      · rfl
    rw [innerH_first q s.T false 9 b.2.1 dt hT (hok _ hp) (hC _)]
    simp only [a1.1, b1, not_true_eq_false, if_false]
    intro h
    unfold finish at h
    simp only at h
    split_ifs at h
  · rw [hun] at h1 h3 h4
    have hp : 0 < max (s.T + limitH tgt s false (newton (tgt - s.H) s.C)) (s.T / 3) :=
      lt_max_of_lt_right (by positivity)
    rw [innerH_first q s.T false 9 cur _ hT (hok _ hp) (hC _)] at h1
    simp only [Sum.inr.injEq, Prod.mk.injEq] at h1
    obtain ⟨rfl, rfl, rfl, rfl⟩ := h1
    exact ⟨_, s1, rfl, h2, h3, h4⟩

/-- The step limited by the brackets, for an increasing property: downwards when the property is
above the target, never by more than 100 K or three quarters of the way to the lower bracket;
upwards likewise. -/
theorem limitH_range (q : Ph) (tgt : ℝ) (s : It) (hm : StrictMono q.H) (hi : Inv q s)
    (hC : 0 < s.C) :
    (tgt ≤ q.H s.T → limitH tgt s false (newton (tgt - s.H) s.C) ≤ 0 ∧
      -100 ≤ limitH tgt s false (newton (tgt - s.H) s.C) ∧
      (s.Hbot < tgt → 0.75 * (s.Tbot - s.T) ≤ limitH tgt s false (newton (tgt - s.H) s.C))) ∧
    (q.H s.T < tgt → 0 < limitH tgt s false (newton (tgt - s.H) s.C) ∧
      limitH tgt s false (newton (tgt - s.H) s.C) ≤ 100 ∧
      (tgt < s.Htop → limitH tgt s false (newton (tgt - s.H) s.C) ≤ 0.75 * (s.Ttop - s.T))) := by
  have hab := abs_le.1 (newton_abs (tgt - s.H) s.C)
  constructor
  · intro h
    have hn : newton (tgt - s.H) s.C ≤ 0 := by
      rw [newton_pos _ _ hC]
      refine max_le (by norm_num) (min_le_of_right_le (div_nonpos_of_nonpos_of_nonneg ?_ hC.le))
      rw [hi.2.1]; linarith
    have hb : s.Hbot < tgt → s.Tbot < s.T := fun k => by
      rw [hi.2.2.2.2] at k; exact hm.lt_iff_lt.1 (lt_of_lt_of_le k h)
    generalize newton (tgt - s.H) s.C = d at hab hn ⊢
    unfold limitH
    rw [if_pos (Or.inr ⟨hn, by simp⟩)]
    split_ifs with k
    · have := hb k.1
      refine ⟨by linarith, by linarith [k.2], fun _ => le_refl _⟩
    · refine ⟨hn, hab.1, fun k1 => ?_⟩
      have k2 : ¬ (s.T + d < 0.75 * s.Tbot + 0.25 * s.T) := fun k3 => k ⟨k1, k3⟩
      linarith
  · intro h
    have hn : 0 < newton (tgt - s.H) s.C := by
      rw [newton_pos _ _ hC]
      refine lt_max_of_lt_right (lt_min (by norm_num) (div_pos ?_ hC))
      rw [hi.2.1]; linarith
    have hb : tgt < s.Htop → s.T < s.Ttop := fun k => by
      rw [hi.2.2.2.1] at k; exact hm.lt_iff_lt.1 (h.trans k)
    generalize newton (tgt - s.H) s.C = d at hab hn ⊢
    unfold limitH
    rw [if_neg (by simp; exact hn)]
    split_ifs with k
    · have := hb k.1
      refine ⟨by linarith, by linarith [k.2], fun _ => le_refl _⟩
    · refine ⟨hn, hab.2, fun k1 => ?_⟩
      have k2 : ¬ (0.75 * s.Ttop + 0.25 * s.T < s.T + d) := fun k3 => k ⟨k1, k3⟩
      linarith

/-- The step of the entropy solver limited by the brackets, for an increasing property: not beyond
the bracket on the side of the target. -/
theorem limitS_range (q : Ph) (tgt num : ℝ) (s : It) (hm : StrictMono q.H) (hi : Inv q s)
    (hC : 0 < s.C) (hnum : num = (tgt - s.H) * s.T) :
    (tgt ≤ q.H s.T → limitS tgt s false (newton num s.C) ≤ 0 ∧
      -100 ≤ limitS tgt s false (newton num s.C) ∧
      (s.Hbot < tgt → s.Tbot ≤ s.T + limitS tgt s false (newton num s.C))) ∧
    (q.H s.T < tgt → 0 < limitS tgt s false (newton num s.C) ∧
      limitS tgt s false (newton num s.C) ≤ 100 ∧
      (tgt < s.Htop → s.T + limitS tgt s false (newton num s.C) ≤ s.Ttop)) := by
  have hab := abs_le.1 (newton_abs num s.C)
  have hTp := hi.1
  constructor
  · intro h
    have hn : newton num s.C ≤ 0 := by
      rw [newton_pos _ _ hC]
      refine max_le (by norm_num) (min_le_of_right_le (div_nonpos_of_nonpos_of_nonneg ?_ hC.le))
      rw [hnum, hi.2.1]; exact mul_nonpos_of_nonpos_of_nonneg (by linarith) hTp.le
    have hb : s.Hbot < tgt → s.Tbot < s.T := fun k => by
      rw [hi.2.2.2.2] at k; exact hm.lt_iff_lt.1 (lt_of_lt_of_le k h)
    generalize newton num s.C = d at hab hn ⊢
    unfold limitS
    rw [if_pos (Or.inr ⟨hn, by simp⟩)]
    split_ifs with k
    · have := hb k.1
      refine ⟨by linarith, by linarith [k.2], fun _ => by linarith⟩
    · exact ⟨hn, hab.1, fun k1 => not_lt.1 (fun k3 => k ⟨k1, k3⟩)⟩
  · intro h
    have hn : 0 < newton num s.C := by
      rw [newton_pos _ _ hC]
      refine lt_max_of_lt_right (lt_min (by norm_num) (div_pos ?_ hC))
      rw [hnum, hi.2.1]; exact mul_pos (by linarith) hTp
    have hb : tgt < s.Htop → s.T < s.Ttop := fun k => by
      rw [hi.2.2.2.1] at k; exact hm.lt_iff_lt.1 (h.trans k)
    generalize newton num s.C = d at hab hn ⊢
    unfold limitS
    rw [if_neg (by simp; exact hn)]
    split_ifs with k
    · have := hb k.1
      refine ⟨by linarith, by linarith [k.2], fun _ => by linarith⟩
    · exact ⟨hn, hab.2, fun k1 => not_lt.1 (fun k3 => k ⟨k1, k3⟩)⟩

/-- A step beyond the bracket is replaced by three quarters of the way to it. -/
theorem limitS_cut (tgt dt : ℝ) (s : It) :
    (dt ≤ 0 → s.Hbot < tgt → s.T + dt < s.Tbot → limitS tgt s false dt = 3 / 4 * (s.Tbot - s.T)) ∧
    (0 < dt → tgt < s.Htop → s.Ttop < s.T + dt → limitS tgt s false dt = 3 / 4 * (s.Ttop - s.T)) := by
  constructor
  · intro h1 h2 h3
    rw [limitS, if_pos (Or.inr ⟨h1, by simp⟩), if_pos ⟨h2, h3⟩]; norm_num
  · intro h1 h2 h3
    rw [limitS, if_neg (by simp; exact h1), if_pos ⟨h2, h3⟩]; norm_num

/-- In an unstable phase the roles of the brackets are exchanged, in both solvers. -/
theorem limit_unstable (tgt dt : ℝ) (s : It) :
    (0 < dt → s.Hbot < tgt → s.T + dt < s.Tbot →
      limitS tgt s true dt = 3 / 4 * (s.Tbot - s.T)) ∧
    (0 < dt → s.Hbot < tgt → s.T + dt < 3 / 4 * s.Tbot + 1 / 4 * s.T →
      limitH tgt s true dt = 3 / 4 * (s.Tbot - s.T)) ∧
    (dt ≤ 0 → tgt < s.Htop → s.Ttop < s.T + dt →
      limitS tgt s true dt = 3 / 4 * (s.Ttop - s.T)) ∧
    (dt ≤ 0 → tgt < s.Htop → 3 / 4 * s.Ttop + 1 / 4 * s.T < s.T + dt →
      limitH tgt s true dt = 3 / 4 * (s.Ttop - s.T)) := by
  refine ⟨fun h1 h2 h3 => ?_, fun h1 h2 h3 => ?_, fun h1 h2 h3 => ?_, fun h1 h2 h3 => ?_⟩
  · rw [limitS, if_pos (Or.inl ⟨h1, rfl⟩), if_pos ⟨h2, h3⟩]; norm_num
  · rw [limitH, if_pos (Or.inl ⟨h1, rfl⟩), if_pos ⟨h2, by norm_num; linarith⟩]; norm_num
  · rw [limitS, if_neg (by simp; exact h1), if_pos ⟨h2, h3⟩]; norm_num
  · rw [limitH, if_neg (by simp; exact h1), if_pos ⟨h2, by norm_num; linarith⟩]; norm_num

example : limitS 5 ⟨300, 0, 1, 6, 350, 0, 300, false, false⟩ false 100 = 75 / 2 := by
  rw [(limitS_cut _ _ _).2 (by norm_num) (by norm_num) (by norm_num)]; norm_num

/-- A check which finds that the limit does not bound the target sets the flag; otherwise the flag
is kept. -/
theorem check_ign (q : Ph) (tgt T : ℝ) (s : It) :
    ((checkMax q tgt s T).2.ign = true ↔ q.H (q.maxTemp + 0.1) < tgt ∨ s.ign = true) ∧
    ((checkMin q tgt s T).2.ign = true ↔ tgt < q.H (q.minTemp - 0.1) ∨ s.ign = true) := by
  constructor
  · unfold checkMax
    by_cases h : tgt ≤ q.H (q.maxTemp + 0.1)
    · by_cases k : s.Htop < tgt <;> simp [h, k, not_lt.2 h]
    · simp [h, not_le.1 h]
  · unfold checkMin
    by_cases h : q.H (q.minTemp - 0.1) ≤ tgt
    · by_cases k : tgt < s.Hbot <;> simp [h, k, not_lt.2 h]
    · simp [h, not_le.1 h]

/-- Next temperature of an iteration. -/
def Next (r : StepR) (T : ℝ) : Prop := r = .conv T ∨ ∃ s', r = .more s' ∧ s'.T = T

theorem finish_next (tgt rtol cpd scale : ℝ) (s : It) (T h c dt : ℝ) :
    Next (finish tgt rtol cpd scale s T h c dt) T := by
  cases e : finish tgt rtol cpd scale s T h c dt with
  | more s' => right; exact ⟨s', rfl, (finish_more _ _ _ _ _ _ _ _ _ _ e).2.2.2.1⟩
  | conv T' => left; rw [(finish_conv _ _ _ _ _ _ _ _ _ _ e).1]
  | threw T' =>
    exfalso; unfold finish at e; simp only at e; split_ifs at e

/-- For an increasing property with positive heat capacity: an iteration goes in the direction of
the target, by at most 100 K, not below a third of the temperature, and stays strictly inside the
bracket on that side. -/
theorem hp_step_bracket (q : Ph) (tgt rtol : ℝ) (s : It) (hok : ∀ T, 0 < T → q.ok T)
    (hm : StrictMono q.H) (hC : ∀ T, 0 < q.C T) (hi : Inv q s) (hu : s.unst = false)
    (hmax : 0 < q.maxTemp + 0.1) (hmin : 0 < q.minTemp - 0.1) :
    ∃ T, Next (hpStep q tgt rtol s) T ∧ s.T / 3 ≤ T ∧ |T - s.T| ≤ 100 ∧
      (tgt ≤ q.H s.T → T ≤ s.T ∧ (s.Hbot < tgt → s.Tbot < T)) ∧
      (q.H s.T < tgt → s.T < T ∧ (tgt < s.Htop → T < s.Ttop)) := by
  have hsC : 0 < s.C := by rw [hi.2.2.1]; exact hC _
  obtain ⟨T, s1, hT, e, -, -⟩ := hpStep_ok q tgt rtol s hok (fun T => (hC T).le) hi.1 hsC.le hu hmax
    (Or.inl hmin)
  have hr := limitH_range q tgt s hm hi hsC
  have hTp := hi.1
  generalize limitH tgt s false (newton (tgt - s.H) s.C) = d at hT hr
  refine ⟨T, by rw [e]; exact finish_next _ _ _ _ _ _ _ _ _, by rw [hT]; exact le_max_right _ _,
    ?_, ?_, ?_⟩
  · rw [abs_le]
    rcases le_or_gt tgt (q.H s.T) with h | h
    · obtain ⟨h1, h2, -⟩ := hr.1 h
      constructor
      · have : s.T + d ≤ T := by rw [hT]; exact le_max_left _ _
        linarith
      · have : T ≤ s.T := by rw [hT]; exact max_le (by linarith) (by linarith)
        linarith
    · obtain ⟨h1, h2, -⟩ := hr.2 h
      rw [max_eq_left (by linarith)] at hT
      constructor <;> linarith
  · intro h
    obtain ⟨h1, h2, h3⟩ := hr.1 h
    refine ⟨by rw [hT]; exact max_le (by linarith) (by linarith), fun k => ?_⟩
    have hb : s.Tbot < s.T := by
      rw [hi.2.2.2.2] at k; exact hm.lt_iff_lt.1 (lt_of_lt_of_le k h)
    have := h3 k
    have : s.T + d ≤ T := by rw [hT]; exact le_max_left _ _
    linarith
  · intro h
    obtain ⟨h1, h2, h3⟩ := hr.2 h
    rw [max_eq_left (by linarith)] at hT
    refine ⟨by linarith, fun k => ?_⟩
    have hb : s.T < s.Ttop := by
      rw [hi.2.2.2.1] at k; exact hm.lt_iff_lt.1 (h.trans k)
    have := h3 k
    linarith

/-- A phase with constant heat capacity `c`. -/
noncomputable def constCp (c b minT maxT : ℝ) : Ph := ⟨fun T => c * T + b, fun _ => c, fun _ => True, minT, maxT⟩

example (tgt rtol : ℝ) : ∃ T, Next (hpStep (constCp 2 0 200 3000) tgt rtol
    (It.init (constCp 2 0 200 3000) 300)) T ∧ |T - 300| ≤ 100 := by
  obtain ⟨T, h1, -, h3, -⟩ := hp_step_bracket (constCp 2 0 200 3000) tgt rtol
    (It.init (constCp 2 0 200 3000) 300) (fun _ _ => trivial)
    (fun a b h => by simp only [constCp]; linarith) (fun _ => by norm_num [constCp])
    (inv_init _ _ (by norm_num)) rfl (by norm_num [constCp]) (by norm_num [constCp])
  exact ⟨T, h1, h3⟩

theorem start_eq (q : Ph) (T0 : ℝ) (h1 : q.minTemp - 0.1 ≤ T0) (h2 : T0 ≤ q.maxTemp + 0.1) :
    start q T0 = T0 := by
  simp [start, not_lt.2 h1, not_lt.2 h2]

/-- A start outside the limits is moved to one kelvin inside them. -/
theorem start_outside (q : Ph) (T0 : ℝ) :
    (q.maxTemp + 0.1 < T0 → start q T0 = q.maxTemp - 0.9) ∧
    (q.minTemp ≤ q.maxTemp → T0 < q.minTemp - 0.1 → start q T0 = q.minTemp + 0.9) := by
  constructor
  · intro h; simp only [start, h, if_true]; norm_num; ring
  · intro h0 h
    have : ¬ (q.maxTemp + 0.1 < T0) := by norm_num at *; linarith
    simp only [start, this, h, if_true, if_false]; norm_num; ring

example : start (constCp 1 0 200 3000) 5000 = 2999.1 ∧ start (constCp 1 0 200 3000) 100 = 200.9 := by
  constructor <;> norm_num [start, constCp]

/-- Constant heat capacity: a target within 100 K and above a third of the temperature is hit
exactly, in one step — also outside the limits of the temperature, with no error. -/
theorem hp_const_exact (c b minT maxT tgt p rtol T0 T : ℝ) (uv : Bool) (hc : 0 < c) (h0 : 0 < T0)
    (hp : 1 / 10 ^ 300 ≤ p) (hmin : 0 < minT - 0.1) (h1 : minT - 0.1 ≤ T0) (h2 : T0 ≤ maxT + 0.1)
    (h3 : |T - T0| ≤ 100) (h4 : T0 / 3 ≤ T) (ht : tgt = c * T + b) :
    hpMain (constCp c b minT maxT) tgt p rtol uv T0 = .conv T := by
  have hs : start (constCp c b minT maxT) T0 = T0 := start_eq _ _ h1 h2
  unfold hpMain
  simp only [hs, not_lt.2 hp, if_false, ne_eq, not_true_eq_false, if_true]
  rw [show (500 : ℕ) = 499 + 1 from rfl]
  unfold run
  have hn : newton (tgt - (It.init (constCp c b minT maxT) T0).H)
      (It.init (constCp c b minT maxT) T0).C = T - T0 := by
    have e : tgt - (It.init (constCp c b minT maxT) T0).H = c * (T - T0) := by
      rw [ht]; simp only [It.init, constCp]; ring
    rw [e]
    show newton (c * (T - T0)) c = _
    rw [newton_pos _ _ hc, mul_div_cancel_left₀ _ hc.ne']
    rw [abs_le] at h3
    rw [min_eq_right h3.2, max_eq_right h3.1]
  have hl : limitH tgt (It.init (constCp c b minT maxT) T0) false (T - T0) = T - T0 := by
    unfold limitH
    have hH : (It.init (constCp c b minT maxT) T0).H = c * T0 + b := rfl
    by_cases hd : T - T0 ≤ 0
    · rw [if_pos (Or.inr ⟨hd, by simp⟩)]
      rw [if_neg]
      rintro ⟨k, -⟩
      have k' : c * T0 + b < tgt := k
      rw [ht] at k'
      have : c * T ≤ c * T0 := mul_le_mul_of_nonneg_left (by linarith) hc.le
      linarith
    · rw [if_neg (by simp; linarith)]
      rw [if_neg]
      rintro ⟨k, -⟩
      have k' : tgt < c * T0 + b := k
      rw [ht] at k'
      have : c * T0 ≤ c * T := mul_le_mul_of_nonneg_left (by linarith) hc.le
      linarith
  obtain ⟨T', s1, hT', e, -, -⟩ := hpStep_ok (constCp c b minT maxT) tgt rtol
    (It.init (constCp c b minT maxT) T0) (fun _ _ => trivial) (fun _ => hc.le) h0 hc.le rfl
    (by show (0:ℝ) < maxT + 0.1; linarith) (Or.inl hmin)
  rw [hn, hl] at hT'
  have : T' = T := by
    rw [hT']
    show max (T0 + (T - T0)) (T0 / 3) = T
    rw [add_sub_cancel, max_eq_left h4]
  subst this
  rw [e, finish_exact _ _ _ _ _ _ _ _ _ (by rw [ht]; rfl)]

/-- The limits of the temperature do not limit the result. -/
theorem hp_outside_limits :
    hpMain (constCp 1000 0 200 3000) 3080000 101325 (1 / 10 ^ 9) false 2990 = .conv 3080 := by
  have : (1 : ℝ) / 10 ^ 300 ≤ 1 := by
    rw [div_le_one (by positivity)]; exact one_le_pow₀ (by norm_num)
  apply hp_const_exact <;> first | linarith | norm_num [abs_le]

/-- Heating with constant heat capacity over any distance of up to 50 000 K: steps of 100 K, and
the solver returns a temperature between start and target which is exact or satisfies one of the
two criteria. -/
theorem run_const_heat (c b minT maxT tgt rtol rep Tt : ℝ) (hc : 0 < c) (ht : tgt = c * Tt + b)
    (hmax : 0 < maxT + 0.1) (n : ℕ) :
    ∀ (s : It), Inv (constCp c b minT maxT) s → s.unst = false → s.Htop ≤ tgt →
      s.T ≤ Tt → minT - 0.1 ≤ s.T → Tt - s.T ≤ 100 * n → 0 < n →
      ∃ T, run (hpStep (constCp c b minT maxT) tgt rtol) rep n s = .conv T ∧ s.T ≤ T ∧ T ≤ Tt ∧
        (T = Tt ∨ c * (Tt - T) < rtol * max |tgt| (max c (1 / 10 ^ 5) * T) ∨ 100 < rtol * T) := by
  induction n with
  | zero => intro s _ _ _ _ _ _ h; exact absurd h (lt_irrefl 0)
  | succ n ih =>
    intro s hi hu htop hT hmin hd _
    have hsH : s.H = c * s.T + b := hi.2.1
    have hsC : s.C = c := hi.2.2.1
    have hn : newton (tgt - s.H) s.C = min 100 (Tt - s.T) := by
      rw [hsC, newton_pos _ _ hc, hsH, ht]
      have : (c * Tt + b - (c * s.T + b)) / c = Tt - s.T := by field_simp; ring
      rw [this, max_eq_right (le_min (by norm_num) (by linarith))]
    have hn0 : 0 ≤ newton (tgt - s.H) s.C := by
      rw [hn]; exact le_min (by norm_num) (by linarith)
    have hl : limitH tgt s false (newton (tgt - s.H) s.C) = min 100 (Tt - s.T) := by
      rw [← hn]
      unfold limitH
      by_cases hz : newton (tgt - s.H) s.C ≤ 0
      · have hz' : newton (tgt - s.H) s.C = 0 := le_antisymm hz hn0
        rw [hz', if_pos (Or.inr ⟨le_refl _, by simp⟩), if_neg]
        rintro ⟨k1, k2⟩
        -- the target is reached, so the lower bracket is below
        have hTt : Tt = s.T := by
          rw [hz'] at hn
          rcases min_choice (100 : ℝ) (Tt - s.T) with m | m <;> rw [m] at hn <;> linarith
        have k3 : s.Hbot = c * s.Tbot + b := hi.2.2.2.2
        rw [k3, ht, hTt] at k1
        have : s.Tbot < s.T := lt_of_mul_lt_mul_left (by linarith) hc.le
        linarith
      · rw [if_neg (by simp; linarith), if_neg (fun k => not_lt.2 htop k.1)]
    have hd0 : 0 ≤ min 100 (Tt - s.T) := le_min (by norm_num) (by linarith)
    obtain ⟨T, s1, hT', e, hch, hu1⟩ := hpStep_ok (constCp c b minT maxT) tgt rtol s
      (fun _ _ => trivial) (fun _ => hc.le) hi.1 (by rw [hsC]; exact hc.le) hu hmax
      (Or.inr (by rw [hl]; show minT - 0.1 ≤ _; linarith))
    rw [hl, max_eq_left (by linarith [hi.1])] at hT'
    have hTle : T ≤ Tt := by rw [hT']; linarith [min_le_right 100 (Tt - s.T)]
    have hTp : 0 < T := by rw [hT']; linarith [hi.1]
    unfold run
    cases hf : hpStep (constCp c b minT maxT) tgt rtol s with
    | threw T1 =>
      exfalso; rw [e] at hf; unfold finish at hf; simp only at hf; split_ifs at hf
    | conv T1 =>
      simp only
      rw [e] at hf
      obtain ⟨rfl, hq⟩ := finish_conv _ _ _ _ _ _ _ _ _ _ hf
      refine ⟨T1, rfl, by rw [hT']; linarith, hTle, ?_⟩
      by_cases hx : T1 = Tt
      · left; exact hx
      right
      have hH : (constCp c b minT maxT).H T1 = c * T1 + b := rfl
      have hlt : T1 < Tt := lt_of_le_of_ne hTle hx
      have hstep : T1 - s.T = 100 := by
        rcases min_choice (100 : ℝ) (Tt - s.T) with m | m
        · rw [m] at hT'; linarith
        · rw [m] at hT'; exfalso; apply hx; linarith
      have hden : 0 < max |tgt| (max |s.C| (1 / 10 ^ 5) * T1) :=
        lt_max_of_lt_right (mul_pos (lt_max_of_lt_right (by positivity)) hTp)
      rcases hq with hq | hq | hq
      · exfalso; apply hx; rw [hH, ht] at hq
        exact mul_left_cancel₀ hc.ne' (by linarith)
      · left
        rw [mul_one, abs_div, abs_of_pos hden, div_lt_iff₀ hden, hH, ht, hsC, abs_of_pos hc] at hq
        have : |c * Tt + b - (c * T1 + b)| = c * (Tt - T1) := by
          rw [show c * Tt + b - (c * T1 + b) = c * (Tt - T1) by ring]
          exact abs_of_nonneg (mul_nonneg hc.le (by linarith))
        rw [this] at hq
        rw [ht]; exact hq
      · right
        rw [hstep, abs_div, abs_of_pos hTp, div_lt_iff₀ hTp] at hq
        norm_num at hq
        exact hq
    | more s' =>
      simp only
      have hi' := hpStep_inv _ _ _ _ _ hi hf
      rw [e] at hf
      obtain ⟨g0, -, -, g1, g2, g3, -, g4, ga, gb, gz⟩ := finish_more _ _ _ _ _ _ _ _ _ _ hf
      have hH : (constCp c b minT maxT).H T = c * T + b := rfl
      have hne : T ≠ Tt := fun h => g0 (by rw [hH, h, ht])
      have hstep : T = s.T + 100 := by
        rcases min_choice (100 : ℝ) (Tt - s.T) with m | m
        · rw [m] at hT'; exact hT'
        · rw [m] at hT'; exfalso; apply hne; linarith
      have hlt : T < Tt := lt_of_le_of_ne hTle hne
      have hHt : (constCp c b minT maxT).H T < tgt := by
        rw [hH, ht]; have := mul_lt_mul_of_pos_left hlt hc; linarith
      have hcast : Tt - s'.T ≤ 100 * n := by
        rw [g1, hstep]; push_cast at hd; linarith
      have hn1 : 0 < n := by
        rcases Nat.eq_zero_or_pos n with rfl | h
        · simp at hcast; rw [g1] at hcast; linarith
        · exact h
      -- the check of the maximum cannot set a bracket above the target
      have htop' : s'.Htop ≤ tgt := by
        have hs1 : s1.Htop ≤ tgt := by
          rcases hch.1 with ⟨k, -⟩ | ⟨k0, k1, k2, k3, k4⟩
          · rw [k]; exact htop
          · exfalso
            have k2' : tgt ≤ c * (maxT + 0.1) + b := k2
            have : Tt ≤ maxT + 0.1 := le_of_mul_le_mul_left (by linarith) hc
            have k0' : maxT + 0.1 < s.T + limitH tgt s false (newton (tgt - s.H) s.C) := k0
            rw [hl] at k0'
            linarith [min_le_right 100 (Tt - s.T)]
        by_cases B : (constCp c b minT maxT).H T < tgt ∧
            (tgt < s1.Hbot ∨ s1.Hbot < (constCp c b minT maxT).H T)
        · rw [(gb B).2.2.1]; exact hs1
        · rw [(gz (fun k => by linarith [k.1]) B).2.2.1]; exact hs1
      obtain ⟨T2, r1, r2, r3, r4⟩ := ih s' hi' (g4.trans hu1) htop' (by rw [g1]; exact hTle)
        (by rw [g1, hstep]; linarith) hcast hn1
      exact ⟨T2, r1, by rw [g1, hstep] at r2; linarith, r3, r4⟩

end Verif.SetState
