import Verif.Thermo.TpxProps3

/-!
# Pure fluids: particular equations of state

Witnesses: the hypotheses of the theorems can be met, and the weak points are reachable.
-/

namespace Verif.Tpx

open Verif

/-! ## A fluid whose pressure does not depend on density -/

/-- Pressure `f T`; both phases have the same Gibbs function at every density. -/
noncomputable def flat (f : ℝ → ℝ) : Eos where
  mw := 1
  Tc := 310
  Pc := 2
  Vc := 1
  Tmin := 200
  Tmax := 1000
  Pp T _ := f T
  up T r := -(f T / r)
  sp _ _ := 0
  ldens _ := some 1
  Psat T := some (f T)

theorem flat_setTPp {f : ℝ → ℝ} {t : ℝ} {s : St} (h1 : 200 ≤ t) (h2 : t ≤ 1000) (hf : 0 < f t)
    (hr : 0 < s.Rho) (hb : 1 / s.Rho < big) :
    ∃ r, 0 < r ∧ setTPp (flat f) t (f t) s = ({ s with
      T := t
      Rho := r }, some ()) := by
  have hv : 0 < 1 / s.Rho := by positivity
  generalize hvv : 1 / s.Rho = v at *
  obtain ⟨dv, hdv0, hdv1, hch⟩ : ∃ dv, dv ≠ 0 ∧ v + dv > 0 ∧
      ∃ b r, b.v = v ∧ limitStep (flat f) (f t) b = dv ∧
        chooseStep (flat f) t (f t) ⟨false, 1, 0, big, big, 0, v, f t, 0⟩ { s with T := t } = ({ s with
          T := t
          Rho := r }, some b) := by
    have hc1 : ∀ d, 0 < v + d → setTV (flat f) t (v + d) { s with T := t } = ({ s with
        T := t
        Rho := 1 / (v + d) }, some ()) := fun d hd => setTV_run _ h1 h2 hd
    obtain ⟨d, hd0, hd⟩ : ∃ d, 0 < v + d ∧ (if v ≤ (flat f).Vc then -(0.001 * v) else 0.001 * v) = d := by
      refine ⟨_, ?_, rfl⟩
      split_ifs <;> linarith
    obtain ⟨g, hg⟩ : ∃ g, (if v < (flat f).Vc then -0.05 * v else 0.2 * v) = g := ⟨_, rfl⟩
    have hch : chooseStep (flat f) t (f t) ⟨false, 1, 0, big, big, 0, v, f t, 0⟩ { s with T := t } = ({ s with
        T := t
        Rho := 1 / (v + d) }, some ⟨false, 0.5, 0, big, big, 0, v, f t, g⟩) := by
      unfold chooseStep
      rw [if_neg (not_lt.mpr hf.le)]
      dsimp only
      rw [hd, bind_eq, hc1 d hd0]
      dsimp only
      rw [bind_eq]
      dsimp only [get_eq]
      have hz : (Pp (flat f) { s with
          T := t
          Rho := 1 / (v + d) } - f t) / d = 0 := by
        have : Pp (flat f) { s with
          T := t
          Rho := 1 / (v + d) } = f t := rfl
        rw [this, sub_self, zero_div]
      rw [hz, if_neg (lt_irrefl _)]
      unfold bracketStep
      simp only [lift_eq, gt_iff_lt, lt_irrefl, false_and, if_false]
      rw [if_neg hv.ne', if_neg hb.ne, if_neg (by unfold big; norm_num)]
      simp only [if_true]
      unfold bracketSlope
      simp only [lt_irrefl, and_self, if_false, if_true]
      rw [hg]
    refine ⟨_, ?_, ?_, _, _, rfl, rfl, hch⟩
    · unfold limitStep
      simp only [Bool.false_eq_true, false_and, if_false]
      have hg0 : g ≠ 0 := by
        rw [← hg]
        split_ifs
        · intro k
          linarith
        · intro k
          linarith
      have hm : ∀ m : ℝ, 0 < m → (if m < |g| then g * (m / |g|) else g) ≠ 0 := by
        intro m hm
        split_ifs
        · exact mul_ne_zero hg0 (div_ne_zero hm.ne' (abs_ne_zero.mpr hg0))
        · exact hg0
      apply hm
      split_ifs <;> linarith
    · have := limitStep_positive (e := flat f) (p := f t) (b := ⟨false, 0.5, 0, big, big, 0, v, f t, g⟩) hv
      simp only at this
      linarith
  obtain ⟨b, r, hbv, hl, hch⟩ := hch
  refine ⟨1 / (v + dv), by positivity, ?_⟩
  unfold setTPp
  rw [bind_eq]
  dsimp only [get_eq]
  rw [bind_eq]
  dsimp only [modify_eq]
  rw [bind_eq, hvv]
  have hP : ∀ q : St, q.T = t → Pp (flat f) q = f t := by
    intro q hq
    unfold Pp
    rw [hq]
    rfl
  have hloop : tppLoop (flat f) t (f t) v 201 true ⟨false, 1, 0, big, big, 0, v, 0, 0⟩ { s with T := t } =
      ({ s with
        T := t
        Rho := 1 / (v + dv) }, some (v + dv)) := by
    unfold tppLoop
    rw [bind_eq]
    dsimp only [get_eq]
    rw [if_pos (Or.inr rfl), hP _ rfl, bind_eq, hch]
    dsimp only
    rw [hl, if_neg hdv0, bind_eq, hbv, setTV_run _ h1 h2 hdv1]
    dsimp only
    rw [if_neg (by norm_num)]
    unfold tppLoop
    rw [bind_eq]
    dsimp only [get_eq]
    rw [hP _ rfl, if_neg]
    · rfl
    · rw [sub_self, abs_zero]
      simp only [Bool.false_eq_true, or_false, not_le]
      linarith
  rw [hloop]
  dsimp only
  rw [setTV_run _ h1 h2 hdv1]

/-- Saturation data of this fluid are found at every temperature where the pressure is neither tiny nor huge. -/
theorem flat_sat {f : ℝ → ℝ} {s : St} (h1 : 200 ≤ s.T) (h2 : s.T ≤ 1000) (hf : 1e-10 < f s.T)
    (hT : s.T ≠ s.Tslast) : ∃ a b, updateSat (flat f) s = ({ s with
      Tslast := s.T
      Rhf := a
      Rhv := b
      Pst := f s.T }, some ()) := by
  have hf0 : 0 < f s.T := by linarith
  obtain ⟨r1, hr1, e1⟩ := flat_setTPp (s := { s with Rho := 1 }) h1 h2 hf0 (by norm_num)
    (by unfold big; norm_num)
  have hq : 0 < f s.T * 1 / (Rg * s.T) := by
    have : 0 < Rg * s.T := by
      unfold Rg
      positivity
    positivity
  obtain ⟨r2, hr2, e2⟩ := flat_setTPp (s := { s with
      Rhf := r1
      Rho := f s.T * 1 / (Rg * s.T) }) h1 h2 hf0 hq (by
    rw [one_div_lt hq (by unfold big; norm_num), lt_div_iff₀ (by unfold Rg; positivity)]
    unfold Rg big
    nlinarith)
  have hg : ∀ q : St, hp (flat f) q - q.T * sp (flat f) q = q.uoff - q.T * q.soff := by
    intro q
    unfold hp sp up Pp flat
    ring
  have htr : ∃ a b c, satTrial (flat f) true (f s.T) s = ({ s with
      Rho := c
      Rhf := a
      Rhv := b }, some 0) := by
    by_cases hsw : r2 > r1
    · refine ⟨r2, r1, r2, ?_⟩
      unfold satTrial
      rw [bind_eq]
      dsimp only [get_eq]
      rw [bind_eq, if_pos rfl]
      have : (flat f).ldens s.T = some 1 := rfl
      rw [this]
      dsimp only [lift_eq]
      rw [bind_eq]
      dsimp only [modify_eq]
      rw [bind_eq, e1]
      dsimp only
      rw [bind_eq]
      dsimp only [modify_eq]
      rw [bind_eq]
      dsimp only [get_eq]
      rw [bind_eq]
      dsimp only [modify_eq]
      rw [bind_eq, if_pos rfl]
      have : (flat f).mw = 1 := rfl
      rw [this, e2]
      dsimp only
      rw [bind_eq]
      dsimp only [modify_eq]
      rw [bind_eq]
      dsimp only [get_eq]
      rw [bind_eq]
      dsimp only [modify_eq]
      rw [if_pos hsw, hg, hg, pure_eq]
      simp [hsw]
    · refine ⟨r1, r2, r2, ?_⟩
      unfold satTrial
      rw [bind_eq]
      dsimp only [get_eq]
      rw [bind_eq, if_pos rfl]
      have : (flat f).ldens s.T = some 1 := rfl
      rw [this]
      dsimp only [lift_eq]
      rw [bind_eq]
      dsimp only [modify_eq]
      rw [bind_eq, e1]
      dsimp only
      rw [bind_eq]
      dsimp only [modify_eq]
      rw [bind_eq]
      dsimp only [get_eq]
      rw [bind_eq]
      dsimp only [modify_eq]
      rw [bind_eq, if_pos rfl]
      have : (flat f).mw = 1 := rfl
      rw [this, e2]
      dsimp only
      rw [bind_eq]
      dsimp only [modify_eq]
      rw [bind_eq]
      dsimp only [get_eq]
      rw [bind_eq]
      dsimp only [modify_eq]
      rw [if_neg hsw, hg, hg, pure_eq]
      have hsw' : ¬ r1 < r2 := hsw
      simp [hsw']
  obtain ⟨a, b, c, htr⟩ := htr
  refine ⟨a, b, ?_⟩
  unfold updateSat
  rw [if_neg hT]
  have : (flat f).Psat s.T = some (f s.T) := rfl
  rw [this]
  dsimp only
  unfold satLoop
  rw [bind_eq, htr]
  dsimp only
  rw [if_pos (by norm_num)]
  rfl

theorem flat_Ps {f : ℝ → ℝ} {s : St} (h1 : 200 ≤ s.T) (h2 : s.T ≤ 310) (hf : 1e-10 < f s.T)
    (hT : s.T ≠ s.Tslast ∨ s.Pst = f s.T) : ∃ a b, Ps (flat f) s = ({ s with
      Tslast := s.T
      Rhf := a
      Rhv := b
      Pst := f s.T }, some (f s.T)) := by
  unfold Ps
  by_cases h : s.T = s.Tslast
  · refine ⟨s.Rhf, s.Rhv, ?_⟩
    have hp : s.Pst = f s.T := by tauto
    rw [bind_eq]
    dsimp only [get_eq]
    rw [if_neg (by push Not; exact ⟨h1, h2⟩), bind_eq, updateSat_stored h]
    dsimp only
    rw [bind_eq]
    dsimp only [get_eq]
    rw [pure_eq, ← hp]
    congr 1
    cases s
    simp only at h
    subst h
    rfl
  · obtain ⟨a, b, hu⟩ := flat_sat h1 (by linarith) hf h
    refine ⟨a, b, ?_⟩
    rw [bind_eq]
    dsimp only [get_eq]
    rw [if_neg (by push Not; exact ⟨h1, h2⟩), bind_eq, hu]
    rfl

/-- Slowly rising saturation pressure. -/
noncomputable def slow (T : ℝ) : ℝ := 1 + 1e-9 * (T - 300)

/-- State at 300 K. -/
noncomputable def s300 : St := ⟨300, 1, undef, undef, undef, undef, 0, 0⟩

/-- A saturation temperature above the critical temperature is returned: the last correction is neither checked
nor confined. -/
theorem Tsat_above_critical : ∃ s', Tsat (flat slow) (1 + 5e-7) s300 = (s', some 330) ∧ (flat slow).Tc < 330 := by
  have hu : (300 : ℝ) ≠ undef := by
    unfold undef
    norm_num
  obtain ⟨a1, b1, e1⟩ := flat_Ps (f := slow) (s := s300) (by norm_num [s300]) (by norm_num [s300])
    (by norm_num [s300, slow]) (Or.inl hu)
  obtain ⟨a2, b2, e2⟩ := flat_Ps (f := slow) (s := { s300 with
      Tslast := s300.T
      Rhf := a1
      Rhv := b1
      Pst := slow s300.T }) (by norm_num [s300]) (by norm_num [s300]) (by norm_num [s300, slow]) (Or.inr rfl)
  obtain ⟨a3, b3, e3⟩ := flat_Ps (f := slow) (s := { s300 with
      T := s300.T + 0.000001
      Tslast := s300.T
      Rhf := a2
      Rhv := b2
      Pst := slow s300.T }) (by norm_num [s300]) (by norm_num [s300]) (by norm_num [s300, slow])
    (Or.inl (by norm_num [s300]))
  have hd : dPsdT (flat slow) { s300 with
      Tslast := s300.T
      Rhf := a1
      Rhv := b1
      Pst := slow s300.T } = ({ s300 with
      Tslast := s300.T + 0.000001
      Rhf := a3
      Rhv := b3
      Pst := slow (s300.T + 0.000001) }, some ((slow (s300.T + 0.000001) - slow s300.T) / 0.000001)) := by
    unfold dPsdT
    rw [bind_eq]
    dsimp only [get_eq]
    rw [bind_eq]
    rw [e2]
    dsimp only
    rw [if_pos (by norm_num [s300, flat]), bind_eq]
    dsimp only [modify_eq]
    rw [bind_eq, e3]
    rfl
  refine ⟨{ s300 with
      Tslast := s300.T + 0.000001
      Rhf := a3
      Rhv := b3
      Pst := slow (s300.T + 0.000001) }, ?_, by norm_num [flat]⟩
  unfold Tsat
  rw [bind_eq]
  dsimp only [get_eq]
  rw [if_neg (by push Not; constructor <;> norm_num [flat]), bind_eq]
  dsimp only [modify_eq]
  rw [if_neg (by push Not; constructor <;> norm_num [flat, s300]), bind_eq]
  have hcl : max (min s300.T (flat slow).Tc) (flat slow).Tmin = s300.T := by
    rw [min_eq_left (by norm_num [s300, flat]), max_eq_left (by norm_num [s300, flat])]
  have hstep : (if 0.1 * s300.T < |(1 + 5e-7 - slow s300.T) / ((slow (s300.T + 0.000001) - slow s300.T) / 0.000001)|
      then (1 + 5e-7 - slow s300.T) / ((slow (s300.T + 0.000001) - slow s300.T) / 0.000001) * (0.1 * s300.T) /
        |(1 + 5e-7 - slow s300.T) / ((slow (s300.T + 0.000001) - slow s300.T) / 0.000001)|
      else (1 + 5e-7 - slow s300.T) / ((slow (s300.T + 0.000001) - slow s300.T) / 0.000001)) = 30 := by
    have : (1 + 5e-7 - slow s300.T) / ((slow (s300.T + 0.000001) - slow s300.T) / 0.000001) = 500 := by
      norm_num [slow, s300]
    rw [this]
    norm_num [s300]
  have hl : tsatLoop (flat slow) (1 + 5e-7) s300.T 101 (10 * (1e-6 * (1 + 5e-7))) s300 =
      ({ s300 with
        T := s300.T + 30
        Tslast := s300.T + 0.000001
        Rhf := a3
        Rhv := b3
        Pst := slow (s300.T + 0.000001) }, some ()) := by
    unfold tsatLoop
    rw [if_pos (by norm_num [abs_of_pos]), bind_eq]
    dsimp only [modify_eq]
    rw [hcl, bind_eq]
    have e1' : Ps (flat slow) { s300 with T := s300.T } = _ := e1
    rw [e1']
    dsimp only
    rw [bind_eq, hd]
    dsimp only
    rw [bind_eq]
    dsimp only [get_eq]
    rw [hstep, bind_eq]
    dsimp only [modify_eq]
    rw [if_neg (by norm_num)]
    unfold tsatLoop
    rw [if_neg (by norm_num [slow, s300, abs_of_pos])]
    rfl
  rw [hl]
  dsimp only
  rw [bind_eq]
  dsimp only [get_eq]
  rw [bind_eq]
  dsimp only [modify_eq]
  rw [pure_eq]
  have : s300.T + 30 = 330 := by norm_num [s300]
  rw [this]

/-! ## A fluid whose pressure falls linearly with volume -/

/-- `P = 2 - v`; the trial liquid volume is 1.01, the trial vapour density is exactly 1. -/
noncomputable def lin : Eos where
  mw := Rg * 300
  Tc := 310
  Pc := 2
  Vc := 2
  Tmin := 200
  Tmax := 1000
  Pp _ r := 2 - 1 / r
  up _ _ := 0
  sp _ _ := 0
  ldens _ := some (1 / 1.01)
  Psat _ := some 1

/-- Asking for the pressure the state has is reported as a failure and moves the density. -/
theorem lin_exact (s : St) (hr : s.Rho = 1) : setTPp lin 300 1 s = ({ s with
    T := 300
    Rho := 1 / (0.999 * (1 / s.Rho)) }, none) := by
  refine exact_start_fails (by rw [hr]; norm_num) (by norm_num [lin]) (by norm_num [lin]) (by norm_num)
    (by rw [hr]; norm_num [lin]) (by rw [hr]; norm_num [big]) (by rw [hr]; norm_num [lin]) ?_
  rw [hr]
  unfold lin
  norm_num

/-- One step reaches the solution from a volume of 1.01. -/
theorem lin_liquid (s : St) (hr : s.Rho = 1 / 1.01) : setTPp lin 300 1 s = ({ s with
    T := 300
    Rho := 1 }, some ()) := by
  have hv : 1 / s.Rho = 1.01 := by
    rw [hr]
    norm_num
  have hch : chooseStep lin 300 1 ⟨false, 1, 0, big, big, 0, 1.01, 0.99, 0⟩ { s with T := 300 } = ({ s with
      T := 300
      Rho := 1 / 1.00899 }, some ⟨false, 1, 0, 1.01, big, 0.99, 1.01, 0.99, -0.01⟩) := by
    unfold chooseStep
    rw [if_neg (by norm_num)]
    dsimp only
    rw [if_pos (by norm_num [lin]), bind_eq, show (1.01 : ℝ) + -(0.001 * 1.01) = 1.00899 by norm_num,
      setTV_run _ (by norm_num [lin]) (by norm_num [lin]) (by norm_num)]
    dsimp only
    rw [bind_eq]
    dsimp only [get_eq]
    have hz : (Pp lin { s with
        T := 300
        Rho := 1 / 1.00899 } - 0.99) / -(0.001 * 1.01) = -1 := by
      norm_num [Pp, lin]
    rw [hz, if_neg (by norm_num)]
    unfold bracketStep
    norm_num [big]
  have hlim : limitStep lin 1 ⟨false, 1, 0, 1.01, big, 0.99, 1.01, 0.99, -0.01⟩ = -0.01 := by
    unfold limitStep
    norm_num [lin, abs_of_pos]
  have hP1 : Pp lin { s with T := 300 } = 0.99 := by
    unfold Pp lin
    simp only
    rw [hv]
    norm_num
  have hloop : tppLoop lin 300 1 1.01 201 true ⟨false, 1, 0, big, big, 0, 1.01, 0, 0⟩ { s with T := 300 } =
      ({ s with
        T := 300
        Rho := 1 }, some 1) := by
    unfold tppLoop
    rw [bind_eq]
    dsimp only [get_eq]
    rw [if_pos (Or.inr rfl), hP1, bind_eq, hch]
    dsimp only
    rw [hlim, if_neg (by norm_num), bind_eq, show (1.01 : ℝ) + -0.01 = 1 by norm_num,
      setTV_run _ (by norm_num [lin]) (by norm_num [lin]) (by norm_num)]
    dsimp only
    rw [if_neg (by norm_num)]
    unfold tppLoop
    rw [bind_eq]
    dsimp only [get_eq]
    rw [if_neg (by norm_num [Pp, lin]), pure_eq]
    norm_num
  unfold setTPp
  rw [bind_eq]
  dsimp only [get_eq]
  rw [bind_eq]
  dsimp only [modify_eq]
  rw [bind_eq, hv, hloop]
  dsimp only
  rw [setTV_run _ (by norm_num [lin]) (by norm_num [lin]) (by norm_num)]
  norm_num

/-- Stored data for 250 K, present temperature 300 K, density 0.7. -/
noncomputable def s250 : St := ⟨300, 0.7, 250, 0.9, 0.5, 0.1, 0, 0⟩

/-- A failed update leaves another density and another liquid density behind while stored temperature and
pressure still name 250 K; going back to 250 K, the next update finds nothing to do. -/
theorem failed_update_corrupts : ∃ s', updateSat lin s250 = (s', none) ∧ s'.Rho ≠ s250.Rho ∧ s'.Rhf ≠ s250.Rhf ∧
    s'.Tslast = 250 ∧ s'.Pst = 0.1 ∧ updateSat lin { s' with T := 250 } = ({ s' with T := 250 }, some ()) := by
  have e1 := lin_liquid { s250 with Rho := 1 / 1.01 } rfl
  have e2 := lin_exact { s250 with
    Rhf := 1
    Rho := 1 } rfl
  refine ⟨{ s250 with
    Rhf := 1
    Rho := 1 / (0.999 * (1 / 1)) }, ?_, by norm_num [s250], by norm_num [s250], rfl, rfl, updateSat_stored rfl⟩
  unfold updateSat
  rw [if_neg (by norm_num [s250])]
  have : lin.Psat s250.T = some 1 := rfl
  rw [this]
  dsimp only
  unfold satLoop
  rw [bind_eq]
  have htr : satTrial lin true 1 s250 = ({ s250 with
    Rhf := 1
    Rho := 1 / (0.999 * (1 / 1)) }, none) := by
    unfold satTrial
    rw [bind_eq]
    dsimp only [get_eq]
    rw [bind_eq, if_pos rfl]
    have : lin.ldens s250.T = some (1 / 1.01) := rfl
    rw [this]
    dsimp only [lift_eq]
    rw [bind_eq]
    dsimp only [modify_eq]
    rw [bind_eq]
    have hT : s250.T = 300 := rfl
    rw [hT]
    have e1' : setTPp lin 300 1 { s250 with
        T := 300
        Rho := 1 / 1.01 } = _ := e1
    rw [e1']
    dsimp only
    rw [bind_eq]
    dsimp only [modify_eq]
    rw [bind_eq]
    dsimp only [get_eq]
    rw [bind_eq]
    dsimp only [modify_eq]
    rw [bind_eq, if_pos rfl]
    have hq : 1 * lin.mw / (Rg * 300) = 1 := by
      unfold lin
      simp only
      rw [one_mul, div_self]
      unfold Rg
      norm_num
    rw [hq]
    have e2' : setTPp lin 300 1 { s250 with
        T := 300
        Rhf := 1
        Rho := 1 } = _ := e2
    rw [e2']
  rw [htr]

/-! ## Hypotheses can be met -/

example : ∃ s', setTPp lin 300 1 { s250 with Rho := 1 / 1.01 } = (s', some ()) := ⟨_, lin_liquid _ rfl⟩

example : ∃ s', updateSat (flat fun _ => 1) s300 = (s', some ()) ∧ s300.T ≠ s300.Tslast := by
  have hu : s300.T ≠ s300.Tslast := by
    unfold s300 undef
    norm_num
  obtain ⟨a, b, h⟩ := flat_sat (f := fun _ => 1) (s := s300) (by norm_num [s300]) (by norm_num [s300]) (by norm_num) hu
  exact ⟨_, h, hu⟩

/-- A state with stored saturation data at 250 K. -/
noncomputable def sat250 : St := ⟨250, 0.7, 250, 2, 1, 0.1, 0, 0⟩

example : setTX lin 250 0.5 sat250 = ({ sat250 with Rho := 1 / ((1 - 0.5) / 2 + 0.5 / 1) }, some ()) := by
  unfold setTX
  rw [if_neg (by norm_num), if_neg (by norm_num [lin]), bind_eq]
  unfold setT
  rw [if_pos (by norm_num [lin])]
  dsimp only
  rw [bind_eq]
  have : updateSat lin { sat250 with T := 250 } = (sat250, some ()) := updateSat_stored rfl
  rw [this]
  rfl

example : ∃ s', setTP lin 400 1 ⟨400, 1, undef, undef, undef, undef, 0, 0⟩ = (s', some ()) := by
  have hx : prop lin .T ⟨400, 1, undef, undef, undef, undef, 0, 0⟩ = (_, some 400) := prop_T _
  have hy : prop lin .P ⟨400, 1, undef, undef, undef, undef, 0, 0⟩ =
      (⟨400, 1, undef, undef, undef, undef, 0, 0⟩, some (2 - 1 / 1)) := by
    rw [prop_P, P_supercritical (by norm_num [lin])]
    rfl
  refine ⟨⟨400, 1, undef, undef, undef, undef, 0, 0⟩, ?_⟩
  unfold setTP
  rw [bind_eq]
  unfold setT
  rw [if_pos (by norm_num [lin])]
  dsimp only
  rw [bind_eq]
  unfold tpStart
  rw [if_neg (by norm_num [lin])]
  dsimp only [pure_eq]
  exact setXY_accepts (by unfold undef; norm_num) hx hy (by norm_num [tol]) (by norm_num [tol])

end Verif.Tpx
