import Verif.Thermo.PureFluidProps

/-!
# Phase made of one pure fluid: failing calls, reference state, names of phases, standard state
-/

namespace Verif.PureFluid

open Verif

variable {e : Tpx.Eos}

/-! ## A supercritical ideal gas, for examples -/

/-- Ideal gas with gas constant 1, critical temperature 1, between 1 K and 1000 K. -/
noncomputable def gas : Tpx.Eos where
  mw := 2
  Tc := 1
  Pc := 1
  Vc := 1
  Tmin := 1
  Tmax := 1000
  Pp := fun T r => r * T
  up := fun T _ => T
  sp := fun T r => Real.log T - Real.log r
  ldens := fun _ => none
  Psat := fun _ => none

theorem volume_supercritical {s : Tpx.St} (h : e.Tc ≤ s.T) : Tpx.prop e .V s = (s, some (1 / s.Rho)) := by
  rw [Tpx.prop_other (by decide) (by decide) (Tpx.quality_supercritical h)]
  rw [if_neg (by split_ifs <;> norm_num)]
  rfl

theorem subV_supercritical {s : PSt} (h : e.Tc ≤ s.sub.T) : subV e s = (s, some (1 / s.sub.Rho)) := by
  unfold subV onSub
  rw [volume_supercritical h]

/-- From a supercritical state a temperature in the range can always be set. -/
theorem setTemperature_run {t : ℝ} {s : PSt} (h : e.Tc ≤ s.sub.T) (h0 : 0 < t) (h1 : e.Tmin ≤ t) (h2 : t ≤ e.Tmax)
    (hr : 0 < s.sub.Rho) : setTemperature e t s = ({ s with
      T := t
      sub := { s.sub with T := t } }, some ()) := by
  unfold setTemperature
  rw [bindP_eq, phaseSetT, if_pos h0]
  dsimp only
  rw [bindP_eq, subV_supercritical (s := { s with T := t }) h]
  dsimp only
  unfold onSub
  rw [set_TV, Tpx.setTV_run _ h1 h2 (by positivity)]
  simp only [one_div_one_div]

example : ∃ s', setTemperature gas 300 ⟨500, 2, ⟨500, 2, 0, 0, 0, 0, 0, 0⟩⟩ = (s', some ()) :=
  ⟨_, setTemperature_run (by norm_num [gas]) (by norm_num) (by norm_num [gas]) (by norm_num [gas]) (by norm_num)⟩

example : ∃ s', setStateTD gas 300 7 ⟨500, 2, ⟨500, 2, 0, 0, 0, 0, 0, 0⟩⟩ = (s', some ()) := by
  unfold setStateTD
  rw [bindP_eq, setTemperature_run (by norm_num [gas]) (by norm_num) (by norm_num [gas]) (by norm_num [gas]) (by norm_num)]
  dsimp only
  unfold setDensity
  rw [bindP_eq, phaseSetDens, if_pos (by norm_num)]
  dsimp only
  rw [bindP_eq]
  dsimp only [getP_eq]
  unfold onSub
  rw [set_TV, Tpx.setTV_run _ (by norm_num [gas]) (by norm_num [gas]) (by norm_num)]
  exact ⟨_, rfl⟩

/-! ## Failing calls -/

/-- A temperature outside the range is refused by the substance after the phase has stored it: the copies differ. -/
theorem setTemperature_range {t v : ℝ} {s s1 : PSt} (h0 : 0 < t) (h : t < e.Tmin ∨ e.Tmax < t)
    (hv : subV e ({ s with T := t } : PSt) = (s1, some v)) : ∃ s', setTemperature e t s = (s', none) ∧ s'.T = t ∧
      s'.sub.T = s.sub.T := by
  unfold setTemperature
  rw [bindP_eq, phaseSetT, if_pos h0]
  dsimp only
  rw [bindP_eq, hv]
  obtain ⟨_, a2, _, a4, _⟩ := subV_some hv
  dsimp only
  have hT : Tpx.setTV e t v s1.sub = (s1.sub, none) := by
    unfold Tpx.setTV
    rw [Tpx.bind_eq, Tpx.setT, if_neg (by rintro ⟨a, b⟩; rcases h with h | h <;> linarith)]
  unfold onSub
  rw [set_TV, hT]
  exact ⟨_, rfl, a2, a4⟩

/-- Agreement of the copies is lost by such a call. -/
theorem setTemperature_breaks : ∃ (s s' : PSt) (t : ℝ), Sync s ∧ setTemperature gas t s = (s', none) ∧ ¬Sync s' := by
  obtain ⟨s', h1, h2, h3⟩ := setTemperature_range (e := gas) (t := 2000) (s := ⟨500, 2, ⟨500, 2, 0, 0, 0, 0, 0, 0⟩⟩)
    (by norm_num) (Or.inr (by norm_num [gas])) (subV_supercritical (by norm_num [gas]))
  refine ⟨_, s', 2000, ⟨rfl, rfl⟩, h1, fun h => ?_⟩
  have := h.1
  rw [h2, h3] at this
  norm_num at this

/-- The saturation pressure at another temperature moves the substance but not the phase. -/
theorem satPressure_breaks {t p : ℝ} {s s' : PSt} (hs : Sync s) (h : satPressure e t s = (s', some p)) :
    Sync s' ↔ t = s.T := by
  obtain ⟨a, b, c, d, _⟩ := satPressure_ok h
  unfold Sync
  rw [a, b, c, d]
  constructor
  · exact fun k => k.1.symm
  · exact fun k => ⟨k.symm, hs.2⟩

/-- Inconsistent temperature, pressure and quality are refused after the substance was moved. -/
theorem setStateTPQ_inconsistent {t p q ps : ℝ} {s s1 : PSt} (hs : Sync s) (ht : t ≤ e.Tc)
    (hp : satPressure e t s = (s1, some ps)) (h1 : 1e-6 ≤ |ps / p - 1|) (h2 : ¬((q = 0 ∧ ps ≤ p) ∨ (q = 1 ∧ p ≤ ps))) :
    setStateTPQ e t p q s = (s1, none) ∧ s1.T = s.T ∧ s1.sub.T = t ∧ (Sync s1 ↔ t = s.T) := by
  refine ⟨?_, (satPressure_ok hp).1, (satPressure_ok hp).2.2.1, satPressure_breaks hs hp⟩
  unfold setStateTPQ
  rw [if_neg (not_lt.mpr ht), bindP_eq, hp]
  dsimp only
  rw [if_neg (not_lt.mpr h1), if_neg h2, throwP_eq]

/-- Above the critical temperature such a call is refused without any change. -/
theorem setStateTPQ_supercritical {t p q : ℝ} (s : PSt) (ht : e.Tc < t) (hp : p ≤ e.Pc) (hq : q ≠ 1) :
    setStateTPQ e t p q s = (s, none) := by
  unfold setStateTPQ
  rw [if_pos ht, if_neg (by rintro (h | h); exacts [absurd hp (not_le.mpr h), hq h]), throwP_eq]

/-- An isolated call that sets the pressure by `setState_TP` either succeeds or ends with the phase at its old
temperature. -/
theorem setStateTP_restores {t p : ℝ} {s s' : PSt} (h : setStateTP e t p s = (s', none)) (h0 : 0 < s.T) :
    s'.T = s.T := by
  unfold setStateTP at h
  rcases g : (do
      setTemperature e t
      setPressure e p : PM Unit) s with ⟨s1, _ | a⟩
  · rw [g] at h
    simp only [Prod.mk.injEq, and_true] at h
    rw [← h]
    unfold setStateTD
    rw [bindP_eq]
    have key : ∀ s2 : PSt, (setTemperature e s.T s2).1.T = s.T := by
      intro s2
      unfold setTemperature
      rw [bindP_eq, phaseSetT, if_pos h0]
      dsimp only
      rw [bindP_eq]
      rcases k : subV e ({ s2 with T := s.T } : PSt) with ⟨s3, _ | v⟩
      · dsimp only
        have : s3 = { s2 with
            T := s.T
            sub := s3.sub } := by
          unfold subV onSub at k
          simp only [Prod.mk.injEq] at k
          rw [← k.1]
        rw [this]
      · dsimp only
        have := (subV_some k).2.1
        unfold onSub
        exact this
    have k1 := key s1
    rcases k : setTemperature e s.T s1 with ⟨s2, _ | a⟩
    · rw [k] at k1
      exact k1
    · rw [k] at k1
      dsimp only at k1 ⊢
      unfold setDensity
      rw [bindP_eq, phaseSetDens]
      split_ifs with hd
      · dsimp only
        rw [bindP_eq]
        dsimp only [getP_eq]
        unfold onSub
        exact k1
      · exact k1
  · rw [g] at h
    simp at h

/-- If the failed attempt also ends where the substance has no volume, the substance is not restored. -/
theorem restore_fails {t p : ℝ} {s s1 : PSt} {u : Tpx.St} (h0 : 0 < s.T)
    (h1 : (do
      setTemperature e t
      setPressure e p : PM Unit) s = (s1, none)) (h2 : Tpx.prop e .V s1.sub = (u, none)) :
    setStateTP e t p s = ({ s1 with
      T := s.T
      sub := u }, none) := by
  unfold setStateTP
  rw [h1]
  simp only [Prod.mk.injEq, and_true]
  unfold setStateTD
  rw [bindP_eq]
  have : setTemperature e s.T s1 = ({ s1 with
      T := s.T
      sub := u }, none) := by
    unfold setTemperature
    rw [bindP_eq, phaseSetT, if_pos h0]
    dsimp only
    rw [bindP_eq]
    unfold subV onSub
    rw [h2]
  rw [this]

/-! ## HFC-134a next to its critical temperature -/

theorem hfc_no_volume {u : Tpx.St} (h1 : 374.18 < u.T) (h2 : u.T < 374.21) (h : u.T ≠ u.Tslast) :
    Tpx.prop (TpxFluids.eos .hfc134a) .V u = (u, none) := by
  have hP : (TpxFluids.eos .hfc134a).Psat u.T = none := by
    have := (TpxFluids.sat_range .hfc134a u.T).1
    rw [TpxFluids.hfc_satMax.1] at this
    rw [← Option.not_isSome_iff_eq_none, this]
    intro h; linarith [h.2]
  have hU : Tpx.updateSat (TpxFluids.eos .hfc134a) u = (u, none) := by
    rw [Tpx.updateSat, if_neg h, hP]
  have hTc : ¬ (TpxFluids.eos .hfc134a).Tc ≤ u.T := by
    simp only [TpxFluids.eos, TpxFluids.hfc134a]; linarith
  unfold Tpx.prop
  rw [if_neg (by decide), if_neg (by decide), Tpx.bind_eq, Tpx.quality, Tpx.bind_eq]
  dsimp only [Tpx.get_eq]
  rw [if_neg hTc, Tpx.bind_eq, hU]

/-- A phase of HFC-134a whose substance is between 374.18 K and 374.21 K refuses every temperature and every pair of
temperature and pressure; the substance stays where it is. -/
theorem hfc_stuck {s : PSt} (h1 : 374.18 < s.sub.T) (h2 : s.sub.T < 374.21) (h : s.sub.T ≠ s.sub.Tslast) (h0 : 0 < s.T)
    (t p : ℝ) : (∃ s', setTemperature (TpxFluids.eos .hfc134a) t s = (s', none) ∧ s'.sub = s.sub) ∧
      setStateTP (TpxFluids.eos .hfc134a) t p s = (s, none) := by
  have hv := hfc_no_volume h1 h2 h
  have key : ∃ s', setTemperature (TpxFluids.eos .hfc134a) t s = (s', none) ∧ s'.sub = s.sub ∧ s'.dens = s.dens := by
    unfold setTemperature
    rw [bindP_eq, phaseSetT]
    split_ifs with ht
    · dsimp only
      rw [bindP_eq]
      unfold subV onSub
      rw [hv]
      exact ⟨_, rfl, rfl, rfl⟩
    · exact ⟨_, rfl, rfl, rfl⟩
  obtain ⟨s', k1, k2, k3⟩ := key
  refine ⟨⟨s', k1, k2⟩, ?_⟩
  rw [restore_fails (s1 := s') (u := s.sub) h0 (by rw [bindP_eq, k1]) (by rw [k2]; exact hv), k3]

/-- One call with such a temperature brings the phase there, although it reports its old temperature. -/
theorem hfc_gets_stuck {s : PSt} {t p v : ℝ} {u : Tpx.St} (h1 : 374.18 < t) (h2 : t < 374.21) (h0 : 0 < s.T)
    (hr : 0 < s.sub.Rho) (hv : Tpx.prop (TpxFluids.eos .hfc134a) .V s.sub = (u, some v)) (hu : t ≠ u.Tslast) :
    ∃ s', setStateTP (TpxFluids.eos .hfc134a) t p s = (s', none) ∧ s'.T = s.T ∧ s'.dens = s.dens ∧ s'.sub.T = t ∧
      s'.sub.Tslast = u.Tslast := by
  obtain ⟨a1, _, _, _⟩ := volume_ok hv
  have hvp : 0 < v := by rw [a1]; positivity
  have hm : (TpxFluids.eos .hfc134a).Tmin ≤ t := by simp only [TpxFluids.eos, TpxFluids.hfc134a]; linarith
  have hM : t ≤ (TpxFluids.eos .hfc134a).Tmax := by simp only [TpxFluids.eos, TpxFluids.hfc134a]; linarith
  have k1 : setTemperature (TpxFluids.eos .hfc134a) t s = (⟨t, s.dens, { u with
      T := t
      Rho := 1 / v }⟩, some ()) := by
    unfold setTemperature
    rw [bindP_eq, phaseSetT, if_pos (by linarith)]
    dsimp only
    rw [bindP_eq]
    unfold subV onSub
    rw [hv]
    dsimp only
    rw [set_TV, Tpx.setTV_run _ hm hM hvp]
  have hps := TpxFluids.hfc_gap (s := { u with
      T := t
      Rho := 1 / v }) h1 h2 hu
  have k2 : Tpx.setTP (TpxFluids.eos .hfc134a) t p { u with
      T := t
      Rho := 1 / v } = ({ u with
      T := t
      Rho := 1 / v }, none) := by
    unfold Tpx.setTP
    rw [Tpx.bind_eq, Tpx.setT, if_pos ⟨hm, hM⟩]
    dsimp only
    rw [Tpx.bind_eq]
    unfold Tpx.tpStart
    rw [if_pos (by simp only [TpxFluids.eos, TpxFluids.hfc134a]; linarith), Tpx.bind_eq]
    have hP : (TpxFluids.eos .hfc134a).Psat t = none := by
      have := (TpxFluids.sat_range .hfc134a t).1
      rw [TpxFluids.hfc_satMax.1] at this
      rw [← Option.not_isSome_iff_eq_none, this]
      intro h; linarith [h.2]
    unfold Tpx.Ps
    rw [Tpx.bind_eq]
    dsimp only [Tpx.get_eq]
    rw [if_neg (by simp only [TpxFluids.eos, TpxFluids.hfc134a]; push Not; constructor <;> linarith), Tpx.bind_eq,
      Tpx.updateSat, if_neg hu]
    simp only [hP]
  have k3 : (do
      setTemperature (TpxFluids.eos .hfc134a) t
      setPressure (TpxFluids.eos .hfc134a) p : PM Unit) s = (⟨t, s.dens, { u with
      T := t
      Rho := 1 / v }⟩, none) := by
    rw [bindP_eq, k1]
    dsimp only
    unfold setPressure
    rw [bindP_eq]
    dsimp only [getP_eq]
    rw [bindP_eq]
    unfold onSub
    rw [set_TP, k2]
  have k4 := restore_fails h0 k3 (hfc_no_volume (u := { u with
      T := t
      Rho := 1 / v }) h1 h2 hu)
  exact ⟨_, k4, rfl, rfl, rfl, rfl⟩

example : ∃ s', setStateTP (TpxFluids.eos .hfc134a) 374.2 100000 ⟨400, 4, ⟨400, 4, 0, 0, 0, 0, 0, 0⟩⟩ = (s', none) ∧
    s'.T = 400 ∧ s'.sub.T = 374.2 ∧ ∀ t p, setStateTP (TpxFluids.eos .hfc134a) t p s' = (s', none) := by
  obtain ⟨s', a, b, _, d, f⟩ := hfc_gets_stuck (s := ⟨400, 4, ⟨400, 4, 0, 0, 0, 0, 0, 0⟩⟩) (t := 374.2) (p := 100000)
    (by norm_num) (by norm_num) (by norm_num) (by norm_num)
    (volume_supercritical (by norm_num [TpxFluids.eos, TpxFluids.hfc134a])) (by norm_num)
  refine ⟨s', a, b, d, fun t p => (hfc_stuck ?_ ?_ ?_ ?_ t p).2⟩
  · rw [d]; norm_num
  · rw [d]; norm_num
  · rw [d, f]; norm_num
  · rw [b]; norm_num

end Verif.PureFluid
