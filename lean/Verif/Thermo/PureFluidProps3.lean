import Verif.Thermo.PureFluidProps2

/-!
# Phase made of one pure fluid: properties, reference state, names of phases, standard state
-/

namespace Verif.PureFluid

open Verif

variable {e : Tpx.Eos}

/-! ## Molar properties -/

theorem onSub_prop {f : Tpx.Flag} {s s' : PSt} {a : ℝ} (h : onSub (Tpx.prop e f) s = (s', some a)) :
    s'.T = s.T ∧ s'.dens = s.dens ∧ s'.sub.T = s.sub.T ∧ s'.sub.Rho = s.sub.Rho ∧
      Tpx.prop e f s.sub = (s'.sub, some a) := by
  obtain ⟨u, h1, rfl⟩ := onSub_some.mp h
  obtain ⟨a1, a2, _⟩ := Tpx.prop_ok h1
  exact ⟨rfl, rfl, a1, a2, h1⟩

/-- Molar properties are those of the substance times the molar mass. -/
theorem molar {s : PSt} {u : Tpx.St} {a : ℝ} :
    (Tpx.prop e .H s.sub = (u, some a) → enthalpyMole e s = ({ s with sub := u }, some (a * e.mw))) ∧
    (Tpx.prop e .U s.sub = (u, some a) → intEnergyMole e s = ({ s with sub := u }, some (a * e.mw))) ∧
    (Tpx.prop e .S s.sub = (u, some a) → entropyMole e s = ({ s with sub := u }, some (a * e.mw))) ∧
    (Tpx.P e s.sub = (u, some a) → pressure e s = ({ s with sub := u }, some a)) := by
  refine ⟨fun h => ?_, fun h => ?_, fun h => ?_, fun h => ?_⟩
  · have g : onSub (Tpx.prop e .H) s = ({ s with sub := u }, some a) := by
      unfold onSub
      rw [h]
    unfold enthalpyMole
    rw [bindP_eq, g]
    rfl
  · have g : onSub (Tpx.prop e .U) s = ({ s with sub := u }, some a) := by
      unfold onSub
      rw [h]
    unfold intEnergyMole
    rw [bindP_eq, g]
    rfl
  · have g : onSub (Tpx.prop e .S) s = ({ s with sub := u }, some a) := by
      unfold onSub
      rw [h]
    unfold entropyMole
    rw [bindP_eq, g]
    rfl
  · unfold pressure onSub
    rw [h]

/-- With agreeing temperatures the Gibbs function is enthalpy minus temperature times entropy. -/
theorem gibbs_consistent {s s1 s2 : PSt} {h a : ℝ} (hs : s.T = s.sub.T) (h0 : s.T ≠ 0)
    (h1 : enthalpyRT e s = (s1, some h)) (h2 : entropyR e s1 = (s2, some a)) :
    gibbsRT e s = (s2, some (h - a)) := by
  unfold enthalpyRT enthalpyMole at h1
  rw [bindP_some] at h1
  obtain ⟨t1, x, g1, h1⟩ := h1
  rw [bindP_some] at g1
  obtain ⟨t2, hh, g2, g1⟩ := g1
  obtain ⟨b1, _, b3, _, _⟩ := onSub_prop g2
  simp only [pureP_eq, Prod.mk.injEq, Option.some.injEq] at g1
  obtain ⟨rfl, rfl⟩ := g1
  rw [bindP_eq] at h1
  simp only [getP_eq, pureP_eq, Prod.mk.injEq, Option.some.injEq] at h1
  obtain ⟨rfl, rfl⟩ := h1
  unfold entropyR entropyMole at h2
  rw [bindP_some] at h2
  obtain ⟨t3, y, g3, h2⟩ := h2
  rw [bindP_some] at g3
  obtain ⟨t4, aa, g4, g3⟩ := g3
  obtain ⟨c1, _⟩ := onSub_prop g4
  simp only [pureP_eq, Prod.mk.injEq, Option.some.injEq] at g3 h2
  obtain ⟨rfl, rfl⟩ := g3
  obtain ⟨rfl, rfl⟩ := h2
  unfold gibbsRT gibbsMole
  rw [bindP_eq, bindP_eq, g2]
  dsimp only
  rw [bindP_eq]
  dsimp only [getP_eq]
  rw [bindP_eq, g4]
  simp only [pureP_eq]
  rw [bindP_eq]
  simp only [getP_eq, pureP_eq, Prod.mk.injEq, Option.some.injEq, true_and]
  unfold RT
  rw [c1, b1, b3, ← hs]
  have : Tpx.Rg ≠ 0 := by norm_num [Tpx.Rg]
  field_simp

/-- If the temperatures differ the difference is wrong by the ratio of the temperatures. -/
theorem gibbs_unsynced {s s1 s2 : PSt} {h a : ℝ} (h0 : s.T ≠ 0)
    (h1 : enthalpyRT e s = (s1, some h)) (h2 : entropyR e s1 = (s2, some a)) :
    gibbsRT e s = (s2, some (h - s.sub.T / s.T * a)) := by
  unfold enthalpyRT enthalpyMole at h1
  rw [bindP_some] at h1
  obtain ⟨t1, x, g1, h1⟩ := h1
  rw [bindP_some] at g1
  obtain ⟨t2, hh, g2, g1⟩ := g1
  obtain ⟨b1, _, b3, _, _⟩ := onSub_prop g2
  simp only [pureP_eq, Prod.mk.injEq, Option.some.injEq] at g1
  obtain ⟨rfl, rfl⟩ := g1
  rw [bindP_eq] at h1
  simp only [getP_eq, pureP_eq, Prod.mk.injEq, Option.some.injEq] at h1
  obtain ⟨rfl, rfl⟩ := h1
  unfold entropyR entropyMole at h2
  rw [bindP_some] at h2
  obtain ⟨t3, y, g3, h2⟩ := h2
  rw [bindP_some] at g3
  obtain ⟨t4, aa, g4, g3⟩ := g3
  obtain ⟨c1, _⟩ := onSub_prop g4
  simp only [pureP_eq, Prod.mk.injEq, Option.some.injEq] at g3 h2
  obtain ⟨rfl, rfl⟩ := g3
  obtain ⟨rfl, rfl⟩ := h2
  unfold gibbsRT gibbsMole
  rw [bindP_eq, bindP_eq, g2]
  dsimp only
  rw [bindP_eq]
  dsimp only [getP_eq]
  rw [bindP_eq, g4]
  simp only [pureP_eq]
  rw [bindP_eq]
  simp only [getP_eq, pureP_eq, Prod.mk.injEq, Option.some.injEq, true_and]
  unfold RT
  rw [c1, b1, b3]
  have : Tpx.Rg ≠ 0 := by norm_num [Tpx.Rg]
  field_simp

/-! ## Reference state -/

/-- What the functions of the reference state use: a reading that leaves temperature and density of the phase alone. -/
def Reads (m : PM ℝ) : Prop := ∀ s s' a, m s = (s', some a) → s'.T = s.T ∧ s'.dens = s.dens

theorem reads_bind {m : PM ℝ} {f : ℝ → PSt → ℝ} (h : Reads m) : Reads (do
    let a ← m
    let s ← getP
    pure (f a s)) := by
  intro s s' a g
  rw [bindP_some] at g
  obtain ⟨s1, b, g1, g⟩ := g
  rw [bindP_eq] at g
  simp only [getP_eq, pureP_eq, Prod.mk.injEq] at g
  rw [← g.1]
  exact h _ _ _ g1

theorem reads_map {m : PM ℝ} {f : ℝ → ℝ} (h : Reads m) : Reads (do
    let a ← m
    pure (f a)) := by
  intro s s' a g
  rw [bindP_some] at g
  obtain ⟨s1, b, g1, g⟩ := g
  simp only [pureP_eq, Prod.mk.injEq] at g
  rw [← g.1]
  exact h _ _ _ g1

theorem reads_prop (f : Tpx.Flag) : Reads (onSub (Tpx.prop e f)) := by
  intro s s' a h
  exact ⟨(onSub_prop h).1, (onSub_prop h).2.1⟩

theorem reads_gibbs : Reads (gibbsMole e) := by
  intro s s' a h
  unfold gibbsMole at h
  rw [bindP_some] at h
  obtain ⟨s1, _, g1, h⟩ := h
  rw [bindP_eq] at h
  dsimp only [getP_eq] at h
  rw [bindP_some] at h
  obtain ⟨s2, _, g2, h⟩ := h
  simp only [pureP_eq, Prod.mk.injEq] at h
  rw [← h.1]
  exact ⟨(onSub_prop g2).1.trans (onSub_prop g1).1, (onSub_prop g2).2.1.trans (onSub_prop g1).2.1⟩

/-- Evaluation at low pressure: the value is taken at the temperature of the phase and a pressure of 1e-8 Pa within
the tolerance, and afterwards both copies have temperature and density of the phase. -/
theorem atLow_ok {m : PM ℝ} (hm : Reads m) {s s' : PSt} {a : ℝ} (hu : s.T ≠ 999.1234)
    (h : atLow e m s = (s', some a)) : s'.T = s.T ∧ s'.dens = s.dens ∧ Sync s' ∧
      ∃ u q s1, m ⟨s.T, s.dens, u⟩ = (s1, some a) ∧ u.T = s.T ∧ Tpx.P e u = (u, some q) ∧ |1e-8 - q| < 1e-8 * 1e-8 := by
  unfold atLow at h
  rw [bindP_eq] at h
  dsimp only [getP_eq] at h
  rw [bindP_some] at h
  obtain ⟨s1, _, g1, h⟩ := h
  obtain ⟨u, k1, rfl⟩ := onSub_some.mp g1
  rw [set_TP] at k1
  obtain ⟨_, q, hq, hpq⟩ := Tpx.setTP_ok k1
  rw [bindP_some] at h
  obtain ⟨s2, b, g2, h⟩ := h
  obtain ⟨c1, c2⟩ := hm _ _ _ g2
  rw [bindP_some] at h
  obtain ⟨s3, _, g3, h⟩ := h
  obtain ⟨w, k3, rfl⟩ := onSub_some.mp g3
  simp only [pureP_eq, Prod.mk.injEq, Option.some.injEq] at h
  obtain ⟨rfl, rfl⟩ := h
  rw [set_TV] at k3
  obtain ⟨_, _, _, d4⟩ := Tpx.setTV_ok k3
  refine ⟨c1, c2, ⟨?_, ?_⟩, u, q, s2, g2, (setTP_T k1 hu).1, hq, ?_⟩
  · show s2.T = w.T
    rw [c1, d4]
  · show s2.dens = w.Rho
    rw [c2, d4, one_div_one_div]
  · rw [abs_of_pos (by norm_num : (0 : ℝ) < 1e-8)] at hpq
    exact hpq

/-- If the low pressure cannot be set the substance is not put back. -/
theorem atLow_fail {m : PM ℝ} {s : PSt} {u : Tpx.St} (h : Tpx.setTP e s.T 1e-8 s.sub = (u, none)) :
    atLow e m s = (⟨s.T, s.dens, u⟩, none) := by
  unfold atLow
  rw [bindP_eq]
  dsimp only [getP_eq]
  rw [bindP_eq]
  unfold onSub
  rw [set_TP, h]

/-- The reference functions, with the substance `u` at low pressure. -/
theorem reference {s s' : PSt} {pref a : ℝ} (hu : s.T ≠ 999.1234) :
    (enthalpyRTRef e s = (s', some a) → Sync s' ∧ s'.T = s.T ∧ s'.dens = s.dens ∧ ∃ u w h q,
      Tpx.prop e .H u = (w, some h) ∧ a = h * e.mw / (8314.46261815324 * s.T) ∧ u.T = s.T ∧
      Tpx.P e u = (u, some q) ∧ |1e-8 - q| < 1e-8 * 1e-8) ∧
    (entropyRRef e pref s = (s', some a) → Sync s' ∧ s'.T = s.T ∧ s'.dens = s.dens ∧ ∃ u w b q,
      Tpx.prop e .S u = (w, some b) ∧ a = b * e.mw / 8314.46261815324 - Real.log (pref / 1e-8) ∧ u.T = s.T ∧
      Tpx.P e u = (u, some q) ∧ |1e-8 - q| < 1e-8 * 1e-8) ∧
    (gibbsRTRef e pref s = (s', some a) → Sync s' ∧ s'.T = s.T ∧ s'.dens = s.dens ∧ ∃ u w w' h b q,
      Tpx.prop e .H u = (w, some h) ∧ Tpx.prop e .S w = (w', some b) ∧
      a = (h - s.T * b) * e.mw / (8314.46261815324 * s.T) + Real.log (pref / 1e-8) ∧ u.T = s.T ∧
      Tpx.P e u = (u, some q) ∧ |1e-8 - q| < 1e-8 * 1e-8) := by
  refine ⟨fun h => ?_, fun h => ?_, fun h => ?_⟩
  · obtain ⟨a1, a2, a3, u, q, s1, g, a5, a6, a7⟩ := atLow_ok (reads_bind (reads_map (reads_prop .H))) hu h
    refine ⟨a3, a1, a2, u, ?_⟩
    rw [bindP_some] at g
    obtain ⟨s2, b, g2, g⟩ := g
    rw [bindP_some] at g2
    obtain ⟨s3, c, g3, g2⟩ := g2
    obtain ⟨k1, _, _, _, k5⟩ := onSub_prop g3
    simp only [pureP_eq, Prod.mk.injEq, Option.some.injEq] at g2
    obtain ⟨rfl, rfl⟩ := g2
    rw [bindP_eq] at g
    simp only [getP_eq, pureP_eq, Prod.mk.injEq, Option.some.injEq] at g
    refine ⟨_, c, q, k5, ?_, a5, a6, a7⟩
    rw [← g.2, RT, k1, Tpx.Rg]
  · obtain ⟨a1, a2, a3, u, q, s1, g, a5, a6, a7⟩ := atLow_ok (reads_map (reads_map (reads_map (reads_prop .S)))) hu h
    refine ⟨a3, a1, a2, u, ?_⟩
    rw [bindP_some] at g
    obtain ⟨s2, b, g2, g⟩ := g
    rw [bindP_some] at g2
    obtain ⟨s3, c, g3, g2⟩ := g2
    rw [bindP_some] at g3
    obtain ⟨s4, d, g4, g3⟩ := g3
    obtain ⟨k1, _, _, _, k5⟩ := onSub_prop g4
    simp only [pureP_eq, Prod.mk.injEq, Option.some.injEq] at g2 g3 g
    obtain ⟨rfl, rfl⟩ := g3
    obtain ⟨rfl, rfl⟩ := g2
    refine ⟨_, d, q, k5, ?_, a5, a6, a7⟩
    rw [← g.2, Tpx.Rg]
  · obtain ⟨a1, a2, a3, u, q, s1, g, a5, a6, a7⟩ := atLow_ok (reads_map (reads_bind reads_gibbs)) hu h
    refine ⟨a3, a1, a2, u, ?_⟩
    rw [bindP_some] at g
    obtain ⟨s2, b, g2, g⟩ := g
    rw [bindP_some] at g2
    obtain ⟨s3, c, g3, g2⟩ := g2
    unfold gibbsMole at g3
    rw [bindP_some] at g3
    obtain ⟨s4, d, g4, g3⟩ := g3
    rw [bindP_eq] at g3
    dsimp only [getP_eq] at g3
    rw [bindP_some] at g3
    obtain ⟨s5, f, g5, g3⟩ := g3
    obtain ⟨k1, _, k3, _, k5⟩ := onSub_prop g4
    obtain ⟨l1, _, _, _, l5⟩ := onSub_prop g5
    rw [bindP_eq] at g2
    simp only [getP_eq, pureP_eq, Prod.mk.injEq, Option.some.injEq] at g2 g3 g
    obtain ⟨rfl, rfl⟩ := g3
    obtain ⟨rfl, rfl⟩ := g2
    refine ⟨_, _, d, f, q, k5, l5, ?_, a5, a6, a7⟩
    have hT : s4.sub.T = s.T := by rw [k3]; exact a5
    have hT2 : s5.T = s.T := by rw [l1, k1]
    rw [← g.2, RT, hT, hT2, Tpx.Rg]

theorem gibbsRef_ok {s s' : PSt} {pref a : ℝ} (hu : s.T ≠ 999.1234) (h : gibbsRef e pref s = (s', some a)) :
    ∃ g, gibbsRTRef e pref s = (s', some g) ∧ a = g * (8314.46261815324 * s.T) := by
  unfold gibbsRef at h
  rw [bindP_some] at h
  obtain ⟨s1, g, g1, h⟩ := h
  have hT := ((reference (pref := pref) hu).2.2 g1).2.1
  rw [bindP_eq] at h
  simp only [getP_eq, pureP_eq, Prod.mk.injEq, Option.some.injEq] at h
  obtain ⟨rfl, rfl⟩ := h
  exact ⟨g, g1, by rw [RT, hT, Tpx.Rg]⟩

/-! ## Names of the phases -/

theorem phase_supercritical {s : PSt} (h : e.Tc ≤ s.T) : phaseOfMatter e s = (s, some "supercritical") := by
  unfold phaseOfMatter
  rw [bindP_eq]
  dsimp only [getP_eq]
  rw [if_pos h]
  rfl

theorem twoPhase_stored {s : Tpx.St} (h : s.T < e.Tc) (hT : s.T = s.Tslast) :
    Tpx.twoPhase e false s = (s, some (decide (s.Rhv ≤ s.Rho ∧ s.Rho ≤ s.Rhf))) := by
  unfold Tpx.twoPhase
  rw [Tpx.bind_eq]
  dsimp only [Tpx.get_eq]
  rw [if_neg (not_le.mpr h), Tpx.bind_eq, Tpx.updateSat_stored hT]
  dsimp only
  rw [Tpx.bind_eq]
  rfl

/-- Below the critical temperature: a mixture lies between the two densities; otherwise the pressure decides. -/
theorem phase_subcritical {s : PSt} (hs : s.T = s.sub.T) (h : s.T < e.Tc) (hm : e.Tmin ≤ s.T)
    (hT : s.sub.T = s.sub.Tslast) : phaseOfMatter e s = (s, some (
      if s.sub.Rhv ≤ s.sub.Rho ∧ s.sub.Rho ≤ s.sub.Rhf then
        (if e.Pc ≤ s.sub.Pst then "supercritical" else "liquid-gas-mix")
      else if e.Pc ≤ e.Pp s.T s.sub.Rho then "supercritical"
      else if e.Pp s.T s.sub.Rho < s.sub.Pst then "gas" else "liquid")) := by
  have hp : pressure e s = (s, some (if s.sub.Rhv ≤ s.sub.Rho ∧ s.sub.Rho ≤ s.sub.Rhf then s.sub.Pst
      else e.Pp s.T s.sub.Rho)) := by
    unfold pressure onSub
    rw [Tpx.P_stored (by rw [← hs]; exact h) hT (by rw [← hs]; exact hm), ← hs]
  have h2 : onSub (Tpx.twoPhase e false) s = (s, some (decide (s.sub.Rhv ≤ s.sub.Rho ∧ s.sub.Rho ≤ s.sub.Rhf))) := by
    unfold onSub
    rw [twoPhase_stored (by rw [← hs]; exact h) hT]
  have h3 : onSub (Tpx.Ps e) s = (s, some s.sub.Pst) := by
    unfold onSub Tpx.Ps
    rw [Tpx.bind_eq]
    dsimp only [Tpx.get_eq]
    rw [if_neg (by push Not; rw [← hs]; exact ⟨hm, h.le⟩), Tpx.bind_eq, Tpx.updateSat_stored hT]
    rfl
  unfold phaseOfMatter
  rw [bindP_eq]
  dsimp only [getP_eq]
  rw [if_neg (not_le.mpr h), bindP_eq, hp]
  dsimp only
  by_cases hd : s.sub.Rhv ≤ s.sub.Rho ∧ s.sub.Rho ≤ s.sub.Rhf
  · simp only [if_pos hd]
    by_cases hc : e.Pc ≤ s.sub.Pst
    · simp only [if_pos hc, pureP_eq]
    · simp only [if_neg hc]
      rw [bindP_eq, h2]
      simp [hd]
  · simp only [if_neg hd]
    by_cases hc : e.Pc ≤ e.Pp s.T s.sub.Rho
    · simp only [if_pos hc, pureP_eq]
    · simp only [if_neg hc]
      rw [bindP_eq, h2]
      simp only [hd, decide_false, Bool.false_eq_true, if_false]
      rw [bindP_eq, hp]
      simp only [if_neg hd]
      rw [bindP_eq, h3]
      dsimp only
      split_ifs <;> rfl

/-- Liquid below its saturation pressure (superheated liquid) is called gas. -/
theorem superheated_liquid {s : PSt} (hs : s.T = s.sub.T) (h : s.T < e.Tc) (hm : e.Tmin ≤ s.T)
    (hT : s.sub.T = s.sub.Tslast) (h1 : s.sub.Rhf < s.sub.Rho) (h2 : e.Pp s.T s.sub.Rho < s.sub.Pst)
    (h3 : s.sub.Pst < e.Pc) : phaseOfMatter e s = (s, some "gas") := by
  rw [phase_subcritical hs h hm hT, if_neg (by rintro ⟨_, k⟩; linarith), if_neg (by linarith), if_pos h2]

example : phaseOfMatter { gas with Tc := 600 } ⟨500, 9, ⟨500, 9, 500, 8, 1, 0.1, 0, 0⟩⟩
    = (⟨500, 9, ⟨500, 9, 500, 8, 1, 0.1, 0, 0⟩⟩, some "supercritical") := by
  rw [phase_subcritical rfl (by norm_num) (by norm_num [gas]) rfl, if_neg (by norm_num), if_pos (by norm_num [gas])]

/-! ## Standard state -/

theorem setStdState_T {h0 s0 t0 p0 : ℝ} {s s' : Tpx.St} (h : Tpx.setStdState e h0 s0 t0 p0 s = (s', some ()))
    (hu : t0 ≠ 999.1234) : s'.T = t0 := by
  unfold Tpx.setStdState at h
  rw [Tpx.bind_some] at h
  obtain ⟨s1, _, g1, h⟩ := h
  rw [Tpx.bind_some] at h
  obtain ⟨s2, _, g2, h⟩ := h
  rw [Tpx.bind_some] at h
  obtain ⟨s3, _, g3, h⟩ := h
  simp only [Tpx.modify_eq, Prod.mk.injEq, and_true] at h
  rw [← h]
  show s3.T = t0
  rw [(Tpx.prop_ok g3).1, (Tpx.prop_ok g2).1, (setTP_T g1 hu).1]

/-- After the initialisation enthalpy and entropy of the fluid at 298.15 K and a low pressure `p` are those of the
species data as an ideal gas; the phase itself keeps its own temperature and density. -/
theorem initThermo_ok {h0 s0 pref : ℝ} {s s' : PSt} (hmw : e.mw ≠ 0)
    (h : initThermo e h0 s0 pref s = (s', some ())) :
    s'.T = s.T ∧ s'.dens = s.dens ∧ s'.sub.T = 298.15 ∧ ∃ p,
      enthalpyMole e s' = (s', some (h0 * 8314.46261815324 * 298.15)) ∧
      entropyMole e s' = (s', some ((s0 - Real.log (p / pref)) * 8314.46261815324)) ∧
      (e.Tc ≤ 298.15 → p = 0.000001 * e.Pc) ∧
      (298.15 < e.Tc → ∃ u w q, Tpx.setTX e 298.15 1 s.sub = (u, some ()) ∧ Tpx.P e u = (w, some q) ∧ p = 0.00001 * q) := by
  unfold initThermo at h
  rw [bindP_some] at h
  obtain ⟨s1, p, g1, h⟩ := h
  have k1 : s1.T = s.T ∧ s1.dens = s.dens ∧ (e.Tc ≤ 298.15 → p = 0.000001 * e.Pc) ∧
      (298.15 < e.Tc → ∃ u w q, Tpx.setTX e 298.15 1 s.sub = (u, some ()) ∧ Tpx.P e u = (w, some q) ∧
        p = 0.00001 * q) := by
    unfold startPressure at g1
    split_ifs at g1 with hc
    · rw [bindP_some] at g1
      obtain ⟨s2, _, g2, g1⟩ := g1
      obtain ⟨u, l2, rfl⟩ := onSub_some.mp g2
      rw [bindP_some] at g1
      obtain ⟨s3, q, g3, g1⟩ := g1
      obtain ⟨w, l3, rfl⟩ := onSub_some.mp g3
      simp only [pureP_eq, Prod.mk.injEq, Option.some.injEq] at g1
      obtain ⟨rfl, rfl⟩ := g1
      exact ⟨rfl, rfl, fun k => absurd hc (not_lt.mpr k), fun _ => ⟨u, w, q, l2, l3, by ring⟩⟩
    · simp only [pureP_eq, Prod.mk.injEq, Option.some.injEq] at g1
      obtain ⟨rfl, rfl⟩ := g1
      exact ⟨rfl, rfl, fun _ => by ring, fun k => absurd k hc⟩
  rw [bindP_some] at h
  obtain ⟨s2, _, g2, h⟩ := h
  obtain ⟨u, l2, rfl⟩ := onSub_some.mp g2
  obtain ⟨w, l3, rfl⟩ := onSub_some.mp h
  obtain ⟨m1, m2, _⟩ := Tpx.setStdState_ok l3
  refine ⟨k1.1, k1.2.1, setStdState_T l3 (by norm_num), p, ?_, ?_, k1.2.2⟩
  · rw [(molar (s := ⟨s1.T, s1.dens, w⟩)).1 m1, Tpx.Rg]
    congr 2
    field_simp
  · rw [(molar (s := ⟨s1.T, s1.dens, w⟩)).2.2.1 m2, Tpx.Rg]
    congr 2
    field_simp

/-- The list of states names a pair of density and pressure that the class cannot set: `setState_DP` is not overridden
and throws (`ThermoPhase.h:1404-1407`). All the other pairs have a setter. -/
theorem fullStates_spec : fullStates.length = 14 ∧ fullStates.Nodup ∧ "DP" ∈ fullStates ∧
    partialStates = ["TP", "TQ", "PQ"] ∧
    ∀ x ∈ ["TD", "UV", "HP", "SP", "SV", "ST", "TV", "PV", "UP", "VH", "TH", "SH", "TPQ"], x ∈ fullStates := by
  decide

/-- The calls of the substance behind the setters. -/
theorem setter_table {x y : ℝ} {s s' : PSt} :
    (setStateHP e x y s = (s', some ()) → ∃ u, Tpx.viaLever e (Tpx.leverP e y x .H) .H .P x y s.sub = (u, some ()) ∧ s'.T = u.T ∧ s'.dens = u.Rho) ∧
    (setStateUV e x y s = (s', some ()) → ∃ u, Tpx.setXY e .U .V x y 1e-4 1e-8 s.sub = (u, some ()) ∧ s'.T = u.T ∧ s'.dens = u.Rho) ∧
    (setStateSV e x y s = (s', some ()) → ∃ u, Tpx.setXY e .S .V x y 1e-7 1e-8 s.sub = (u, some ()) ∧ s'.T = u.T ∧ s'.dens = u.Rho) ∧
    (setStateSP e x y s = (s', some ()) → ∃ u, Tpx.viaLever e (Tpx.leverP e y x .S) .S .P x y s.sub = (u, some ()) ∧ s'.T = u.T ∧ s'.dens = u.Rho) ∧
    (setStateST e x y s = (s', some ()) → ∃ u, Tpx.viaLever e (Tpx.leverT e y x .S) .S .T x y s.sub = (u, some ()) ∧ s'.T = u.T ∧ s'.dens = u.Rho) ∧
    (setStateTV e x y s = (s', some ()) → s'.T = x ∧ s'.dens = 1 / y) ∧
    (setStatePV e x y s = (s', some ()) → ∃ u, Tpx.viaLever e (Tpx.leverP e x y .V) .P .V x y s.sub = (u, some ()) ∧ s'.T = u.T ∧ s'.dens = u.Rho) ∧
    (setStateUP e x y s = (s', some ()) → ∃ u, Tpx.viaLever e (Tpx.leverP e y x .U) .U .P x y s.sub = (u, some ()) ∧ s'.T = u.T ∧ s'.dens = u.Rho) ∧
    (setStateVH e x y s = (s', some ()) → ∃ u, Tpx.setXY e .V .H x y 1e-8 1e-4 s.sub = (u, some ()) ∧ s'.T = u.T ∧ s'.dens = u.Rho) ∧
    (setStateTH e x y s = (s', some ()) → ∃ u, Tpx.setXY e .T .H x y 1e-3 1e-4 s.sub = (u, some ()) ∧ s'.T = u.T ∧ s'.dens = u.Rho) ∧
    (setStateSH e x y s = (s', some ()) → ∃ u, Tpx.setXY e .S .H x y 1e-7 1e-4 s.sub = (u, some ()) ∧ s'.T = u.T ∧ s'.dens = u.Rho) := by
  have key : ∀ {xy : ℤ}, setStateXY e xy x y s = (s', some ()) →
      ∃ u, Tpx.set e xy x y s.sub = (u, some ()) ∧ s'.T = u.T ∧ s'.dens = u.Rho := by
    intro xy h
    obtain ⟨u, a, _, b, c, _⟩ := setStateXY_ok h
    exact ⟨u, a, b, c⟩
  refine ⟨key, key, key, key, key, fun h => ?_, key, key, key, key, key⟩
  obtain ⟨u, a, b, c⟩ := key h
  rw [set_TV] at a
  obtain ⟨_, _, _, d⟩ := Tpx.setTV_ok a
  rw [d] at b c
  exact ⟨b, c⟩

end Verif.PureFluid
