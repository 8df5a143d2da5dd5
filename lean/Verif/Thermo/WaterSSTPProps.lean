import Verif.Thermo.WaterSSTP
import Mathlib.Tactic.NormNum
import Mathlib.Tactic.Ring

/-!
# C100: theorems on the water phase
-/

namespace Verif.WaterSSTP

open Verif Verif.Iapws

variable {w : Water}

/-- The phase and its equation of state object agree. -/
def Sync (s : St) : Prop := s.sT = s.T ∧ s.sD = s.dens

theorem density_phase (T p g : ℝ) (s : St) : (density w T p g s).1.T = s.T ∧ (density w T p g s).1.dens = s.dens ∧
    (density w T p g s).1.sT = T := by
  unfold density setTD
  split_ifs
  · exact ⟨rfl, rfl, rfl⟩
  · split <;> exact ⟨rfl, rfl, rfl⟩

/-- density: what is found is set, otherwise the guess. -/
theorem density_spec (T p g : ℝ) (s : St) (hc : ¬(|p - Pc| / Pc < 1e-8 ∧ |T - Tc| / Tc < 1e-8)) :
    (∀ r, w.root T p g = some r → density w T p g s = ({ s with sT := T, sD := r }, r)) ∧
    (w.root T p g = none → density w T p g s = ({ s with sT := T, sD := g }, -1)) := by
  unfold density
  rw [if_neg hc]
  exact ⟨fun r h => by rw [h]; rfl, fun h => by rw [h]; rfl⟩

theorem density_pos {T p g : ℝ} {s : St} (h : 0 < (density w T p g s).2) :
    (density w T p g s).1.sD = (density w T p g s).2 := by
  unfold density at h ⊢
  split_ifs with hc
  · rfl
  · rw [if_neg hc] at h
    cases hr : w.root T p g with
    | none => rw [hr] at h; norm_num at h
    | some r => rfl

theorem psat_phase (T : ℝ) (s : St) : (psat w T s).1.T = s.T ∧ (psat w T s).1.dens = s.dens ∧ (psat w T s).1.sT = T := by
  unfold psat
  split_ifs
  · exact ⟨(density_phase _ _ _ _).1, (density_phase _ _ _ _).2.1, rfl⟩
  · split <;> exact ⟨rfl, rfl, rfl⟩

/-! ## Setters -/

theorem setTemperature_ok {t : ℝ} {s s' : St} (h : setTemperature t s = (s', some ())) :
    273.16 ≤ t ∧ Sync s' ∧ s'.T = t ∧ s'.dens = s.dens := by
  unfold setTemperature at h
  split_ifs at h with q
  · simp at h
  · simp only [Prod.mk.injEq, and_true] at h
    subst h
    exact ⟨not_lt.1 q, ⟨rfl, rfl⟩, rfl, rfl⟩

/-- A temperature below the triple point is refused and nothing changes. -/
theorem setTemperature_low {t : ℝ} (s : St) (h : t < 273.16) : setTemperature t s = (s, none) := by
  simp [setTemperature, h]

theorem setTemperature_some {t : ℝ} (s : St) (h : 273.16 ≤ t) : (setTemperature t s).2 = some () := by
  simp [setTemperature, not_lt.2 h]

theorem setDensity_ok {d : ℝ} {s s' : St} (h : setDensity d s = (s', some ())) :
    0 < d ∧ Sync s' ∧ s'.T = s.T ∧ s'.dens = d := by
  unfold setDensity at h
  split_ifs at h with q
  · simp only [Prod.mk.injEq, and_true] at h
    subst h
    exact ⟨q, ⟨rfl, rfl⟩, rfl, rfl⟩
  · simp at h

theorem setDensity_bad {d : ℝ} (s : St) (h : d ≤ 0) : setDensity d s = (s, none) := by
  simp [setDensity, not_lt.2 h]

/-- setPressure, when it returns: phase and object agree, the temperature is kept, and the density is a root for
the pressure, sought from 1000 kg/m3 for a liquid and from the present density otherwise. -/
theorem setPressure_ok {gasOk : Bool} {p : ℝ} {s s' : St} (h : setPressure w gasOk p s = (s', some ())) :
    Sync s' ∧ s'.T = s.T ∧ 0 < s'.dens ∧ ∃ pp, (psat w s.T s).2 = some pp ∧
      (s.T < Tc → gasOk = false → pp ≤ p) ∧
      (¬(|p - Pc| / Pc < 1e-8 ∧ |s.T - Tc| / Tc < 1e-8) →
        w.root s.T p (if s.T < Tc ∧ pp ≤ p then 1000 else s.dens) = some s'.dens) := by
  unfold setPressure at h
  obtain ⟨k1, k2, k3⟩ := psat_phase (w := w) s.T s
  generalize hq : psat w s.T s = q at *
  obtain ⟨s1, o⟩ := q
  cases o with
  | none => simp at h
  | some pp =>
    simp only at h k1 k2 k3
    suffices hh : ∀ g : ℝ, (if s.T < Tc ∧ pp ≤ p then (1000 : ℝ) else s.dens) = g → Sync s' ∧ s'.T = s.T ∧
        0 < s'.dens ∧ (s.T < Tc → gasOk = false → pp ≤ p) ∧
        (¬(|p - Pc| / Pc < 1e-8 ∧ |s.T - Tc| / Tc < 1e-8) → w.root s.T p g = some s'.dens) by
      obtain ⟨a1, a2, a3, a4, a5⟩ := hh _ rfl
      exact ⟨a1, a2, a3, pp, rfl, a4, a5⟩
    intro g hg
    rw [hg] at h
    split_ifs at h with h1 h2
    · simp at h
    · simp at h
    · obtain ⟨d1, d2, d3, d4⟩ := setDensity_ok h
      obtain ⟨e1, e2, e3⟩ := density_phase (w := w) s.T p g s1
      refine ⟨d2, by rw [d3, e1, k1], by rw [d4]; exact d1, fun t g => ?_, fun hc => ?_⟩
      · by_contra hh
        exact h1 ⟨t, not_le.1 hh, g⟩
      · rw [d4]
        obtain ⟨f1, f2⟩ := density_spec (w := w) s.T p g s1 hc
        cases hr : w.root s.T p g with
        | none =>
          rw [f2 hr] at d1
          norm_num at d1
        | some r => rw [f1 r hr]

/-- A pressure below saturation is refused, but the object has been moved to the saturated liquid: the phase then
reports the pressure of that state. -/
theorem setPressure_below {p ps ρ : ℝ} {s : St} (hT : s.T < Tc) (hs : w.sat s.T = some (ps, ρ)) (hp : p < ps) :
    setPressure w false p s = ({ s with sT := s.T, sD := ρ }, none) ∧
    pressure w (setPressure w false p s).1 = w.P s.T ρ := by
  have e : setPressure w false p s = ({ s with sT := s.T, sD := ρ }, none) := by
    unfold setPressure psat
    rw [if_neg (not_le.2 hT), hs]
    simp [hT, hp, setTD]
  rw [e]
  exact ⟨rfl, rfl⟩

/-- If no density is found the object keeps the guess. -/
theorem setPressure_noroot {gasOk : Bool} {p ps ρ : ℝ} {s : St} (hT : s.T < Tc) (hs : w.sat s.T = some (ps, ρ))
    (hp : ps ≤ p) (hr : w.root s.T p 1000 = none) (hc : ¬(|p - Pc| / Pc < 1e-8 ∧ |s.T - Tc| / Tc < 1e-8)) :
    setPressure w gasOk p s = ({ s with sT := s.T, sD := 1000 }, none) := by
  unfold setPressure psat
  rw [if_neg (not_le.2 hT), hs]
  have hg : (if s.T < Tc ∧ ps ≤ p then (1000 : ℝ) else s.dens) = 1000 := if_pos ⟨hT, hp⟩
  simp only [hg]
  rw [if_neg (fun h => absurd h.2.1 (not_lt.2 hp)), (density_spec s.T p 1000 _ hc).2 hr]
  norm_num [setTD]

/-- After a refused pressure temperature and density of the phase are the old ones. -/
theorem setPressure_fail {gasOk : Bool} {p : ℝ} {s s' : St} (h : setPressure w gasOk p s = (s', none)) :
    s'.T = s.T ∧ s'.dens = s.dens ∧ s'.sT = s.T := by
  unfold setPressure at h
  obtain ⟨k1, k2, k3⟩ := psat_phase (w := w) s.T s
  generalize hq : psat w s.T s = q at *
  obtain ⟨s1, o⟩ := q
  cases o with
  | none =>
    simp only [Prod.mk.injEq, and_true] at h
    subst h
    exact ⟨k1, k2, k3⟩
  | some pp =>
    simp only at h k1 k2 k3
    generalize (if s.T < Tc ∧ pp ≤ p then (1000 : ℝ) else s.dens) = g at h
    split_ifs at h with h1 h2
    · simp only [Prod.mk.injEq, and_true] at h
      subst h
      exact ⟨k1, k2, k3⟩
    · simp only [Prod.mk.injEq, and_true] at h
      obtain ⟨e1, e2, e3⟩ := density_phase (w := w) s.T p g s1
      rw [← h]
      exact ⟨by rw [e1, k1], by rw [e2, k2], e3⟩
    · unfold setDensity at h
      rw [if_pos (not_le.1 h2)] at h
      simp at h

/-- satPressure leaves the state as it was if the object agreed with the phase and the solver returns. -/
theorem satPressure_ok {t p : ℝ} {s s' : St} (h : satPressure w t s = (s', some p)) :
    Sync s' ∧ s'.T = s.T ∧ s'.dens = s.dens ∧ (psat w t s).2 = some p ∧ (Sync s → s' = s) := by
  unfold satPressure at h
  obtain ⟨k1, k2, k3⟩ := psat_phase (w := w) t s
  generalize hq : psat w t s = q at *
  obtain ⟨s1, o⟩ := q
  cases o with
  | none => simp at h
  | some pp =>
    simp only [Prod.mk.injEq, Option.some.injEq] at h k1 k2
    obtain ⟨rfl, rfl⟩ := h
    have e : setTD s.T s.dens s1 = { T := s.T, dens := s.dens, sT := s.T, sD := s.dens } := by
      rw [← k1, ← k2]; rfl
    rw [e]
    refine ⟨⟨rfl, rfl⟩, rfl, rfl, rfl, ?_⟩
    rintro ⟨g1, g2⟩
    rw [← g1, ← g2]
    cases s
    simp only at g1 g2
    subst g1 g2
    rfl

/-- If the solver throws the object stays at the other temperature. -/
theorem satPressure_fail {t : ℝ} {s : St} (ht : t < Tc) (h : w.sat t = none) :
    satPressure w t s = ({ s with sT := t, sD := w.satFail t }, none) := by
  unfold satPressure psat
  rw [if_neg (not_le.2 ht), h]
  rfl

/-! ## Reference state -/

/-- Reference functions: evaluated at one atmosphere at the temperature of the phase; afterwards the object has the
temperature of the phase again and either its density or a root for its pressure. -/
theorem atRef_ok {f : ℝ → ℝ → ℝ} {s s' : St} {a : ℝ} (h : atRef w f s = (s', some a))
    (hc : ¬(|w.P s.sT s.sD - Pc| / Pc < 1e-8 ∧ |s.T - Tc| / Tc < 1e-8)) :
    s'.T = s.T ∧ s'.dens = s.dens ∧ s'.sT = s.T ∧
    (s'.sD = s.dens ∨ w.root s.T (w.P s.sT s.sD) s.dens = some s'.sD) ∧
    ∃ ρ, w.root s.T 101325 s.dens = some ρ ∧ a = f s.T ρ := by
  have hp : ¬(|oneAtm - Pc| / Pc < 1e-8 ∧ |s.T - Tc| / Tc < 1e-8) := by
    rintro ⟨h1, -⟩
    revert h1
    norm_num [oneAtm, Pc, abs_of_neg]
  obtain ⟨d1, d2⟩ := density_spec (w := w) s.T oneAtm s.dens s hp
  unfold atRef at h
  cases hr : w.root s.T oneAtm s.dens with
  | none =>
    rw [d2 hr] at h
    simp only at h
    rw [if_pos (by norm_num)] at h
    simp at h
  | some r =>
    rw [d1 r hr] at h
    simp only at h
    split_ifs at h with q
    · simp at h
    · simp only [Prod.mk.injEq, Option.some.injEq] at h
      obtain ⟨h1, h2⟩ := h
      obtain ⟨e1, e2⟩ := density_spec (w := w) s.T (pressure w s) s.dens { s with sT := s.T, sD := r } hc
      have ho : oneAtm = 101325 := rfl
      rw [ho] at hr
      refine ⟨?_, ?_, ?_, ?_, r, hr, h2.symm⟩
      · rw [← h1]; exact (density_phase _ _ _ _).1
      · rw [← h1]; exact (density_phase _ _ _ _).2.1
      · rw [← h1]; exact (density_phase _ _ _ _).2.2
      · cases hq : w.root s.T (pressure w s) s.dens with
        | none =>
          rw [e2 hq] at h1
          left
          rw [← h1]
        | some r2 =>
          rw [e1 r2 hq] at h1
          right
          rw [← h1]
          exact hq

/-- If no density is found at one atmosphere these functions throw and the object is at the state of the phase. -/
theorem atRef_fail {f : ℝ → ℝ → ℝ} {s : St} (h : w.root s.T 101325 s.dens = none) :
    atRef w f s = ({ s with sT := s.T, sD := s.dens }, none) := by
  have hp : ¬(|oneAtm - Pc| / Pc < 1e-8 ∧ |s.T - Tc| / Tc < 1e-8) := by
    rintro ⟨h1, -⟩
    revert h1
    norm_num [oneAtm, Pc, abs_of_neg]
  unfold atRef
  rw [(density_spec (w := w) s.T oneAtm s.dens s hp).2 h]
  norm_num

/-- getCp_R_ref then leaves the object with density minus one. -/
theorem cpRef_fail {k : Off} {s : St} (h : w.root s.T 101325 s.dens = none) :
    cpRef w k s = ({ s with sT := s.T, sD := -1 }, none) := by
  have hp : ¬(|oneAtm - Pc| / Pc < 1e-8 ∧ |s.T - Tc| / Tc < 1e-8) := by
    rintro ⟨h1, -⟩
    revert h1
    norm_num [oneAtm, Pc, abs_of_neg]
  unfold cpRef
  rw [(density_spec (w := w) s.T oneAtm s.dens s hp).2 h]
  norm_num [setTD]

/-- Otherwise it is the same as for the other functions. -/
theorem cpRef_ok {k : Off} {s : St} {r : ℝ} (h : w.root s.T 101325 s.dens = some r) (hr : 0 < r) :
    cpRef w k s = atRef w (fun T ρ => w.cp T ρ * k.mw / 8314.46261815324) s := by
  have hp : ¬(|oneAtm - Pc| / Pc < 1e-8 ∧ |s.T - Tc| / Tc < 1e-8) := by
    rintro ⟨h1, -⟩
    revert h1
    norm_num [oneAtm, Pc, abs_of_neg]
  unfold cpRef atRef
  rw [(density_spec (w := w) s.T oneAtm s.dens s hp).1 r h]
  simp only [not_le.2 hr, if_false]
  rfl

/-- Values of the reference functions. -/
theorem reference {k : Off} {s s' : St} {a : ℝ}
    (hc : ¬(|w.P s.sT s.sD - Pc| / Pc < 1e-8 ∧ |s.T - Tc| / Tc < 1e-8)) :
    (enthalpyRTRef w k s = (s', some a) → ∃ ρ, w.root s.T 101325 s.dens = some ρ ∧
      a * (8314.46261815324 * s.T) = (if s.T = 0 then 0 else w.h s.T ρ * k.mw + k.EW)) ∧
    (gibbsRTRef w k s = (s', some a) → ∃ ρ, w.root s.T 101325 s.dens = some ρ ∧
      a * (8314.46261815324 * s.T) = (if s.T = 0 then 0 else w.g s.T ρ * k.mw + k.EW - k.SW * s.T)) ∧
    (entropyRRef w k s = (s', some a) → ∃ ρ, w.root s.T 101325 s.dens = some ρ ∧
      a * 8314.46261815324 = w.s s.T ρ * k.mw + k.SW) ∧
    (volumeRef w k s = (s', some a) → ∃ ρ, w.root s.T 101325 s.dens = some ρ ∧ a = k.mw / ρ) := by
  refine ⟨fun h => ?_, fun h => ?_, fun h => ?_, fun h => ?_⟩ <;>
    obtain ⟨-, -, -, -, ρ, h1, h2⟩ := atRef_ok h hc
  · refine ⟨ρ, h1, ?_⟩
    rw [h2, Rg]
    split_ifs with q
    · rw [q]; ring
    · field_simp
  · refine ⟨ρ, h1, ?_⟩
    rw [h2, Rg]
    split_ifs with q
    · rw [q]; ring
    · field_simp
  · refine ⟨ρ, h1, ?_⟩
    rw [h2, Rg]
    field_simp
  · exact ⟨ρ, h1, h2⟩

/-- dthermalExpansionCoeffdT restores the state when it returns. -/
theorem dAlpha_ok {s s' : St} {a : ℝ} (h : dAlphadT w s = (s', some a)) : Sync s' ∧ s'.T = s.T ∧ s'.dens = s.dens ∧
    ∃ ρ, 0 ≤ ρ ∧ a * 0.04 = w.alpha s.T s.dens - w.alpha (s.T - 0.04) ρ ∧
      ρ = (density w (s.T - 0.04) (w.P s.sT s.sD) s.dens s).2 := by
  unfold dAlphadT at h
  obtain ⟨e1, e2, e3⟩ := density_phase (w := w) (s.T - 0.04) (pressure w s) s.dens s
  simp only at h
  split_ifs at h with q
  · simp at h
  · simp only [Prod.mk.injEq, Option.some.injEq] at h
    obtain ⟨rfl, rfl⟩ := h
    refine ⟨⟨e1.symm, e2.symm⟩, e1, e2, _, not_lt.1 q, ?_, rfl⟩
    have e4 : (density w (s.T - 0.04) (pressure w s) s.dens s).1.sD = (density w (s.T - 0.04) (pressure w s) s.dens s).2 := by
      unfold density at q ⊢
      split_ifs with hc
      · rfl
      · rw [if_neg hc] at q
        cases hr : w.root (s.T - 0.04) (pressure w s) s.dens with
        | none => rw [hr] at q; norm_num at q
        | some r => rfl
    rw [e3, e4]
    simp only [setTD, pressure]
    field_simp

/-- If it throws the object stays 0.04 K below the phase. -/
theorem dAlpha_fail {s : St} (hr : w.root (s.T - 0.04) (w.P s.sT s.sD) s.dens = none)
    (hc : ¬(|w.P s.sT s.sD - Pc| / Pc < 1e-8 ∧ |s.T - 0.04 - Tc| / Tc < 1e-8)) :
    dAlphadT w s = ({ s with sT := s.T - 0.04, sD := s.dens }, none) := by
  unfold dAlphadT
  rw [(density_spec (w := w) (s.T - 0.04) (pressure w s) s.dens s hc).2 hr]
  norm_num

/-! ## Properties -/

/-- Gibbs energy, enthalpy, entropy, energy, chemical potential agree when the object agrees with the phase. -/
theorem gibbs_consistent {k : Off} {s : St} (hs : Sync s) (hT : s.T ≠ 0)
    (hg : w.g s.sT s.sD = w.h s.sT s.sD - s.sT * w.s s.sT s.sD) :
    gibbsRT w k s = enthalpyRT w k s - entropyR w k s ∧
    chemPot w k s = gibbsRT w k s * (8314.46261815324 * s.T) := by
  have hR : Rg ≠ 0 := by norm_num [Rg]
  constructor
  · rw [hs.1] at hg
    simp only [gibbsRT, enthalpyRT, entropyR, hs.1, hg]
    field_simp
    ring
  · rw [← show Rg = 8314.46261815324 from rfl]
    simp only [gibbsRT, chemPot]
    field_simp

/-- The formulas. -/
theorem formulas (k : Off) (s : St) : enthalpyRT w k s = (w.h s.sT s.sD * k.mw + k.EW) / (8314.46261815324 * s.T) ∧
    intEnergyRT w k s = (w.u s.sT s.sD * k.mw + k.EW) / (8314.46261815324 * s.T) ∧
    entropyR w k s = (w.s s.sT s.sD * k.mw + k.SW) / 8314.46261815324 ∧
    cpR w k s = w.cp s.sT s.sD * k.mw / 8314.46261815324 ∧ cvMole w k s = w.cv s.sT s.sD * k.mw ∧
    pressure w s = w.P s.sT s.sD := ⟨rfl, rfl, rfl, rfl, rfl, rfl⟩

/-- If they differ the Gibbs energy is not enthalpy less entropy: the defect. -/
theorem gibbs_unsynced {k : Off} {s : St} (hT : s.T ≠ 0)
    (hg : w.g s.sT s.sD = w.h s.sT s.sD - s.sT * w.s s.sT s.sD) :
    gibbsRT w k s - (enthalpyRT w k s - entropyR w k s) = w.s s.sT s.sD * k.mw / Rg * (1 - s.sT / s.T) := by
  have hR : Rg ≠ 0 := by norm_num [Rg]
  simp only [gibbsRT, enthalpyRT, entropyR, hg]
  field_simp
  ring

/-- Below the critical temperature the vapour fraction is zero, for steam too. -/
theorem vaporFraction_spec (s : St) : (s.T < 647.096 → vaporFraction s = 0) ∧
    (647.096 ≤ s.T → (322 ≤ s.dens → vaporFraction s = 0) ∧ (s.dens < 322 → vaporFraction s = 1)) := by
  have e1 : Tc = 647.096 := rfl
  have e2 : Rhoc = 322 := rfl
  rw [← e1, ← e2]
  unfold vaporFraction
  refine ⟨fun h => by rw [if_neg (not_le.2 h)], fun h => ⟨fun g => by rw [if_pos h, if_pos g], fun g => by
    rw [if_pos h, if_neg (not_le.2 g)]⟩⟩

theorem phaseOfMatter_spec (s : St) : (647.096 < s.sT → phaseOfMatter s = "supercritical") ∧
    (s.sT ≤ 647.096 → s.sD < 322 → phaseOfMatter s = "gas") ∧
    (s.sT ≤ 647.096 → 322 ≤ s.sD → phaseOfMatter s = "liquid") := by
  have e1 : Tc = 647.096 := rfl
  have e2 : Rhoc = 322 := rfl
  have e3 : 0 < Rhoc := by norm_num [Rhoc]
  rw [← e1, ← e2]
  unfold phaseOfMatter
  refine ⟨fun h => by simp [h], fun h g => ?_, fun h g => ?_⟩
  · have : s.sD / Rhoc < 1 := (div_lt_one e3).2 g
    simp [not_lt.2 h, this]
  · have : ¬s.sD / Rhoc < 1 := not_lt.2 ((one_le_div e3).2 g)
    simp [not_lt.2 h, this]

/-- Steam below the critical temperature: "gas" with vapour fraction zero. -/
theorem steam_fraction : ∃ s : St, Sync s ∧ phaseOfMatter s = "gas" ∧ vaporFraction s = 0 :=
  ⟨⟨400, 1, 400, 1⟩, ⟨rfl, rfl⟩, (phaseOfMatter_spec _).2.1 (by norm_num) (by norm_num),
    (vaporFraction_spec _).1 (by norm_num)⟩

/-! ## Initialisation -/

/-- initThermo of a new object: the phase is liquid water at 298.15 K and one atmosphere; at the low pressure
state the molar enthalpy is -241.826 MJ/kmol, and the molar entropy less R ln(1 bar / 0.01 Pa) is 188.835
kJ/kmol/K. -/
theorem initThermo_ok {mw ew0 : ℝ} {s s' : St} {k : Off} (h : initThermo w mw ew0 s = (s', some k)) :
    Sync s' ∧ s'.T = 298.15 ∧ w.root 298.15 101325 1000 = some s'.dens ∧ k.mw = mw ∧
    ∃ ρ, w.root 298.15 1e-2 7e-8 = some ρ ∧
      w.s 298.15 ρ * mw + k.SW - 8314.46261815324 * Real.log 10000000 = 188.835e3 ∧
      (ew0 = 0 → w.h 298.15 ρ * mw + k.EW = -241.826e6) ∧
      (w.h 298.15 ρ * mw + ew0 ≠ -241.826e6 → w.h 298.15 ρ * mw + k.EW = -241.826e6 - ew0) := by
  have hR : Rg ≠ 0 := by norm_num [Rg]
  have hp1 : ¬(|(1e-2 : ℝ) - Pc| / Pc < 1e-8 ∧ |(298.15 : ℝ) - Tc| / Tc < 1e-8) := by
    rintro ⟨h1, -⟩
    revert h1
    norm_num [Pc, abs_of_neg]
  have hp2 : ¬(|oneAtm - Pc| / Pc < 1e-8 ∧ |(298.15 : ℝ) - Tc| / Tc < 1e-8) := by
    rintro ⟨h1, -⟩
    revert h1
    norm_num [oneAtm, Pc, abs_of_neg]
  unfold initThermo at h
  simp only at h
  obtain ⟨d1, d2⟩ := density_spec (w := w) 298.15 1e-2 7e-8 { s with T := 298.15, dens := 7e-8 } hp1
  cases hr : w.root 298.15 1e-2 7e-8 with
  | none =>
    rw [d2 hr] at h
    rw [setDensity_bad _ (by norm_num)] at h
    simp at h
  | some ρ =>
    rw [d1 ρ hr] at h
    by_cases hpos : 0 < ρ
    swap
    · rw [setDensity_bad _ (not_lt.1 hpos)] at h
      simp at h
    have e1 : setDensity ρ { T := (298.15 : ℝ), dens := 7e-8, sT := 298.15, sD := ρ } =
        (⟨298.15, ρ, 298.15, ρ⟩, some ()) := by simp [setDensity, hpos, setTD]
    have e2 : ∀ x : ℝ, (setTemperature 298.15 ⟨298.15, ρ, 298.15, x⟩).1 = ⟨298.15, ρ, 298.15, ρ⟩ := by
      intro x
      unfold setTemperature
      rw [if_neg (by norm_num)]
      rfl
    simp only [e1, e2] at h
    obtain ⟨f1, f2⟩ := density_spec (w := w) 298.15 oneAtm 1000 ⟨298.15, ρ, 298.15, ρ⟩ hp2
    cases hq : w.root 298.15 oneAtm 1000 with
    | none =>
      rw [f2 hq] at h
      rw [setDensity_bad _ (by norm_num)] at h
      simp at h
    | some r =>
      rw [f1 r hq] at h
      by_cases hpr : 0 < r
      swap
      · rw [setDensity_bad _ (not_lt.1 hpr)] at h
        simp at h
      have e3 : setDensity r { T := (298.15 : ℝ), dens := ρ, sT := 298.15, sD := r } =
          (⟨298.15, r, 298.15, r⟩, some ()) := by simp [setDensity, hpr, setTD]
      simp only [e3, Prod.mk.injEq, Option.some.injEq] at h
      obtain ⟨rfl, rfl⟩ := h
      have hlog : Real.log (1e5 / 1e-2) = Real.log 10000000 := by norm_num
      have hs0 : entropyR w { mw := mw, EW := 0, SW := 0 } ⟨298.15, ρ, 298.15, ρ⟩ * Rg = w.s 298.15 ρ * mw := by
        simp only [entropyR]
        field_simp
        ring
      have hh0 : ∀ sw : ℝ, enthalpyRT w { mw := mw, EW := ew0, SW := sw } ⟨298.15, ρ, 298.15, ρ⟩ * (Rg * 298.15)
          = w.h 298.15 ρ * mw + ew0 := by
        intro sw
        simp only [enthalpyRT]
        field_simp
      refine ⟨⟨rfl, rfl⟩, rfl, hq, rfl, ρ, rfl, ?_, ?_, ?_⟩
      · simp only [hs0, hlog]
        rw [← show Rg = 8314.46261815324 from rfl]
        split_ifs with q
        · ring
        · rw [ne_eq, not_not] at q
          linarith
      · intro h0
        simp only [hh0]
        split_ifs with q
        · rw [h0]; ring
        · rw [ne_eq, not_not] at q
          linarith
      · intro hne
        simp only [hh0]
        rw [if_pos hne]
        ring

/-- A toy water for which all of this happens. -/
noncomputable def toy : Water where
  root _ p g := if g = 1000 then some 1000 else if 0 < p then some (p / 100000) else none
  sat _ := some (3000, 1000)
  satFail _ := 1
  P _ ρ := ρ * 100000
  h _ _ := 1
  u _ _ := 1
  s _ _ := 1
  g T _ := 1 - T
  cp _ _ := 1
  cv _ _ := 1
  alpha T _ := T

example : ∃ s', setPressure toy false 5000 ⟨300, 900, 300, 900⟩ = (s', some ()) := by
  have h1 : ¬Tc ≤ 300 := by norm_num [Tc]
  have h2 : (300 : ℝ) < Tc := by norm_num [Tc]
  have hp : ¬(|(5000 : ℝ) - Pc| / Pc < 1e-8 ∧ |(300 : ℝ) - Tc| / Tc < 1e-8) := by
    rintro ⟨h1, -⟩
    revert h1
    norm_num [Pc, abs_of_neg]
  refine ⟨⟨300, 1000, 300, 1000⟩, ?_⟩
  unfold setPressure psat
  simp only [if_neg h1, toy, h2, true_and]
  norm_num
  unfold density
  rw [if_neg hp]
  norm_num [setTD, setDensity]

example : ∃ s' k, initThermo toy 18 0 ⟨1, 1, 1, 1⟩ = (s', some k) := by
  have hp1 : ¬(|(1e-2 : ℝ) - Pc| / Pc < 1e-8 ∧ |(298.15 : ℝ) - Tc| / Tc < 1e-8) := by
    rintro ⟨h1, -⟩
    revert h1
    norm_num [Pc, abs_of_neg]
  have hp2 : ¬(|oneAtm - Pc| / Pc < 1e-8 ∧ |(298.15 : ℝ) - Tc| / Tc < 1e-8) := by
    rintro ⟨h1, -⟩
    revert h1
    norm_num [oneAtm, Pc, abs_of_neg]
  unfold initThermo
  simp only
  rw [(density_spec (w := toy) 298.15 1e-2 7e-8 _ hp1).1 (1e-2 / 100000) (by norm_num [toy])]
  have e1 : setDensity (1e-2 / 100000) { T := (298.15 : ℝ), dens := 7e-8, sT := 298.15, sD := 1e-2 / 100000 } =
      (⟨298.15, 1e-2 / 100000, 298.15, 1e-2 / 100000⟩, some ()) := by
    unfold setDensity
    rw [if_pos (by norm_num)]
    rfl
  simp only [e1]
  rw [(density_spec (w := toy) 298.15 oneAtm 1000 _ hp2).1 1000 (by norm_num [toy])]
  unfold setDensity
  rw [if_pos (by norm_num)]
  exact ⟨_, _, rfl⟩

end Verif.WaterSSTP
