import Verif.Thermo.PureFluid
import Verif.Thermo.TpxProps5
import Verif.Thermo.TpxFluidsProps6

/-!
# Phase made of one pure fluid: the two copies of the state
-/

namespace Verif.PureFluid

open Verif

variable {e : Tpx.Eos}

/-! ## Sequencing -/

theorem bindP_eq {α β : Type} (x : PM α) (f : α → PM β) (s : PSt) :
    (x >>= f) s = match x s with
      | (s', some a) => f a s'
      | (s', none) => (s', none) := rfl

theorem bindP_some {α β : Type} {x : PM α} {f : α → PM β} {s s' : PSt} {b : β} :
    (x >>= f) s = (s', some b) ↔ ∃ s1 a, x s = (s1, some a) ∧ f a s1 = (s', some b) := by
  rw [bindP_eq]
  rcases h : x s with ⟨s1, _ | a⟩
  · simp
  · constructor
    · intro h2
      exact ⟨s1, a, rfl, h2⟩
    · rintro ⟨s2, a2, h1, h2⟩
      simp only [Prod.mk.injEq, Option.some.injEq] at h1
      obtain ⟨rfl, rfl⟩ := h1
      exact h2

@[simp] theorem pureP_eq {α : Type} (a : α) (s : PSt) : (pure a : PM α) s = (s, some a) := rfl
@[simp] theorem getP_eq (s : PSt) : getP s = (s, some s) := rfl
@[simp] theorem throwP_eq {α : Type} (s : PSt) : (throwP : PM α) s = (s, none) := rfl

theorem onSub_some {α : Type} {m : Tpx.M α} {s s' : PSt} {a : α} :
    onSub m s = (s', some a) ↔ ∃ u, m s.sub = (u, some a) ∧ s' = { s with sub := u } := by
  unfold onSub
  rcases h : m s.sub with ⟨u, r⟩
  simp only [Prod.mk.injEq]
  constructor
  · rintro ⟨h1, h2⟩
    exact ⟨u, ⟨rfl, h2⟩, h1.symm⟩
  · rintro ⟨u', ⟨h1, h2⟩, h3⟩
    exact ⟨by rw [h3, h1], h2⟩

theorem phaseSetT_some {t : ℝ} {s s' : PSt} :
    phaseSetT t s = (s', some ()) ↔ 0 < t ∧ s' = { s with T := t } := by
  unfold phaseSetT
  split_ifs with h
  · simp only [Prod.mk.injEq, and_true, h, true_and]; exact eq_comm
  · simp [h]

theorem phaseSetDens_some {r : ℝ} {s s' : PSt} :
    phaseSetDens r s = (s', some ()) ↔ 0 < r ∧ s' = { s with dens := r } := by
  unfold phaseSetDens
  split_ifs with h
  · simp only [Prod.mk.injEq, and_true, h, true_and]; exact eq_comm
  · simp [h]

/-! ## Volume and temperature of the substance -/

/-- The specific volume, also of a mixture of liquid and vapour, is the reciprocal of the density. -/
theorem volume_ok {s s' : Tpx.St} {v : ℝ} (h : Tpx.prop e .V s = (s', some v)) :
    v = 1 / s.Rho ∧ s'.T = s.T ∧ s'.Rho = s.Rho ∧ s'.uoff = s.uoff ∧ s'.soff = s.soff ∧ Tpx.Fresh e s' := by
  obtain ⟨h1, h2, h3, h4, h5, h6⟩ := Tpx.prop_ok h
  have hf := h5 (by decide)
  refine ⟨?_, h1, h2, h3, h4, hf⟩
  rw [← h2]
  clear h h1 h2 h3 h4 h5
  by_cases hc : e.Tc ≤ s'.T
  · rw [Tpx.prop_other (by decide) (by decide) (Tpx.quality_supercritical hc)] at h6
    rw [if_neg (by split_ifs <;> norm_num)] at h6
    simpa [Tpx.vprop, eq_comm] using h6
  · rcases hf with hf | hf
    · exact absurd hf hc
    · rw [Tpx.prop_other (by decide) (by decide) (Tpx.quality_stored (not_le.mp hc) hf)] at h6
      simp only [Prod.mk.injEq, true_and] at h6
      by_cases g1 : s'.Rho ≤ s'.Rhv
      · rw [if_pos g1, if_neg (by norm_num)] at h6
        simpa [Tpx.vprop, eq_comm] using h6
      · rw [if_neg g1] at h6
        by_cases g2 : s'.Rhf ≤ s'.Rho
        · rw [if_pos g2, if_neg (by norm_num)] at h6
          simpa [Tpx.vprop, eq_comm] using h6
        · rw [if_neg g2] at h6
          split_ifs at h6 with g4
          · simp only [Tpx.vprop, Option.bind_some, Option.some.injEq] at h6
            generalize 1 / s'.Rho = a at *
            generalize 1 / s'.Rhf = b at *
            generalize 1 / s'.Rhv = c at *
            have hd : c - b ≠ 0 := by
              intro h0
              rw [h0, div_zero] at g4
              exact lt_irrefl _ g4.1
            rw [← h6]
            field_simp
            ring
          · simpa [Tpx.vprop, eq_comm] using h6

/-- A property whose saturation data are up to date is read without changing anything. -/
theorem volume_fresh {s s' : Tpx.St} {v : ℝ} (hf : Tpx.Fresh e s) (h : Tpx.prop e .V s = (s', some v)) : s' = s :=
  Tpx.prop_fresh hf h

theorem xyStep_T {ify : Tpx.Flag} {t Y y v : ℝ} {s s' : Tpx.St} {tv : ℝ × ℝ} (h1 : e.Tmin ≤ t) (h2 : t ≤ e.Tmax)
    (h : Tpx.xyStep e .T ify t Y t y t v s = (s', some tv)) : s'.T = t ∧ tv.1 = t := by
  unfold Tpx.xyStep at h
  dsimp only at h
  rw [Tpx.bind_some] at h
  obtain ⟨s1, _, -, h⟩ := h
  rw [Tpx.bind_some] at h
  obtain ⟨s2, xt, -, h⟩ := h
  rw [Tpx.bind_some] at h
  obtain ⟨s3, yt, -, h⟩ := h
  rw [Tpx.bind_some] at h
  obtain ⟨s4, _, h4, h⟩ := h
  obtain ⟨-, -, -, h4⟩ := Tpx.setTV_ok h4
  rw [Tpx.bind_some] at h
  obtain ⟨s5, xv, h5, h⟩ := h
  rw [Tpx.prop_T] at h5
  simp only [Prod.mk.injEq, Option.some.injEq] at h5
  have hxv : xv = t := by rw [← h5.2, h4]
  subst hxv
  rw [Tpx.bind_some] at h
  obtain ⟨s6, yv, -, h⟩ := h
  rw [Tpx.bind_some] at h
  obtain ⟨s7, _, h7, h⟩ := h
  obtain ⟨-, -, -, h7⟩ := Tpx.setTV_ok h7
  simp only [sub_self, zero_div, mul_zero, zero_mul, ite_self, add_zero] at h h7
  have hm : max e.Tmin (min e.Tmax xv) = xv := by rw [min_eq_right h2, max_eq_right h1]
  rw [hm] at h h7
  simp only [Tpx.pure_eq, Prod.mk.injEq, Option.some.injEq] at h
  rw [← h.1, ← h.2, h7]
  exact ⟨rfl, rfl⟩

theorem xyLoop_T (ify : Tpx.Flag) (t Y atx aty : ℝ) (h1 : e.Tmin ≤ t) (h2 : t ≤ e.Tmax) :
    ∀ (n : ℕ) (v : ℝ) (s s' : Tpx.St), s.T = t →
      Tpx.xyLoop e .T ify t Y atx aty n t v s = (s', some ()) → s'.T = t
  | 0, v, s, s', _, h => by
    unfold Tpx.xyLoop at h
    simp at h
  | n + 1, v, s, s', hs, h => by
    unfold Tpx.xyLoop at h
    rw [Tpx.bind_eq, Tpx.prop_T] at h
    dsimp only at h
    rw [Tpx.bind_some] at h
    obtain ⟨s1, y, g1, h⟩ := h
    have hT := (Tpx.prop_ok g1).1
    rw [hs] at h hT
    split_ifs at h with hc hn
    · simp only [Tpx.pure_eq, Prod.mk.injEq, and_true] at h
      rw [← h, hT]
    · rw [Tpx.bind_some] at h
      obtain ⟨s2, tv, g2, h⟩ := h
      simp at h
    · rw [Tpx.bind_some] at h
      obtain ⟨s2, tv, g2, h⟩ := h
      obtain ⟨k1, k2⟩ := xyStep_T h1 h2 g2
      rw [k2] at h
      exact xyLoop_T ify t Y atx aty h1 h2 n _ _ _ k1 h

/-- Setting temperature and pressure gives exactly the temperature asked for (unless it is the number that marks
unset members). -/
theorem setTP_T {t p : ℝ} {s s' : Tpx.St} (h : Tpx.setTP e t p s = (s', some ())) (hu : t ≠ 999.1234) :
    s'.T = t ∧ e.Tmin ≤ t ∧ t ≤ e.Tmax := by
  unfold Tpx.setTP at h
  rw [Tpx.bind_some] at h
  obtain ⟨s1, _, g1, h⟩ := h
  have h12 : (e.Tmin ≤ t ∧ t ≤ e.Tmax) ∧ s1 = { s with T := t } := by
    unfold Tpx.setT at g1
    split_ifs at g1 with hr
    · simp only [Prod.mk.injEq, and_true] at g1
      exact ⟨hr, g1.symm⟩
    · simp at g1
  obtain ⟨⟨h1, h2⟩, hs1⟩ := h12
  refine ⟨?_, h1, h2⟩
  have hs1T : s1.T = t := by rw [hs1]
  rw [Tpx.bind_some] at h
  obtain ⟨s2, _, g2, h⟩ := h
  have hs2 : s2.T = t := by
    unfold Tpx.tpStart at g2
    split_ifs at g2 with hc
    · rw [Tpx.bind_some] at g2
      obtain ⟨s3, ps, g3, g2⟩ := g2
      split_ifs at g2 with a b
      · simp at g2
      · exact (Tpx.setTX_ok g2).2.2.2.2.1
      · exact (Tpx.setTX_ok g2).2.2.2.2.1
    · simp only [Tpx.pure_eq, Prod.mk.injEq, and_true] at g2
      rw [← g2, hs1T]
  unfold Tpx.setXY at h
  rw [Tpx.bind_some] at h
  obtain ⟨s3, _, g3, h⟩ := h
  have hs3 : s3.T = t := by
    unfold Tpx.xyStart at g3
    rw [Tpx.bind_eq] at g3
    dsimp only [Tpx.get_eq] at g3
    rw [if_neg (fun k => hu (by rw [← hs2, k.1, Tpx.undef]))] at g3
    split_ifs at g3 with b
    · rw [(Tpx.setTV_ok g3).2.2.2, hs2]
    · simp only [Tpx.pure_eq, Prod.mk.injEq, and_true] at g3
      rw [← g3, hs2]
  rw [Tpx.bind_eq] at h
  dsimp only [Tpx.get_eq] at h
  rw [hs3] at h
  exact xyLoop_T .P t p _ _ h1 h2 _ _ _ _ hs3 h

/-! ## Agreement of the two copies -/

/-- Phase and substance have the same temperature and density. -/
def Sync (s : PSt) : Prop := s.T = s.sub.T ∧ s.dens = s.sub.Rho

theorem subV_some {s s' : PSt} {v : ℝ} (h : subV e s = (s', some v)) :
    v = 1 / s.sub.Rho ∧ s'.T = s.T ∧ s'.dens = s.dens ∧ s'.sub.T = s.sub.T ∧ s'.sub.Rho = s.sub.Rho ∧
      s'.sub.uoff = s.sub.uoff ∧ s'.sub.soff = s.sub.soff ∧ (Tpx.Fresh e s.sub → s' = s) := by
  obtain ⟨u, h1, rfl⟩ := onSub_some.mp h
  obtain ⟨a, b, c, d, f, _⟩ := volume_ok h1
  refine ⟨a, rfl, rfl, b, c, d, f, fun hf => ?_⟩
  rw [Tpx.prop_fresh hf h1]

theorem set_TV (t v : ℝ) : Tpx.set e 12 t v = Tpx.setTV e t v := rfl
theorem set_TP (t v : ℝ) : Tpx.set e 14 t v = Tpx.setTP e t v := rfl
theorem set_TX (t v : ℝ) : Tpx.set e 17 t v = Tpx.setTX e t v := rfl
theorem set_PX (t v : ℝ) : Tpx.set e 47 t v = Tpx.setPX e t v := rfl

/-- Setting the temperature changes it in both copies and keeps both densities. -/
theorem setTemperature_ok {t : ℝ} {s s' : PSt} (h : setTemperature e t s = (s', some ())) :
    0 < t ∧ e.Tmin ≤ t ∧ t ≤ e.Tmax ∧ 0 < s.sub.Rho ∧ s'.T = t ∧ s'.sub.T = t ∧ s'.dens = s.dens ∧
      s'.sub.Rho = s.sub.Rho ∧ (Tpx.Fresh e s.sub → s'.sub = { s.sub with T := t }) := by
  unfold setTemperature at h
  rw [bindP_some] at h
  obtain ⟨s1, _, g1, h⟩ := h
  obtain ⟨h0, rfl⟩ := phaseSetT_some.mp g1
  rw [bindP_some] at h
  obtain ⟨s2, v, g2, h⟩ := h
  obtain ⟨a1, a2, a3, a4, a5, _, _, a8⟩ := subV_some g2
  obtain ⟨u, g3, rfl⟩ := onSub_some.mp h
  rw [set_TV] at g3
  obtain ⟨b1, b2, b3, b4⟩ := Tpx.setTV_ok g3
  have hr : 1 / v = s.sub.Rho := by rw [a1, one_div_one_div]
  refine ⟨h0, b1, b2, ?_, a2, by rw [b4], a3, by rw [b4]; exact hr, fun hf => ?_⟩
  · rw [a1] at b3
    exact one_div_pos.mp b3
  · show u = _
    have hs2 := a8 hf
    rw [hs2] at b4
    rw [b4, hr]

theorem setDensity_ok {r : ℝ} {s s' : PSt} (h : setDensity e r s = (s', some ())) :
    0 < r ∧ s'.dens = r ∧ s'.T = s.T ∧ s'.sub = { s.sub with Rho := r } := by
  unfold setDensity at h
  rw [bindP_some] at h
  obtain ⟨s1, _, g1, h⟩ := h
  obtain ⟨h0, rfl⟩ := phaseSetDens_some.mp g1
  rw [bindP_eq] at h
  dsimp only [getP_eq] at h
  obtain ⟨u, g3, rfl⟩ := onSub_some.mp h
  rw [set_TV] at g3
  obtain ⟨_, _, _, b4⟩ := Tpx.setTV_ok g3
  refine ⟨h0, rfl, rfl, ?_⟩
  show u = _
  rw [b4, one_div_one_div]

/-- Temperature and density set together are the ones of both copies. -/
theorem setStateTD_ok {t r : ℝ} {s s' : PSt} (h : setStateTD e t r s = (s', some ())) :
    Sync s' ∧ s'.T = t ∧ s'.dens = r ∧ 0 < t ∧ 0 < r ∧ (Tpx.Fresh e s.sub → s'.sub = { s.sub with
      T := t
      Rho := r }) := by
  unfold setStateTD at h
  rw [bindP_some] at h
  obtain ⟨s1, _, g1, h⟩ := h
  obtain ⟨a0, _, _, _, a1, a2, _, _, a5⟩ := setTemperature_ok g1
  obtain ⟨b0, b1, b2, b3⟩ := setDensity_ok h
  refine ⟨⟨by rw [b2, a1, b3]; exact a2.symm, by rw [b1, b3]⟩, by rw [b2, a1], b1, a0, b0, fun hf => ?_⟩
  rw [b3, a5 hf]

/-- Setting the pressure keeps the temperature of the phase and makes the copies agree, whatever they were before. -/
theorem setPressure_ok {p : ℝ} {s s' : PSt} (h : setPressure e p s = (s', some ())) (hu : s.T ≠ 999.1234) :
    Sync s' ∧ s'.T = s.T ∧ ∃ q, Tpx.P e s'.sub = (s'.sub, some q) ∧ |p - q| < 1e-8 * |p| := by
  unfold setPressure at h
  rw [bindP_eq] at h
  dsimp only [getP_eq] at h
  rw [bindP_some] at h
  obtain ⟨s1, _, g1, h⟩ := h
  obtain ⟨u, k1, rfl⟩ := onSub_some.mp g1
  clear g1
  have g1 := k1
  rw [set_TP] at g1
  obtain ⟨hT, _, _⟩ := setTP_T g1 hu
  obtain ⟨_, q, hq, hpq⟩ := Tpx.setTP_ok g1
  rw [bindP_some] at h
  obtain ⟨s2, v, g2, h⟩ := h
  have hf : Tpx.Fresh e u := (Tpx.P_ok hq).2.2.2.2.1
  obtain ⟨a1, _, _, _, _, _, _, a8⟩ := subV_some g2
  rw [a8 hf] at h
  obtain ⟨h0, rfl⟩ := phaseSetDens_some.mp h
  refine ⟨⟨hT.symm, ?_⟩, rfl, q, hq, hpq⟩
  show 1 / v = u.Rho
  rw [a1, one_div_one_div]

theorem setStateTP_ok {t p : ℝ} {s s' : PSt} (h : setStateTP e t p s = (s', some ())) (hu : t ≠ 999.1234) :
    Sync s' ∧ s'.T = t ∧ ∃ q, Tpx.P e s'.sub = (s'.sub, some q) ∧ |p - q| < 1e-8 * |p| := by
  unfold setStateTP at h
  rcases g : (do
      setTemperature e t
      setPressure e p : PM Unit) s with ⟨s1, _ | a⟩
  · rw [g] at h
    simp at h
  · rw [g] at h
    simp only [Prod.mk.injEq, and_true] at h
    subst h
    rw [bindP_some] at g
    obtain ⟨s2, _, g1, g⟩ := g
    have hT := (setTemperature_ok g1).2.2.2.2.1
    obtain ⟨a, b, c⟩ := setPressure_ok g (by rw [hT]; exact hu)
    exact ⟨a, by rw [b, hT], c⟩

/-- A failed `setState_TP` asks for the temperature and density the phase had before, and has them if that succeeds. -/
theorem setStateTP_fails {t p : ℝ} {s s' : PSt} (h : setStateTP e t p s = (s', none)) :
    ∃ s1, (do
        setTemperature e t
        setPressure e p : PM Unit) s = (s1, none) ∧ s' = (setStateTD e s.T s.dens s1).1 ∧
      ((setStateTD e s.T s.dens s1).2 = some () → s'.T = s.T ∧ s'.dens = s.dens) := by
  unfold setStateTP at h
  rcases g : (do
      setTemperature e t
      setPressure e p : PM Unit) s with ⟨s1, _ | a⟩
  · rw [g] at h
    simp only [Prod.mk.injEq, and_true] at h
    refine ⟨s1, rfl, h.symm, fun hr => ?_⟩
    have k : setStateTD e s.T s.dens s1 = (s', some ()) := Prod.ext h hr
    exact ⟨(setStateTD_ok k).2.1, (setStateTD_ok k).2.2.1⟩
  · rw [g] at h
    simp at h

/-- Every pair of properties: the copies agree, with the temperature and density found by the substance, and its
properties are kept. -/
theorem setStateXY_ok {xy : ℤ} {x y : ℝ} {s s' : PSt} (h : setStateXY e xy x y s = (s', some ())) :
    ∃ u, Tpx.set e xy x y s.sub = (u, some ()) ∧ Sync s' ∧ s'.T = u.T ∧ s'.dens = u.Rho ∧
      (Tpx.Fresh e u → s'.sub = u) := by
  unfold setStateXY at h
  rw [bindP_some] at h
  obtain ⟨s1, _, g1, h⟩ := h
  obtain ⟨u, k1, rfl⟩ := onSub_some.mp g1
  clear g1
  have g1 := k1
  rw [bindP_eq] at h
  dsimp only [getP_eq] at h
  rw [bindP_some] at h
  obtain ⟨s2, v, g2, h⟩ := h
  obtain ⟨a1, _, _, a4, a5, _, _, a8⟩ := subV_some g2
  obtain ⟨b1, b2, b3, _, _, b6⟩ := setStateTD_ok h
  have hv : 1 / v = u.Rho := by rw [a1, one_div_one_div]
  refine ⟨u, g1, b1, b2, by rw [b3, hv], fun hf => ?_⟩
  have hs2 := a8 hf
  rw [hs2] at b6
  rw [b6 hf, hv]

/-- A property that the substance had right after it was set is what the phase returns later. -/
theorem setStateXY_keeps {xy : ℤ} {x y a : ℝ} {f : Tpx.Flag} {s s' : PSt} {u : Tpx.St}
    (h : setStateXY e xy x y s = (s', some ())) (hu : Tpx.set e xy x y s.sub = (u, some ())) (hf : f ≠ .T)
    (ha : Tpx.prop e f u = (u, some a)) : Tpx.prop e f s'.sub = (s'.sub, some a) := by
  obtain ⟨u', h1, _, _, _, h5⟩ := setStateXY_ok h
  rw [hu] at h1
  simp only [Prod.mk.injEq, and_true] at h1
  subst h1
  rw [h5 ((Tpx.prop_ok ha).2.2.2.2.1 hf)]
  exact ha

theorem setStateTsat_ok {t x : ℝ} {s s' : PSt} (h : setStateTsat e t x s = (s', some ())) :
    Sync s' ∧ s'.T = t ∧ 0 ≤ x ∧ x ≤ 1 ∧ e.Tmin ≤ t ∧ t ≤ e.Tc ∧ Tpx.setTX e t x s.sub = (s'.sub, some ()) := by
  unfold setStateTsat at h
  rw [bindP_some] at h
  obtain ⟨s1, _, g1, h⟩ := h
  obtain ⟨u, k1, rfl⟩ := onSub_some.mp g1
  clear g1
  have g1 := k1
  rw [set_TX] at g1
  obtain ⟨x0, x1, t0, t1, hT, hTs, _⟩ := Tpx.setTX_ok g1
  rw [bindP_some] at h
  obtain ⟨s2, _, g2, h⟩ := h
  obtain ⟨h0, rfl⟩ := phaseSetT_some.mp g2
  rw [bindP_some] at h
  obtain ⟨s3, v, g3, h⟩ := h
  obtain ⟨a1, _, _, _, _, _, _, a8⟩ := subV_some g3
  rw [a8 (Or.inr (by show u.T = u.Tslast; rw [hT, hTs]))] at h
  obtain ⟨_, rfl⟩ := phaseSetDens_some.mp h
  refine ⟨⟨hT.symm, ?_⟩, rfl, x0, x1, t0, t1, g1⟩
  show 1 / v = u.Rho
  rw [a1, one_div_one_div]

theorem setStatePsat_ok {p x : ℝ} {s s' : PSt} (h : setStatePsat e p x s = (s', some ())) :
    Sync s' ∧ ∃ u, Tpx.setPX e p x s.sub = (u, some ()) ∧ s'.T = u.T ∧ s'.dens = u.Rho := by
  unfold setStatePsat at h
  rw [bindP_some] at h
  obtain ⟨s1, _, g1, h⟩ := h
  obtain ⟨u, k1, rfl⟩ := onSub_some.mp g1
  clear g1
  have g1 := k1
  rw [set_PX] at g1
  rw [bindP_eq] at h
  dsimp only [getP_eq] at h
  rw [bindP_some] at h
  obtain ⟨s2, _, g2, h⟩ := h
  obtain ⟨h0, rfl⟩ := phaseSetT_some.mp g2
  rw [bindP_some] at h
  obtain ⟨s3, v, g3, h⟩ := h
  obtain ⟨a1, a2, a3, a4, a5, _⟩ := subV_some g3
  obtain ⟨_, rfl⟩ := phaseSetDens_some.mp h
  have hv : 1 / v = u.Rho := by rw [a1, one_div_one_div]
  exact ⟨⟨by show s3.T = s3.sub.T; rw [a2, a4], by show 1 / v = s3.sub.Rho; rw [hv, a5]⟩, u, g1, a2, hv⟩

theorem satPressure_ok {t p : ℝ} {s s' : PSt} (h : satPressure e t s = (s', some p)) :
    s'.T = s.T ∧ s'.dens = s.dens ∧ s'.sub.T = t ∧ s'.sub.Rho = s.sub.Rho ∧ p = s'.sub.Pst := by
  unfold satPressure at h
  rw [bindP_some] at h
  obtain ⟨s1, v, g1, h⟩ := h
  obtain ⟨a1, a2, a3, a4, a5, _⟩ := subV_some g1
  rw [bindP_some] at h
  obtain ⟨s2, _, g2, h⟩ := h
  obtain ⟨u, k2, rfl⟩ := onSub_some.mp g2
  clear g2
  have g2 := k2
  rw [set_TV] at g2
  obtain ⟨_, _, _, b4⟩ := Tpx.setTV_ok g2
  obtain ⟨w, g3, rfl⟩ := onSub_some.mp h
  obtain ⟨c1, c2, _, _, _, c6, _⟩ := Tpx.Ps_ok g3
  refine ⟨a2, a3, ?_, ?_, c6⟩
  · show w.T = t
    rw [c1]
    show u.T = t
    rw [b4]
  · show w.Rho = _
    rw [c2]
    show u.Rho = _
    rw [b4, a1, one_div_one_div]

theorem setStateTPQ_ok {t p q : ℝ} {s s' : PSt} (h : setStateTPQ e t p q s = (s', some ())) (hu : t ≠ 999.1234) :
    Sync s' ∧ s'.T = t := by
  unfold setStateTPQ at h
  split_ifs at h with h1 h2
  · exact ⟨(setStateTP_ok h hu).1, (setStateTP_ok h hu).2.1⟩
  · simp at h
  · rw [bindP_some] at h
    obtain ⟨s1, ps, g1, h⟩ := h
    split_ifs at h with h3 h4
    · exact ⟨(setStateTsat_ok h).1, (setStateTsat_ok h).2.1⟩
    · exact ⟨(setStateTP_ok h hu).1, (setStateTP_ok h hu).2.1⟩
    · simp at h

end Verif.PureFluid
