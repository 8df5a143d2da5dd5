import Verif.Thermo.TpxProps4

/-!
# Pure fluids: steps of the iterations
-/

namespace Verif.Tpx

open Verif

variable {e : Eos}

/-! ## Trial pressure of the saturation iteration -/

/-- The next trial pressure is not negative and not above the critical pressure, and the logarithm carried along is
its logarithm. -/
theorem nextPressure_range {dg rv rf pp : ℝ} (h0 : 0 < pp) (h1 : pp ≤ e.Pc) :
    0 ≤ (nextPressure e dg rv rf pp (Real.log pp)).1 ∧ (nextPressure e dg rv rf pp (Real.log pp)).1 ≤ e.Pc ∧
      (nextPressure e dg rv rf pp (Real.log pp)).2 = Real.log (nextPressure e dg rv rf pp (Real.log pp)).1 := by
  unfold nextPressure
  dsimp only
  generalize dg / (1 / rv - 1 / rf) = dp
  generalize dg / (pp * (1 / rv - 1 / rf)) = dl
  by_cases h : pp < |dp|
  · rw [if_pos h]
    dsimp only
    by_cases g : e.Pc < Real.exp (Real.log pp - dl)
    · rw [if_pos g]
      exact ⟨by dsimp only; linarith, by dsimp only; linarith, rfl⟩
    · rw [if_neg g, if_neg (not_lt.mpr (Real.exp_pos _).le)]
      exact ⟨(Real.exp_pos _).le, not_lt.mp g, (Real.log_exp _).symm⟩
  · rw [if_neg h]
    have hd := abs_le.mp (not_lt.mp h)
    dsimp only
    by_cases g : e.Pc < pp - dp
    · rw [if_pos g]
      exact ⟨by dsimp only; linarith, by dsimp only; linarith, rfl⟩
    · rw [if_neg g, if_neg (not_lt.mpr (by linarith))]
      exact ⟨by dsimp only; linarith, not_lt.mp g, rfl⟩

/-- Newton step: for a small difference the pressure changes by the difference over the volume change. -/
theorem nextPressure_newton {dg rv rf pp lps : ℝ} (h : |dg / (1 / rv - 1 / rf)| ≤ pp)
    (h1 : pp - dg / (1 / rv - 1 / rf) ≤ e.Pc) :
    nextPressure e dg rv rf pp lps =
      (pp - dg / (1 / rv - 1 / rf), Real.log (pp - dg / (1 / rv - 1 / rf))) := by
  unfold nextPressure
  dsimp only
  rw [if_neg (not_lt.mpr h)]
  dsimp only
  have := (abs_le.mp h).2
  rw [if_neg (not_lt.mpr h1), if_neg (by linarith)]

/-- For a large difference the step is made in the logarithm. -/
theorem nextPressure_log {dg rv rf pp lps : ℝ} (h : pp < |dg / (1 / rv - 1 / rf)|)
    (h1 : Real.exp (lps - dg / (pp * (1 / rv - 1 / rf))) ≤ e.Pc) :
    nextPressure e dg rv rf pp lps =
      (Real.exp (lps - dg / (pp * (1 / rv - 1 / rf))), lps - dg / (pp * (1 / rv - 1 / rf))) := by
  unfold nextPressure
  dsimp only
  rw [if_pos h]
  dsimp only
  rw [if_neg (not_lt.mpr h1), if_neg (not_lt.mpr (Real.exp_pos _).le)]

/-- A step above the critical pressure goes half way to it. -/
theorem nextPressure_critical {dg rv rf pp lps : ℝ} (h : |dg / (1 / rv - 1 / rf)| ≤ pp)
    (h1 : e.Pc < pp - dg / (1 / rv - 1 / rf)) : (nextPressure e dg rv rf pp lps).1 = (pp + e.Pc) / 2 := by
  unfold nextPressure
  dsimp only
  rw [if_neg (not_lt.mpr h)]
  dsimp only
  rw [if_pos h1]
  dsimp only
  ring

/-! ## Bracket of the density iteration -/

/-- Search without a bracket: down by a twentieth below the critical volume or with an upper end known, up by a
fifth otherwise. -/
theorem bracketSlope_open {p : ℝ} {b : Br} (hk : b.kbr = false) :
    bracketSlope e p b = { b with
      dv := if b.Vmax < 1e30 then -0.05 * b.v else if 0 < b.Vmin then 0.2 * b.v
        else if b.v < e.Vc then -0.05 * b.v else 0.2 * b.v } := by
  unfold bracketSlope big
  rw [if_pos hk]

/-- With a bracket the step starts from its upper end along the chord, shortened by the factor. -/
theorem bracketSlope_closed {p : ℝ} {b : Br} (hk : b.kbr = true) (hV : b.Vmax ≠ b.Vmin) (hP : b.Pmax ≠ b.Pmin) :
    (bracketSlope e p b).v = b.Vmax ∧ (bracketSlope e p b).P = b.Pmax ∧
      (bracketSlope e p b).dvbf = b.dvbf / 2 ∧
      (bracketSlope e p b).dv * (b.Pmax - b.Pmin) = b.dvbf * (p - b.Pmax) * (b.Vmax - b.Vmin) := by
  unfold bracketSlope
  rw [if_neg (by rw [hk]; decide)]
  refine ⟨rfl, rfl, by dsimp only; ring, ?_⟩
  dsimp only
  have h1 := sub_ne_zero.mpr hV
  have h2 := sub_ne_zero.mpr hP
  field_simp

/-- The bracket after a point with a falling pressure: a point above the pressure raises the lower end, one below
it lowers the upper end, and the step is Newton's. -/
theorem bracketStep_spec {p dpdv : ℝ} {b b' : Br} (hd : dpdv ≠ 0) (h : bracketStep e p dpdv b = some b') :
    b'.Vmin < b'.Vmax ∧ b'.dv * dpdv = p - b.P ∧ b'.v = b.v ∧ b'.P = b.P ∧ b'.dvbf = 1 ∧
      (p < b.P → b.Vmin < b.v → b'.Vmin = b.v ∧ b'.Pmin = b.P ∧ b'.Vmax = b.Vmax) ∧
      (b.P < p → b.v < b.Vmax → b'.Vmax = b.v ∧ b'.Pmax = b.P ∧ b'.Vmin = b.Vmin) ∧
      (b.P = p → b'.Vmin = b.Vmin ∧ b'.Vmax = b.Vmax) ∧
      (b'.kbr = true ↔ b.kbr = true ∨ 0 < b'.Vmin ∧ b'.Vmax < 1e30) := by
  unfold bracketStep at h
  dsimp only at h
  generalize h1 : (if b.P > p ∧ b.v > b.Vmin then { b with Vmin := b.v }
    else if b.P < p ∧ b.v < b.Vmax then { b with Vmax := b.v } else b) = b1 at h
  generalize h2 : (if b1.v = b1.Vmin then { b1 with Pmin := b1.P } else b1) = b2 at h
  generalize h3 : (if b2.v = b2.Vmax then { b2 with Pmax := b2.P } else b2) = b3 at h
  have c1 : b1.v = b.v ∧ b1.P = b.P ∧ b1.kbr = b.kbr := by
    rw [← h1]
    split_ifs <;> exact ⟨rfl, rfl, rfl⟩
  have c2 : b2.v = b1.v ∧ b2.P = b1.P ∧ b2.kbr = b1.kbr ∧ b2.Vmin = b1.Vmin ∧ b2.Vmax = b1.Vmax ∧
      (b1.v = b1.Vmin → b2.Pmin = b1.P) := by
    rw [← h2]
    split_ifs with k
    · exact ⟨rfl, rfl, rfl, rfl, rfl, fun _ => rfl⟩
    · exact ⟨rfl, rfl, rfl, rfl, rfl, fun g => absurd g k⟩
  have c3 : b3.v = b2.v ∧ b3.P = b2.P ∧ b3.kbr = b2.kbr ∧ b3.Vmin = b2.Vmin ∧ b3.Vmax = b2.Vmax ∧
      b3.Pmin = b2.Pmin ∧ (b2.v = b2.Vmax → b3.Pmax = b2.P) := by
    rw [← h3]
    split_ifs with k
    · exact ⟨rfl, rfl, rfl, rfl, rfl, rfl, fun _ => rfl⟩
    · exact ⟨rfl, rfl, rfl, rfl, rfl, rfl, fun g => absurd g k⟩
  obtain ⟨c11, c12, c13⟩ := c1
  obtain ⟨c21, c22, c23, c24, c25, c26⟩ := c2
  obtain ⟨c31, c32, c33, c34, c35, c36, c37⟩ := c3
  by_cases hv : b3.Vmin ≥ b3.Vmax
  · rw [if_pos hv] at h
    simp at h
  · rw [if_neg hv, if_neg hd] at h
    simp only [Option.some.injEq] at h
    generalize h4 : (if 0 < b3.Vmin ∧ b3.Vmax < big then { b3 with kbr := true } else b3) = b4 at h
    have c4 : b4.v = b3.v ∧ b4.P = b3.P ∧ b4.Vmin = b3.Vmin ∧ b4.Vmax = b3.Vmax ∧ b4.Pmin = b3.Pmin ∧
        b4.Pmax = b3.Pmax ∧ (b4.kbr = true ↔ b3.kbr = true ∨ 0 < b3.Vmin ∧ b3.Vmax < 1e30) := by
      rw [← h4]
      unfold big
      split_ifs with k
      · exact ⟨rfl, rfl, rfl, rfl, rfl, rfl, by simp [k]⟩
      · exact ⟨rfl, rfl, rfl, rfl, rfl, rfl, by tauto⟩
    obtain ⟨d1, d2, d3, d4, d5, d6, d7⟩ := c4
    subst h
    dsimp only
    refine ⟨by rw [d3, d4]; exact not_le.mp hv, ?_, by rw [d1, c31, c21, c11], by rw [d2, c32, c22, c12], rfl,
      fun g1 g2 => ?_, fun g1 g2 => ?_, fun g => ?_, ?_⟩
    · rw [div_mul_cancel₀ _ hd, d2, c32, c22, c12]
    · rw [if_pos ⟨g1, g2⟩] at h1
      rw [d3, d4, d5, c34, c35, c36, c24, c25]
      rw [c26 (by rw [← h1]), ← h1]
      exact ⟨rfl, rfl, rfl⟩
    · rw [if_neg (fun k => absurd k.1 (not_lt.mpr g1.le)), if_pos ⟨g1, g2⟩] at h1
      rw [d3, d4, d6, c34, c35, c24, c25, c37 (by rw [c21, c25, ← h1]), c22, ← h1]
      exact ⟨rfl, rfl, rfl⟩
    · rw [if_neg (fun k => absurd k.1 (by rw [g]; exact lt_irrefl _)),
        if_neg (fun k => absurd k.1 (by rw [g]; exact lt_irrefl _))] at h1
      rw [d3, d4, c34, c35, c24, c25, ← h1]
      exact ⟨rfl, rfl⟩
    · rw [d7, d3, d4, c33, c23, c13]

/-- A step that would leave the bracket is replaced by linear interpolation in it. -/
theorem limitStep_bracket {p : ℝ} {b : Br} (hv : 0 < b.v) (hk : b.kbr = true)
    (ho : b.v + b.dv < b.Vmin ∨ b.Vmax < b.v + b.dv)
    (hs : |b.Vmin + (p - b.Pmin) * (b.Vmax - b.Vmin) / (b.Pmax - b.Pmin) - b.v| ≤ 0.05 * b.v) :
    b.v + limitStep e p b = b.Vmin + (p - b.Pmin) * (b.Vmax - b.Vmin) / (b.Pmax - b.Pmin) := by
  have hy : b.kbr = true ∧ (b.v + b.dv < b.Vmin ∨ b.v + b.dv > b.Vmax) := ⟨hk, ho⟩
  unfold limitStep
  dsimp only
  rw [if_pos hy, if_neg]
  · ring
  · rw [not_lt]
    refine le_trans hs ?_
    split_ifs <;> linarith

/-- A small step inside the bracket, or without one, is taken as it is. -/
theorem limitStep_small {p : ℝ} {b : Br} (hv : 0 < b.v)
    (ho : b.kbr = true → b.Vmin ≤ b.v + b.dv ∧ b.v + b.dv ≤ b.Vmax) (hs : |b.dv| ≤ 0.05 * b.v) :
    limitStep e p b = b.dv := by
  have hn : ¬ (b.kbr = true ∧ (b.v + b.dv < b.Vmin ∨ b.v + b.dv > b.Vmax)) := by
    rintro ⟨k, g | g⟩
    · exact absurd (ho k).1 (not_le.mpr g)
    · exact absurd (ho k).2 (not_le.mpr g)
  unfold limitStep
  dsimp only
  rw [if_neg hn, if_neg]
  rw [not_lt]
  refine le_trans hs ?_
  split_ifs <;> linarith

/-- A long step keeps its sign and has the greatest length allowed. -/
theorem limitStep_long {p : ℝ} {b : Br} (hk : b.kbr = false) (hs : 0.2 * b.v < |b.dv|)
    (hc : 2 * e.Vc ≤ b.v) (hc' : 0 < e.Vc) : limitStep e p b = 0.2 * b.v * (b.dv / |b.dv|) := by
  have hn : ¬ (b.kbr = true ∧ (b.v + b.dv < b.Vmin ∨ b.v + b.dv > b.Vmax)) := by
    rw [hk]
    simp
  have n1 : ¬ b.v < 2 * e.Vc := not_lt.mpr hc
  have n2 : ¬ b.v < 0.7 * e.Vc := by
    rw [not_lt]
    linarith
  unfold limitStep
  dsimp only
  rw [if_neg hn, if_neg n1, if_neg n2, if_pos hs]
  ring

/-! ## Choice of the step -/

/-- A negative pressure starts the search by slope. -/
theorem chooseStep_negative {t p : ℝ} {b : Br} (h : b.P < 0) (s : St) :
    chooseStep e t p b s = (s, some (bracketSlope e p b)) := by
  unfold chooseStep
  rw [if_pos h]
  rfl

/-- So does a pressure that rises with volume, the slope being taken over a thousandth of the volume towards the
critical one's outside. -/
theorem chooseStep_rising {t p : ℝ} {b : Br} {s : St} (h : 0 ≤ b.P) (hv : 0 < b.v) (h1 : e.Tmin ≤ t)
    (h2 : t ≤ e.Tmax) (hc : e.Vc < b.v) (hr : b.P < e.Pp t (1 / (b.v + 0.001 * b.v))) :
    chooseStep e t p b s = ({ s with
      T := t
      Rho := 1 / (b.v + 0.001 * b.v) }, some (bracketSlope e p { b with dv := 0.001 * b.v })) := by
  unfold chooseStep
  rw [if_neg (not_lt.mpr h)]
  dsimp only
  rw [if_neg (not_le.mpr hc), bind_eq, setTV_run _ h1 h2 (by linarith)]
  dsimp only
  rw [bind_eq]
  dsimp only [get_eq]
  have hd : 0 < (Pp e { s with
      T := t
      Rho := 1 / (b.v + 0.001 * b.v) } - b.P) / (0.001 * b.v) := by
    apply div_pos
    · unfold Pp
      linarith
    · linarith
  rw [if_pos hd]
  rfl

/-- A falling pressure gives a bracket step with that slope. -/
theorem chooseStep_falling {t p : ℝ} {b : Br} {s : St} (h : 0 ≤ b.P) (hv : 0 < b.v) (h1 : e.Tmin ≤ t)
    (h2 : t ≤ e.Tmax) (hc : e.Vc < b.v) (hr : e.Pp t (1 / (b.v + 0.001 * b.v)) ≤ b.P) :
    chooseStep e t p b s = ({ s with
      T := t
      Rho := 1 / (b.v + 0.001 * b.v) },
      bracketStep e p ((e.Pp t (1 / (b.v + 0.001 * b.v)) - b.P) / (0.001 * b.v)) { b with dv := 0.001 * b.v }) := by
  unfold chooseStep
  rw [if_neg (not_lt.mpr h)]
  dsimp only
  rw [if_neg (not_le.mpr hc), bind_eq, setTV_run _ h1 h2 (by linarith)]
  dsimp only
  rw [bind_eq]
  dsimp only [get_eq]
  have hd : ¬ 0 < (Pp e { s with
      T := t
      Rho := 1 / (b.v + 0.001 * b.v) } - b.P) / (0.001 * b.v) := by
    rw [not_lt]
    apply div_nonpos_of_nonpos_of_nonneg
    · unfold Pp
      linarith
    · linarith
  rw [if_neg hd]
  rfl

/-! ## Step for pairs of properties -/

/-- The correction stays within the temperature limits and keeps the volume positive. -/
theorem xyStep_range {ifx ify : Flag} {X Y x y t v : ℝ} {s s' : St} {r : ℝ × ℝ} (hm : e.Tmin ≤ e.Tmax)
    (h : xyStep e ifx ify X Y x y t v s = (s', some r)) :
    e.Tmin ≤ r.1 ∧ r.1 ≤ e.Tmax ∧ 0 < r.2 ∧ s'.T = r.1 ∧ s'.Rho = 1 / r.2 := by
  unfold xyStep at h
  dsimp only at h
  rw [bind_some] at h
  obtain ⟨_, _, _, h⟩ := h
  rw [bind_some] at h
  obtain ⟨_, _, _, h⟩ := h
  rw [bind_some] at h
  obtain ⟨_, _, _, h⟩ := h
  rw [bind_some] at h
  obtain ⟨_, _, _, h⟩ := h
  rw [bind_some] at h
  obtain ⟨_, _, _, h⟩ := h
  rw [bind_some] at h
  obtain ⟨_, _, _, h⟩ := h
  rw [bind_some] at h
  obtain ⟨s7, _, h7, h⟩ := h
  simp only [pure_eq, Prod.mk.injEq, Option.some.injEq] at h
  obtain ⟨rfl, rfl⟩ := h
  obtain ⟨_, _, a3, a4⟩ := setTV_ok h7
  dsimp only
  exact ⟨le_max_left _ _, max_le hm (min_le_left _ _), a3, by rw [a4], by rw [a4]⟩

/-- Newton's method: where the limits do not act the correction solves the two linear equations built from the
differences over a thousandth of temperature and volume. -/
theorem xyStep_newton {ifx ify : Flag} {X Y x y t v xt yt xv yv : ℝ} {s s1 s2 s3 s4 : St}
    (ht0 : 0 < t) (hv0 : 0 < v) (hc : e.Vc < v) (hc0 : 0 < e.Vc) (ht1 : e.Tmin ≤ t) (ht2 : t + 0.001 * t ≤ e.Tmax)
    (hx1 : prop e ifx { s with
      T := t + 0.001 * t
      Rho := 1 / v } = (s1, some xt)) (hy1 : prop e ify s1 = (s2, some yt))
    (hx2 : prop e ifx { s2 with
      T := t
      Rho := 1 / (v + 0.001 * v) } = (s3, some xv)) (hy2 : prop e ify s3 = (s4, some yv))
    {a b c d dt dv : ℝ} (ha : a = (xt - x) / (0.001 * t)) (hb : b = (xv - x) / (0.001 * v))
    (hcc : c = (yt - y) / (0.001 * t)) (hdd : d = (yv - y) / (0.001 * v)) (hdet : a * d - c * b ≠ 0)
    (e1 : a * dt + b * dv = X - x) (e2 : c * dt + d * dv = Y - y)
    (hdt : |dt| ≤ 0.1 * t) (hdv : |dv| ≤ 0.1 * v) (hr1 : e.Tmin ≤ t + dt) (hr2 : t + dt ≤ e.Tmax) :
    xyStep e ifx ify X Y x y t v s = ({ s4 with
      T := t + dt
      Rho := 1 / (v + dv) }, some (t + dt, v + dv)) := by
  have k1 : ((X - x) * d - (Y - y) * b) / (a * d - c * b) = dt := by
    rw [div_eq_iff hdet, ← e1, ← e2]
    ring
  have k2 : ((Y - y) * a - (X - x) * c) / (a * d - c * b) = dv := by
    rw [div_eq_iff hdet, ← e1, ← e2]
    ring
  have hvp : 0 < v + dv := by
    have := (abs_le.mp hdv).1
    linarith
  unfold xyStep
  dsimp only
  rw [if_neg (not_lt.mpr ht2), if_neg (not_le.mpr hc), bind_eq,
    setTV_run _ (by linarith) ht2 hv0]
  dsimp only
  rw [bind_eq, hx1]
  dsimp only
  rw [bind_eq, hy1]
  dsimp only
  rw [bind_eq, setTV_run _ ht1 (by linarith) (by linarith)]
  dsimp only
  rw [bind_eq, hx2]
  dsimp only
  rw [bind_eq, hy2]
  dsimp only
  rw [← ha, ← hb, ← hcc, ← hdd, k1, k2]
  have n1 : ¬ (if v < 0.7 * e.Vc then (if v < 2 * e.Vc then 0.2 * v * 0.5 else 0.2 * v) * 0.5
      else if v < 2 * e.Vc then 0.2 * v * 0.5 else 0.2 * v) < |dv| := by
    rw [if_neg (by linarith), not_lt]
    refine le_trans hdv ?_
    split_ifs <;> linarith
  rw [if_neg n1, if_neg (not_lt.mpr hdt), min_eq_right hr2, max_eq_right hr1, if_neg (not_le.mpr hvp), bind_eq,
    setTV_run _ hr1 hr2 hvp]
  rfl

end Verif.Tpx
