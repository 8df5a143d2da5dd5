import Verif.Thermo.TpxProps2

/-!
# Pure fluids: lever rule, saturation temperature, pairs of properties, standard state
-/

namespace Verif.Tpx

open Verif

variable {e : Eos}

theorem eta_rho {s : St} {r : ℝ} (h : s.Rho = r) : ({ s with Rho := r } : St) = s := by
  subst h
  rfl

/-! ## Lever rule -/

theorem setTX_one {t : ℝ} {s s' : St} (h : setTX e t 1 s = (s', some ())) : s'.Rho = s'.Rhv := by
  obtain ⟨_, _, _, _, _, _, aR, _⟩ := setTX_ok h
  rw [aR, sub_self, zero_div, zero_add, one_div_one_div]

theorem setTX_zero {t : ℝ} {s s' : St} (h : setTX e t 0 s = (s', some ())) : s'.Rho = s'.Rhf := by
  obtain ⟨_, _, _, _, _, _, aR, _⟩ := setTX_ok h
  rw [aR, sub_zero, zero_div, add_zero, one_div_one_div]

/-- A second call at the temperature just set keeps the saturation data. -/
theorem setTX_again {t x y : ℝ} {s s' s'' : St} (h : setTX e t x s = (s', some ()))
    (h2 : setTX e s'.T y s' = (s'', some ())) : s'' = { s' with Rho := s''.Rho } := by
  obtain ⟨_, _, _, _, aT, aS, _⟩ := setTX_ok h
  obtain ⟨_, _, _, _, _, _, _, _, _, s1, u, hs⟩ := setTX_ok h2
  rw [updateSat_stored (by simp only; rw [aT, aS])] at u
  simp only [Prod.mk.injEq, and_true] at u
  rw [hs, ← u]

/-- When the lever rule succeeds below the critical temperature the property read afterwards is the one asked
for, at the temperature given (the two phases having different densities and values). -/
theorem leverAt_true {ts rs val : ℝ} {f : Flag} (hfP : f ≠ .P) {s s' : St}
    (h : leverAt e ts rs val f s = (s', some true)) (ht : s.T < e.Tc) (h0 : 0 < s'.Rhv) (h1 : s'.Rhv < s'.Rhf)
    (hne : vprop e f { s' with Rho := s'.Rhf } ≠ vprop e f { s' with Rho := s'.Rhv }) :
    prop e f s' = (s', some val) ∧ s'.T = s.T := by
  have hfT : f ≠ .T := by
    rintro rfl
    simp [vprop] at hne
  unfold leverAt at h
  rw [bind_eq] at h
  dsimp only [get_eq] at h
  rw [bind_some] at h
  obtain ⟨s1, _, g1, h⟩ := h
  rw [bind_eq] at h
  dsimp only [get_eq] at h
  rw [bind_some] at h
  obtain ⟨s1', vg, g2, h⟩ := h
  simp only [lift_eq, Prod.mk.injEq] at g2
  obtain ⟨rfl, hvg⟩ := g2
  rw [bind_some] at h
  obtain ⟨s2, _, g3, h⟩ := h
  rw [bind_eq] at h
  dsimp only [get_eq] at h
  rw [bind_some] at h
  obtain ⟨s2', vf, g4, h⟩ := h
  simp only [lift_eq, Prod.mk.injEq] at g4
  obtain ⟨rfl, hvf⟩ := g4
  have r1 := setTX_one g1
  have r2 := setTX_zero g3
  have e2 := setTX_again g1 g3
  obtain ⟨_, _, t0, _, aT, aS, _⟩ := setTX_ok g1
  by_cases hv : vf ≤ val ∧ val ≤ vg
  · rw [if_pos hv, bind_some] at h
    obtain ⟨s3, _, g5, h⟩ := h
    simp only [pure_eq, Prod.mk.injEq, and_true] at h
    subst h
    unfold setV at g5
    split_ifs at g5 with hpos
    · simp only [Prod.mk.injEq, and_true] at g5
      generalize hxx : (val - vf) / (vg - vf) = x at *
      have f1 : s2.Rhf = s1.Rhf := by rw [e2]
      have f2 : s2.Rhv = s1.Rhv := by rw [e2]
      have f3 : s2.T = s1.T := by rw [e2]
      have f4 : s2.Tslast = s1.Tslast := by rw [e2]
      have k1 : s3.Rhf = s2.Rhf := by rw [← g5]
      have k2 : s3.Rhv = s2.Rhv := by rw [← g5]
      have k3 : s3.T = s2.T := by rw [← g5]
      have k4 : s3.Tslast = s2.Tslast := by rw [← g5]
      have k5 : s3.Rho = 1 / ((1 - x) / s3.Rhf + x / s3.Rhv) := by
        rw [k1, k2, ← g5]
      have hT3 : s3.T = s.T := by rw [k3, f3, aT]
      have fresh : s3.T = s3.Tslast := by rw [k3, k4, f3, f4, aT, aS]
      have w1 : vprop e f { s3 with Rho := s3.Rhv } = some vg := by
        rw [← hvg]
        have c : ∀ r, ({ s3 with Rho := r } : St) = { s1 with Rho := r } := by
          intro r
          rw [← g5, e2]
        rw [c, eta_rho (by rw [k2, f2]; exact r1)]
      have w2 : vprop e f { s3 with Rho := s3.Rhf } = some vf := by
        rw [← hvf]
        have c : ∀ r, ({ s3 with Rho := r } : St) = { s2 with Rho := r } := by
          intro r
          rw [← g5]
        rw [c, eta_rho (by rw [k1]; exact r2)]
      rw [w1, w2] at hne
      have hlt : vf < vg := lt_of_le_of_ne (le_trans hv.1 hv.2) (fun k => hne (by rw [k]))
      have x0 : 0 ≤ x := by
        rw [← hxx]
        exact div_nonneg (by linarith) (by linarith)
      have x1 : x ≤ 1 := by
        rw [← hxx, div_le_one (by linarith)]
        linarith
      have hval : val = (1 - x) * vf + x * vg := by
        have : x * (vg - vf) = val - vf := by
          rw [← hxx]
          exact div_mul_cancel₀ _ (by linarith)
        linarith
      refine ⟨?_, hT3⟩
      have hf : 0 < s3.Rhf := lt_trans h0 h1
      have d : 1 / s3.Rhf < 1 / s3.Rhv := one_div_lt_one_div_of_lt h0 h1
      have hinv : 1 / s3.Rho = 1 / s3.Rhf + x * (1 / s3.Rhv - 1 / s3.Rhf) := by
        rw [k5, one_div_one_div]
        ring
      have p1 : 0 < 1 / s3.Rhf := by positivity
      have hr : 0 < s3.Rho := by
        rw [← one_div_pos, hinv]
        nlinarith
      rcases eq_or_lt_of_le x0 with q0 | q0
      · have : s3.Rho = s3.Rhf := by
          rw [← q0, zero_mul, add_zero] at hinv
          rwa [one_div, one_div, inv_inj] at hinv
        have hq := quality_stored (e := e) (by rw [hT3]; exact ht) fresh
        rw [if_neg (by rw [this]; exact not_le.mpr h1), if_pos this.ge] at hq
        rw [prop_other hfP hfT hq, if_neg (by norm_num)]
        rw [eta_rho this] at w2
        rw [w2, hval, ← q0]
        norm_num
      · rcases eq_or_lt_of_le x1 with q1 | q1
        · have : s3.Rho = s3.Rhv := by
            rw [q1, one_mul, add_sub_cancel] at hinv
            rwa [one_div, one_div, inv_inj] at hinv
          have hq := quality_stored (e := e) (by rw [hT3]; exact ht) fresh
          rw [if_pos this.le] at hq
          rw [prop_other hfP hfT hq, if_neg (by norm_num)]
          rw [eta_rho this] at w1
          rw [w1, hval, q1]
          norm_num
        · have a1 : s3.Rhv < s3.Rho := by
            rw [← one_div_lt_one_div hr h0, hinv]
            nlinarith
          have a2 : s3.Rho < s3.Rhf := by
            rw [← one_div_lt_one_div hf hr, hinv]
            nlinarith
          have hq := quality_stored (e := e) (by rw [hT3]; exact ht) fresh
          rw [if_neg (not_le.mpr a1), if_neg (not_le.mpr a2), hinv, add_sub_cancel_left, mul_div_assoc,
            div_self (by linarith), mul_one] at hq
          rw [prop_other hfP hfT hq, if_pos ⟨q0, q1⟩, w1, w2]
          simp only [Option.bind_some]
          rw [hval]
    · simp at g5
  · rw [if_neg hv, bind_eq] at h
    simp at h

/-- When the lever rule does not apply temperature and density are as before. -/
theorem leverAt_false {ts rs val : ℝ} {f : Flag} {s s' : St} (h : leverAt e ts rs val f s = (s', some false)) :
    s'.T = ts ∧ s'.Rho = rs := by
  unfold leverAt at h
  rw [bind_eq] at h
  dsimp only [get_eq] at h
  rw [bind_some] at h
  obtain ⟨s1, _, g1, h⟩ := h
  rw [bind_eq] at h
  dsimp only [get_eq] at h
  rw [bind_some] at h
  obtain ⟨s1', vg, g2, h⟩ := h
  rw [bind_some] at h
  obtain ⟨s2, _, g3, h⟩ := h
  rw [bind_eq] at h
  dsimp only [get_eq] at h
  rw [bind_some] at h
  obtain ⟨s2', vf, g4, h⟩ := h
  by_cases hv : vf ≤ val ∧ val ≤ vg
  · rw [if_pos hv, bind_some] at h
    obtain ⟨s3, _, g5, h⟩ := h
    simp at h
  · rw [if_neg hv, bind_eq] at h
    simp only [modify_eq, pure_eq, Prod.mk.injEq, and_true] at h
    rw [← h]
    exact ⟨rfl, rfl⟩

theorem leverP_false {p val : ℝ} {f : Flag} {s s' : St} (h : leverP e p val f s = (s', some false)) :
    s'.T = s.T ∧ s'.Rho = s.Rho := by
  unfold leverP at h
  split_ifs at h with hp
  · simp only [Prod.mk.injEq, and_true] at h
    rw [← h]
    exact ⟨rfl, rfl⟩
  · rcases ht : Tsat e p s with ⟨s1, _ | t⟩
    · rw [ht] at h
      simp only [Prod.mk.injEq, and_true] at h
      rw [← h]
      exact ⟨rfl, rfl⟩
    · rw [ht] at h
      exact leverAt_false h

theorem leverT_false {t val : ℝ} {f : Flag} {s s' : St} (h : leverT e t val f s = (s', some false)) :
    s'.T = s.T ∧ s'.Rho = s.Rho := by
  unfold leverT at h
  rw [bind_eq] at h
  dsimp only [get_eq] at h
  by_cases hc : e.Tc ≤ t
  · rw [if_pos hc] at h
    simp only [pure_eq, Prod.mk.injEq, and_true] at h
    rw [← h]
    exact ⟨rfl, rfl⟩
  · rw [if_neg hc, bind_eq] at h
    dsimp only [modify_eq] at h
    rw [bind_some] at h
    obtain ⟨s1, _, _, h⟩ := h
    exact leverAt_false h

/-- With a temperature below the lowest one the lever rule throws and the temperature stays at that value. -/
theorem leverT_keeps_bad_temperature {t val : ℝ} {f : Flag} (hm : t < e.Tmin) (hc : t < e.Tc) (s : St) :
    leverT e t val f s = ({ s with T := t }, none) := by
  unfold leverT
  rw [bind_eq]
  dsimp only [get_eq]
  rw [if_neg (not_le.mpr hc), bind_eq]
  dsimp only [modify_eq]
  rw [bind_eq]
  unfold Ps
  rw [bind_eq]
  dsimp only [get_eq]
  rw [if_pos (Or.inl hm)]
  rfl

/-! ## Saturation temperature -/

/-- Pressures that are not positive or supercritical are refused without any change. -/
theorem Tsat_refused {p : ℝ} (h : p ≤ 0 ∨ p > e.Pc) (s : St) : Tsat e p s = (s, none) := by
  unfold Tsat
  rw [bind_eq]
  dsimp only [get_eq]
  rw [if_pos h]
  rfl

theorem tsatLoop_ok (p ts : ℝ) : ∀ (n : ℕ) (dp : ℝ) (s s' : St), 1e-6 * p < |dp| →
    tsatLoop e p ts n dp s = (s', some ()) →
      ∃ t sl s1 s2 ps, e.Tmin ≤ t ∧ t ≤ e.Tc ∧ s1.T = t ∧ Ps e s1 = (s2, some ps) ∧ |p - ps| ≤ 1e-6 * p ∧
        (s'.T = t + (p - ps) / sl ∧ |(p - ps) / sl| ≤ 0.1 * t ∨
          s'.T = t + (p - ps) / sl * (0.1 * t) / |(p - ps) / sl|)
  | 0, dp, s, s', _, h => by
    unfold tsatLoop at h
    simp at h
  | n + 1, dp, s, s', hdp, h => by
    unfold tsatLoop at h
    rw [if_pos hdp, bind_eq] at h
    dsimp only [modify_eq] at h
    rw [bind_some] at h
    obtain ⟨s2, ps, h1, h⟩ := h
    obtain ⟨a1, _, _, _, _, _, a7, a8, _⟩ := Ps_ok h1
    rw [bind_some] at h
    obtain ⟨s3, sl, h2, h⟩ := h
    have hT3 : s3.T = s2.T := by
      unfold dPsdT at h2
      rw [bind_eq] at h2
      dsimp only [get_eq] at h2
      rw [bind_some] at h2
      obtain ⟨s4, q, h3, h2⟩ := h2
      by_cases hc : s2.T + 0.000001 < e.Tc
      · rw [if_pos hc, bind_eq] at h2
        dsimp only [modify_eq] at h2
        rw [bind_some] at h2
        obtain ⟨s5, r, h4, h2⟩ := h2
        rw [bind_eq] at h2
        simp only [modify_eq, pure_eq, Prod.mk.injEq] at h2
        rw [← h2.1]
      · rw [if_neg hc, bind_eq] at h2
        dsimp only [modify_eq] at h2
        rw [bind_some] at h2
        obtain ⟨s5, r, h4, h2⟩ := h2
        rw [bind_eq] at h2
        simp only [modify_eq, pure_eq, Prod.mk.injEq] at h2
        rw [← h2.1]
    rw [bind_eq] at h
    dsimp only [get_eq] at h
    generalize hdt : (if 0.1 * s3.T < |(p - ps) / sl| then (p - ps) / sl * (0.1 * s3.T) / |(p - ps) / sl|
      else (p - ps) / sl) = dt at h
    rw [bind_eq] at h
    dsimp only [modify_eq] at h
    by_cases hn : n = 0
    · rw [if_pos hn, bind_eq] at h
      simp at h
    · rw [if_neg hn] at h
      by_cases hd : 1e-6 * p < |p - ps|
      · exact tsatLoop_ok p ts n (p - ps) _ s' hd h
      · obtain ⟨m, rfl⟩ := Nat.exists_eq_succ_of_ne_zero hn
        unfold tsatLoop at h
        rw [if_neg hd] at h
        simp only [pure_eq, Prod.mk.injEq, and_true] at h
        refine ⟨_, sl, _, s2, ps, a7, a8, rfl, h1, not_lt.mp hd, ?_⟩
        rw [← h]
        simp only
        rw [hT3, a1] at hdt
        rw [hT3, a1]
        by_cases hl : 0.1 * (max (min s.T e.Tc) e.Tmin) < |(p - ps) / sl|
        · rw [if_pos hl] at hdt
          right
          rw [← hdt]
        · rw [if_neg hl] at hdt
          left
          exact ⟨by rw [← hdt], not_lt.mp hl⟩

/-- The saturation temperature returned: some temperature `t` between the limits has a saturation pressure within
a millionth of the given one, and the value returned is one further correction away from it, which is not checked
and not confined to the limits.  Temperature of the object is as before. -/
theorem Tsat_ok {p r : ℝ} {s s' : St} (h : Tsat e p s = (s', some r)) :
    0 < p ∧ p ≤ e.Pc ∧ s'.T = s.T ∧
      ∃ t sl s1 s2 ps, e.Tmin ≤ t ∧ t ≤ e.Tc ∧ s1.T = t ∧ Ps e s1 = (s2, some ps) ∧ |p - ps| ≤ 1e-6 * p ∧
        (r = t + (p - ps) / sl ∧ |(p - ps) / sl| ≤ 0.1 * t ∨
          r = t + (p - ps) / sl * (0.1 * t) / |(p - ps) / sl|) := by
  unfold Tsat at h
  rw [bind_eq] at h
  dsimp only [get_eq] at h
  by_cases hp : p ≤ 0 ∨ p > e.Pc
  · rw [if_pos hp] at h
    simp at h
  · rw [if_neg hp, bind_eq] at h
    dsimp only [modify_eq] at h
    rw [bind_some] at h
    obtain ⟨s1, _, h1, h⟩ := h
    rw [bind_eq] at h
    dsimp only [get_eq] at h
    rw [bind_eq] at h
    simp only [modify_eq, pure_eq, Prod.mk.injEq, Option.some.injEq] at h
    push Not at hp
    obtain ⟨h2, h3⟩ := h
    refine ⟨hp.1, hp.2, by rw [← h2], ?_⟩
    have := tsatLoop_ok p s.T 101 _ _ _ (by rw [abs_of_pos (by linarith)]; linarith) h1
    rw [h3] at this
    exact this

/-! ## Pairs of properties -/

theorem xyLoop_ok (ifx ify : Flag) (X Y atx aty : ℝ) : ∀ (n : ℕ) (t v : ℝ) (s s' : St),
    xyLoop e ifx ify X Y atx aty n t v s = (s', some ()) →
      ∃ x y, prop e ifx s' = (s', some x) ∧ prop e ify s' = (s', some y) ∧
        |X - x| < atx + 1e-8 * |X| ∧ |Y - y| < aty + 1e-8 * |Y|
  | 0, t, v, s, s', h => by
    unfold xyLoop at h
    simp at h
  | n + 1, t, v, s, s', h => by
    unfold xyLoop at h
    rw [bind_some] at h
    obtain ⟨s1, x, h1, h⟩ := h
    rw [bind_some] at h
    obtain ⟨s2, y, h2, h⟩ := h
    by_cases hc : |X - x| < atx + 1e-8 * |X| ∧ |Y - y| < aty + 1e-8 * |Y|
    · rw [if_pos hc] at h
      simp only [pure_eq, Prod.mk.injEq, and_true] at h
      subst h
      obtain ⟨a1, a2, _⟩ := prop_pair h1 h2
      exact ⟨x, y, a1, a2, hc⟩
    · rw [if_neg hc, bind_some] at h
      obtain ⟨s3, tv, _, h⟩ := h
      by_cases hn : n = 0
      · rw [if_pos hn] at h
        simp at h
      · rw [if_neg hn] at h
        exact xyLoop_ok ifx ify X Y atx aty n _ _ _ _ h

/-- A successful search reproduces both properties within the tolerances. -/
theorem setXY_ok {ifx ify : Flag} {X Y atx aty : ℝ} {s s' : St}
    (h : setXY e ifx ify X Y atx aty s = (s', some ())) :
    ∃ x y, prop e ifx s' = (s', some x) ∧ prop e ify s' = (s', some y) ∧
      |X - x| < atx + 1e-8 * |X| ∧ |Y - y| < aty + 1e-8 * |Y| := by
  unfold setXY at h
  rw [bind_some] at h
  obtain ⟨s1, _, _, h⟩ := h
  rw [bind_eq] at h
  exact xyLoop_ok _ _ _ _ _ _ _ _ _ _ _ h

/-- A state that already has the two properties is accepted as it is (unless its density is exactly the number
that marks a new object). -/
theorem setXY_accepts {ifx ify : Flag} {X Y atx aty x y : ℝ} {s s1 s2 : St} (hu : s.Rho ≠ undef)
    (h1 : prop e ifx s = (s1, some x)) (h2 : prop e ify s1 = (s2, some y))
    (hx : |X - x| < atx + 1e-8 * |X|) (hy : |Y - y| < aty + 1e-8 * |Y|) :
    setXY e ifx ify X Y atx aty s = (s2, some ()) := by
  have hs : xyStart e s = (s, some ()) := by
    unfold xyStart
    rw [bind_eq]
    dsimp only [get_eq]
    rw [if_neg (fun k => hu k.2), if_neg hu]
    rfl
  unfold setXY
  rw [bind_eq, hs]
  dsimp only
  rw [bind_eq]
  dsimp only [get_eq]
  unfold xyLoop
  rw [bind_eq, h1]
  dsimp only
  rw [bind_eq, h2]
  dsimp only
  rw [if_pos ⟨hx, hy⟩]
  rfl

/-- A real density equal to the marker is taken for a new object: the search starts from another volume. -/
theorem undef_density {s : St} (hT : s.T ≠ undef) (hr : s.Rho = undef) (h1 : e.Tmin ≤ s.T) (h2 : s.T ≤ e.Tmax)
    (hv : 0 < e.Vc) : xyStart e s = ({ s with Rho := 1 / (e.Vc * 1.1) }, some ()) := by
  unfold xyStart
  rw [bind_eq]
  dsimp only [get_eq]
  rw [if_neg (fun k => hT k.1), if_pos hr, setTV_run _ h1 h2 (by positivity)]

/-- A pressure of zero is never reached by the search, since its tolerance is relative. -/
theorem zero_pressure_search {ifx : Flag} {X atx : ℝ} (s : St) :
    (setXY e ifx .P X 0 atx (tol .P) s).2 = none ∧ (setXY e .P ifx 0 X (tol .P) atx s).2 = none := by
  constructor
  · rcases h : setXY e ifx .P X 0 atx (tol .P) s with ⟨s', _ | u⟩
    · rfl
    · obtain ⟨x, y, _, _, _, h5⟩ := setXY_ok h
      have := abs_nonneg (0 - y)
      simp only [tol, abs_zero, mul_zero, add_zero] at h5
      linarith
  · rcases h : setXY e .P ifx 0 X (tol .P) atx s with ⟨s', _ | u⟩
    · rfl
    · obtain ⟨x, y, _, _, h4, _⟩ := setXY_ok h
      have := abs_nonneg (0 - x)
      simp only [tol, abs_zero, mul_zero, add_zero] at h4
      linarith

/-- Temperature and pressure set: the temperature is reproduced within a thousandth of a kelvin (plus eight
digits), the pressure read to eight digits. -/
theorem setTP_ok {t p : ℝ} {s s' : St} (h : setTP e t p s = (s', some ())) :
    |t - s'.T| < 1e-3 + 1e-8 * |t| ∧ ∃ q, P e s' = (s', some q) ∧ |p - q| < 1e-8 * |p| := by
  unfold setTP at h
  rw [bind_some] at h
  obtain ⟨s1, _, _, h⟩ := h
  rw [bind_some] at h
  obtain ⟨s2, _, _, h⟩ := h
  obtain ⟨x, y, h1, h2, h3, h4⟩ := setXY_ok h
  rw [prop_T] at h1
  simp only [Prod.mk.injEq, Option.some.injEq, true_and] at h1
  rw [prop_P] at h2
  subst h1
  simp only [tol, zero_add] at h3 h4
  exact ⟨h3, y, h2, h4⟩

/-- A negative pressure below the critical temperature is always refused: if the saturation pressure is found the
message is the one for a saturated mixture, and the temperature has been changed. -/
theorem setTP_negative {t p ps : ℝ} {s s1 : St} (hp : p < 0) (h1 : e.Tmin ≤ t) (h2 : t ≤ e.Tmax) (hc : t < e.Tc)
    (hs : Ps e { s with T := t } = (s1, some ps)) (hps : 0 ≤ ps) :
    setTP e t p s = (s1, none) ∧ s1.T = t ∧ |p - ps| / p < 1e-8 ∧ ¬ |p - ps| < 1e-8 * |p| := by
  have hq : |p - ps| / p < 1e-8 := by
    have : |p - ps| / p ≤ 0 := div_nonpos_of_nonneg_of_nonpos (abs_nonneg _) hp.le
    linarith
  refine ⟨?_, (Ps_ok hs).1, hq, ?_⟩
  · unfold setTP
    rw [bind_eq]
    unfold setT
    rw [if_pos ⟨h1, h2⟩]
    dsimp only
    rw [bind_eq]
    unfold tpStart
    rw [if_pos hc, bind_eq, hs]
    dsimp only
    rw [if_pos hq]
    rfl
  · rw [abs_of_neg hp, abs_of_nonpos (by linarith)]
    intro k
    linarith

/-- A pressure within eight digits of saturation is refused, with the temperature already changed. -/
theorem setTP_saturated {t p ps : ℝ} {s s1 : St} (hp : 0 < p) (h1 : e.Tmin ≤ t) (h2 : t ≤ e.Tmax) (hc : t < e.Tc)
    (hs : Ps e { s with T := t } = (s1, some ps)) (hps : |p - ps| < 1e-8 * p) :
    setTP e t p s = (s1, none) ∧ s1.T = t ∧ s1.Rho = s.Rho := by
  refine ⟨?_, (Ps_ok hs).1, (Ps_ok hs).2.1⟩
  unfold setTP
  rw [bind_eq]
  unfold setT
  rw [if_pos ⟨h1, h2⟩]
  dsimp only
  rw [bind_eq]
  unfold tpStart
  rw [if_pos hc, bind_eq, hs]
  dsimp only
  rw [if_pos (by rw [div_lt_iff₀ hp]; exact hps)]
  rfl

/-- Inverted pairs swap the two numbers. -/
theorem set_inverted (xy : ℤ) (h : 0 < xy) (x y : ℝ) : set e (-xy) x y = set e xy y x := by
  unfold set
  simp only [Int.natAbs_neg]
  rw [if_pos (by omega), if_pos (by omega), if_neg (by omega), if_neg (by omega)]

/-- Pairs and the calls they stand for. -/
theorem set_table (x y : ℝ) :
    set e 12 x y = setTV e x y ∧ set e 14 x y = setTP e x y ∧ set e 17 x y = setTX e x y ∧
      set e 47 x y = setPX e x y ∧
      set e 62 x y = setXY e .U .V x y 1e-4 1e-8 ∧ set e 52 x y = setXY e .S .V x y 1e-7 1e-8 ∧
      set e 23 x y = setXY e .V .H x y 1e-8 1e-4 ∧ set e 13 x y = setXY e .T .H x y 1e-3 1e-4 ∧
      set e 53 x y = setXY e .S .H x y 1e-7 1e-4 ∧
      set e 34 x y = viaLever e (leverP e y x .H) .H .P x y ∧ set e 54 x y = viaLever e (leverP e y x .S) .S .P x y ∧
      set e 42 x y = viaLever e (leverP e x y .V) .P .V x y ∧ set e 64 x y = viaLever e (leverP e y x .U) .U .P x y ∧
      set e 51 x y = viaLever e (leverT e y x .S) .S .T x y := by
  refine ⟨rfl, rfl, rfl, rfl, rfl, rfl, rfl, rfl, rfl, rfl, rfl, rfl, rfl, rfl⟩

theorem viaLever_ok {l : M Bool} {ifx ify : Flag} {X Y : ℝ} {s s' : St}
    (h : viaLever e l ifx ify X Y s = (s', some ())) :
    l s = (s', some true) ∨ ∃ x y, prop e ifx s' = (s', some x) ∧ prop e ify s' = (s', some y) ∧
      |X - x| < tol ifx + 1e-8 * |X| ∧ |Y - y| < tol ify + 1e-8 * |Y| := by
  unfold viaLever at h
  rw [bind_some] at h
  obtain ⟨s1, b, h1, h⟩ := h
  cases b
  · simp only [Bool.false_eq_true, if_false] at h
    exact Or.inr (setXY_ok h)
  · simp only [if_true, pure_eq, Prod.mk.injEq, and_true] at h
    subst h
    exact Or.inl h1

/-- Enthalpy and pressure set: either the lever rule applied, or enthalpy and pressure read are within tolerance. -/
theorem set_HP_ok {h0 p : ℝ} {s s' : St} (h : set e 34 h0 p s = (s', some ())) :
    leverP e p h0 .H s = (s', some true) ∨ ∃ x y, prop e .H s' = (s', some x) ∧ P e s' = (s', some y) ∧
      |h0 - x| < 1e-4 + 1e-8 * |h0| ∧ |p - y| < 1e-8 * |p| := by
  rw [(set_table h0 p).2.2.2.2.2.2.2.2.2.1] at h
  rcases viaLever_ok h with h | ⟨x, y, h1, h2, h3, h4⟩
  · exact Or.inl h
  · rw [prop_P] at h2
    simp only [tol, zero_add] at h3 h4
    exact Or.inr ⟨x, y, h1, h2, h3, h4⟩

/-- Entropy and pressure set. -/
theorem set_SP_ok {s0 p : ℝ} {s s' : St} (h : set e 54 s0 p s = (s', some ())) :
    leverP e p s0 .S s = (s', some true) ∨ ∃ x y, prop e .S s' = (s', some x) ∧ P e s' = (s', some y) ∧
      |s0 - x| < 1e-7 + 1e-8 * |s0| ∧ |p - y| < 1e-8 * |p| := by
  rw [(set_table s0 p).2.2.2.2.2.2.2.2.2.2.1] at h
  rcases viaLever_ok h with h | ⟨x, y, h1, h2, h3, h4⟩
  · exact Or.inl h
  · rw [prop_P] at h2
    simp only [tol, zero_add] at h3 h4
    exact Or.inr ⟨x, y, h1, h2, h3, h4⟩

/-- Energy and volume set: energy and volume read are within tolerance. -/
theorem set_UV_ok {u v : ℝ} {s s' : St} (h : set e 62 u v s = (s', some ())) :
    ∃ x y, prop e .U s' = (s', some x) ∧ prop e .V s' = (s', some y) ∧
      |u - x| < 1e-4 + 1e-8 * |u| ∧ |v - y| < 1e-8 + 1e-8 * |v| := by
  rw [(set_table u v).2.2.2.2.1] at h
  exact setXY_ok h

/-- A lever rule at a pressure of zero never applies, so no pair with a pressure of zero can be set. -/
theorem zero_pressure {x : ℝ} (hPc : 0 < e.Pc) (s : St) (n : ℤ) (hn : n = 34 ∨ n = 54 ∨ n = 64) :
    (set e n x 0 s).2 = none := by
  have hl : ∀ f, leverP e 0 x f s = ({ s with
      T := s.T
      Rho := s.Rho }, some false) := by
    intro f
    unfold leverP
    rw [if_neg (not_le.mpr hPc), Tsat_refused (Or.inl (le_refl 0))]
  have hv : ∀ f, (viaLever e (leverP e 0 x f) f .P x 0 s).2 = none := by
    intro f
    unfold viaLever
    rw [bind_eq, hl]
    simp only [Bool.false_eq_true, if_false]
    exact (zero_pressure_search _).1
  rcases hn with rfl | rfl | rfl
  · exact hv .H
  · exact hv .S
  · exact hv .U

/-- A pressure of zero cannot be set together with a temperature either. -/
theorem zero_pressure_TP {t : ℝ} (s : St) : (set e 14 t 0 s).2 = none := by
  rcases h : set e 14 t 0 s with ⟨s', _ | u⟩
  · rfl
  · rw [(set_table t 0).2.1] at h
    obtain ⟨_, q, _, h2⟩ := setTP_ok h
    have := abs_nonneg (0 - q)
    rw [abs_zero, mul_zero] at h2
    linarith

/-- Other numbers are refused without any change. -/
theorem set_unknown {n : ℤ} (h : n.natAbs ∉ [12, 34, 54, 42, 14, 62, 51, 52, 64, 23, 13, 53, 47, 17]) (x y : ℝ)
    (s : St) : set e n x y s = (s, none) := by
  simp only [List.mem_cons, List.not_mem_nil, or_false, not_or] at h
  have k : set e n x y = throwM := by
    unfold set
    dsimp only
    split <;> first | omega | rfl
  rw [k]
  rfl

/-! ## Standard state -/

/-- Effect of the two offsets on a property. -/
def shift (du ds : ℝ) : Flag → ℝ
  | .H => du
  | .U => du
  | .S => ds
  | _ => 0

theorem vprop_offset {f : Flag} {s : St} (du ds a : ℝ) (h : vprop e f s = some a) :
    vprop e f { s with
      uoff := s.uoff + du
      soff := s.soff + ds } = some (a + shift du ds f) := by
  cases f <;> simp only [vprop, hp, up, sp, Pp, shift, Option.some.injEq, reduceCtorEq] at h ⊢ <;> rw [← h] <;> ring

theorem quality_offset {s : St} {x du ds : ℝ} (hf : Fresh e s) (h : quality e s = (s, some x)) :
    quality e { s with
      uoff := s.uoff + du
      soff := s.soff + ds } = ({ s with
      uoff := s.uoff + du
      soff := s.soff + ds }, some x) := by
  by_cases hc : e.Tc ≤ s.T
  · rw [quality_supercritical hc] at h
    have k := quality_supercritical (e := e) (s := { s with
      uoff := s.uoff + du
      soff := s.soff + ds }) hc
    simp only [Prod.mk.injEq, true_and] at h
    rw [k, ← h]
  · rcases hf with hf | hf
    · exact absurd hf hc
    · rw [quality_stored (not_le.mp hc) hf] at h
      have k := quality_stored (e := e) (s := { s with
        uoff := s.uoff + du
        soff := s.soff + ds }) (not_le.mp hc) hf
      simp only [Prod.mk.injEq, true_and] at h
      rw [k, ← h]

theorem prop_offset {f : Flag} (h1 : f ≠ .P) (h2 : f ≠ .T) {s : St} {a du ds : ℝ} (hf : Fresh e s)
    (h : prop e f s = (s, some a)) :
    prop e f { s with
      uoff := s.uoff + du
      soff := s.soff + ds } = ({ s with
      uoff := s.uoff + du
      soff := s.soff + ds }, some (a + shift du ds f)) := by
  rcases hq : quality e s with ⟨s1, _ | x⟩
  · unfold prop at h
    rw [if_neg h1, if_neg h2, bind_eq, hq] at h
    simp at h
  · have h' := h
    rw [prop_other h1 h2 hq] at h'
    simp only [Prod.mk.injEq] at h'
    obtain ⟨hs, h'⟩ := h'
    subst hs
    clear h
    have h := h'
    rw [prop_other h1 h2 (quality_offset hf hq)]
    congr 1
    by_cases hx : 0 < x ∧ x < 1
    · rw [if_pos hx] at h ⊢
      rcases ha : vprop e f { s1 with Rho := s1.Rhv } with _ | va
      · rw [ha] at h
        simp at h
      · rcases hb : vprop e f { s1 with Rho := s1.Rhf } with _ | vb
        · rw [ha, hb] at h
          simp at h
        · rw [ha, hb] at h
          simp only [Option.bind_some, Option.some.injEq] at h
          have ka := vprop_offset du ds va ha
          have kb := vprop_offset du ds vb hb
          simp only at ka kb ⊢
          rw [ka, kb]
          simp only [Option.bind_some, Option.some.injEq]
          rw [← h]
          ring
    · rw [if_neg hx] at h ⊢
      exact vprop_offset du ds a h

/-- After setting the standard state the enthalpy and entropy read are the given ones, at the temperature and
pressure reached. -/
theorem setStdState_ok {h0 s0 t0 p0 : ℝ} {s s' : St} (h : setStdState e h0 s0 t0 p0 s = (s', some ())) :
    prop e .H s' = (s', some h0) ∧ prop e .S s' = (s', some s0) ∧ |t0 - s'.T| < 1e-3 + 1e-8 * |t0| := by
  unfold setStdState at h
  rw [bind_some] at h
  obtain ⟨s1, _, h1, h⟩ := h
  rw [bind_some] at h
  obtain ⟨s2, hh, h2, h⟩ := h
  rw [bind_some] at h
  obtain ⟨s3, ss, h3, h⟩ := h
  simp only [modify_eq, Prod.mk.injEq, and_true] at h
  obtain ⟨a1, a2, a3, _⟩ := prop_pair h2 h3
  have fr : Fresh e s3 := (prop_ok h3).2.2.2.2.1 (by decide)
  have kH := prop_offset (du := h0 - hh) (ds := s0 - ss) (by decide) (by decide) fr a1
  have kS := prop_offset (du := h0 - hh) (ds := s0 - ss) (by decide) (by decide) fr a2
  simp only [shift, add_sub_cancel] at kH kS
  rw [h] at kH kS
  refine ⟨kH, kS, ?_⟩
  have : s'.T = s1.T := by rw [← h]; exact a3
  rw [this]
  exact (setTP_ok h1).1

end Verif.Tpx
