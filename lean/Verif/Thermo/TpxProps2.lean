import Verif.Thermo.TpxProps

/-!
# Pure fluids: quality, properties, setting the state
-/

namespace Verif.Tpx

open Verif

variable {e : Eos}

/-! ## Quality and pressure -/

/-- Above the critical temperature the quality is 0 or 1 by the critical volume. -/
theorem quality_supercritical {s : St} (h : e.Tc ≤ s.T) :
    quality e s = (s, some (if 1 / s.Rho < e.Vc then 0 else 1)) := by
  unfold quality
  rw [bind_eq]
  dsimp only [get_eq]
  rw [if_pos h, pure_eq]

/-- With saturation data of this temperature: vapour, liquid or the lever rule. -/
theorem quality_stored {s : St} (h : s.T < e.Tc) (hT : s.T = s.Tslast) :
    quality e s = (s, some (if s.Rho ≤ s.Rhv then 1 else if s.Rhf ≤ s.Rho then 0
      else (1 / s.Rho - 1 / s.Rhf) / (1 / s.Rhv - 1 / s.Rhf))) := by
  unfold quality
  rw [bind_eq]
  dsimp only [get_eq]
  rw [if_neg (not_le.mpr h), bind_eq, updateSat_stored hT]
  dsimp only
  rw [bind_eq]
  dsimp only [get_eq]
  by_cases h1 : s.Rho ≤ s.Rhv
  · rw [if_pos h1, if_pos h1, pure_eq]
  · rw [if_neg h1, if_neg h1]
    by_cases h2 : s.Rhf ≤ s.Rho
    · rw [if_pos h2, if_pos h2, pure_eq]
    · rw [if_neg h2, if_neg h2, pure_eq]

/-- A quality returned leaves temperature, density and offsets alone, makes the saturation data belong to the
temperature, and asking again changes nothing. -/
theorem quality_ok {s s' : St} {x : ℝ} (h : quality e s = (s', some x)) :
    s'.T = s.T ∧ s'.Rho = s.Rho ∧ s'.uoff = s.uoff ∧ s'.soff = s.soff ∧ Fresh e s' ∧
      quality e s' = (s', some x) := by
  by_cases hc : e.Tc ≤ s.T
  · have h' := h
    rw [quality_supercritical hc] at h'
    simp only [Prod.mk.injEq] at h'
    obtain ⟨rfl, -⟩ := h'
    exact ⟨rfl, rfl, rfl, rfl, Or.inl hc, h⟩
  · have hc' := not_le.mp hc
    have h' := h
    unfold quality at h
    rw [bind_eq] at h
    dsimp only [get_eq] at h
    rw [if_neg hc, bind_some] at h
    obtain ⟨s1, _, h1, h⟩ := h
    obtain ⟨a1, a2, a3, a4, a5⟩ := updateSat_keeps h1
    rw [bind_eq] at h
    dsimp only [get_eq] at h
    have hs : s1 = s' := by
      by_cases g1 : s1.Rho ≤ s1.Rhv
      · rw [if_pos g1] at h
        simp only [pure_eq, Prod.mk.injEq] at h
        exact h.1
      · rw [if_neg g1] at h
        by_cases g2 : s1.Rho ≥ s1.Rhf
        · rw [if_pos g2] at h
          simp only [pure_eq, Prod.mk.injEq] at h
          exact h.1
        · rw [if_neg g2] at h
          simp only [pure_eq, Prod.mk.injEq] at h
          exact h.1
    subst hs
    refine ⟨a1, a2, a4, a5, Or.inr a3, ?_⟩
    rw [← h]
    unfold quality
    rw [bind_eq]
    dsimp only [get_eq]
    rw [if_neg (by rw [a1]; exact hc), bind_eq, updateSat_stored a3]
    rfl

/-- The quality lies between 0 and 1, provided the liquid is not lighter than the vapour (which every successful
update of the saturation data ensures). -/
theorem quality_range {s : St} (h : s.T < e.Tc) (hT : s.T = s.Tslast) (h0 : 0 < s.Rhv) (_h1 : s.Rhv ≤ s.Rhf) :
    ∃ x, quality e s = (s, some x) ∧ 0 ≤ x ∧ x ≤ 1 ∧
      (s.Rhv < s.Rho → s.Rho < s.Rhf → 0 < x ∧ x < 1 ∧ 1 / s.Rho = (1 - x) / s.Rhf + x / s.Rhv) := by
  refine ⟨_, quality_stored h hT, ?_⟩
  by_cases g1 : s.Rho ≤ s.Rhv
  · rw [if_pos g1]
    exact ⟨by norm_num, le_refl _, fun g => absurd g1 (not_le.mpr g)⟩
  · rw [if_neg g1]
    by_cases g2 : s.Rhf ≤ s.Rho
    · rw [if_pos g2]
      exact ⟨le_refl _, by norm_num, fun _ g => absurd g2 (not_le.mpr g)⟩
    · rw [if_neg g2]
      have a1 := not_le.mp g1
      have a2 := not_le.mp g2
      have hr : 0 < s.Rho := lt_trans h0 a1
      have b1 : 1 / s.Rho < 1 / s.Rhv := one_div_lt_one_div_of_lt h0 a1
      have b2 : 1 / s.Rhf < 1 / s.Rho := one_div_lt_one_div_of_lt hr a2
      have d : 0 < 1 / s.Rhv - 1 / s.Rhf := by linarith
      have x0 : 0 < (1 / s.Rho - 1 / s.Rhf) / (1 / s.Rhv - 1 / s.Rhf) := div_pos (by linarith) d
      have x1 : (1 / s.Rho - 1 / s.Rhf) / (1 / s.Rhv - 1 / s.Rhf) < 1 := by
        rw [div_lt_one d]
        linarith
      refine ⟨x0.le, x1.le, fun _ _ => ⟨x0, x1, ?_⟩⟩
      have k : (1 / s.Rho - 1 / s.Rhf) / (1 / s.Rhv - 1 / s.Rhf) * (1 / s.Rhv - 1 / s.Rhf) =
          1 / s.Rho - 1 / s.Rhf := div_mul_cancel₀ _ d.ne'
      generalize (1 / s.Rho - 1 / s.Rhf) / (1 / s.Rhv - 1 / s.Rhf) = x at k
      rw [sub_div, div_eq_mul_one_div x s.Rhf, div_eq_mul_one_div x s.Rhv]
      linarith

/-- The pressure: stored saturation pressure between the two densities, equation of state otherwise. -/
theorem P_stored {s : St} (h : s.T < e.Tc) (hT : s.T = s.Tslast) (hm : e.Tmin ≤ s.T) :
    P e s = (s, some (if s.Rhv ≤ s.Rho ∧ s.Rho ≤ s.Rhf then s.Pst else e.Pp s.T s.Rho)) := by
  have ht : twoPhase e false s = (s, some (decide (s.Rho ≥ s.Rhv ∧ s.Rho ≤ s.Rhf))) := by
    unfold twoPhase
    rw [bind_eq]
    dsimp only [get_eq]
    rw [if_neg (not_le.mpr h), bind_eq, updateSat_stored hT]
    rfl
  unfold P
  rw [bind_eq, ht]
  dsimp only
  by_cases g : s.Rhv ≤ s.Rho ∧ s.Rho ≤ s.Rhf
  · rw [if_pos (by simpa using g), if_pos g]
    unfold Ps
    rw [bind_eq]
    dsimp only [get_eq]
    rw [if_neg (by push Not; exact ⟨hm, h.le⟩), bind_eq, updateSat_stored hT]
    rfl
  · rw [if_neg (by simpa using g), if_neg g]
    rfl

/-- Above the critical temperature the pressure is that of the equation of state. -/
theorem P_supercritical {s : St} (h : e.Tc ≤ s.T) : P e s = (s, some (e.Pp s.T s.Rho)) := by
  have ht : twoPhase e false s = (s, some false) := by
    unfold twoPhase
    rw [bind_eq]
    dsimp only [get_eq]
    rw [if_pos h]
    rfl
  unfold P
  rw [bind_eq, ht]
  rfl

theorem twoPhase_ok {st b : Bool} {s s' : St} (h : twoPhase e st s = (s', some b)) :
    s'.T = s.T ∧ s'.Rho = s.Rho ∧ s'.uoff = s.uoff ∧ s'.soff = s.soff ∧ Fresh e s' ∧
      twoPhase e st s' = (s', some b) := by
  have h0 := h
  unfold twoPhase at h
  rw [bind_eq] at h
  dsimp only [get_eq] at h
  by_cases hc : e.Tc ≤ s.T
  · rw [if_pos hc] at h
    simp only [pure_eq, Prod.mk.injEq] at h
    obtain ⟨rfl, -⟩ := h
    exact ⟨rfl, rfl, rfl, rfl, Or.inl hc, h0⟩
  · rw [if_neg hc, bind_some] at h
    obtain ⟨s1, _, h1, h⟩ := h
    obtain ⟨a1, a2, a3, a4, a5⟩ := updateSat_keeps h1
    rw [bind_eq] at h
    dsimp only [get_eq] at h
    have hs : s1 = s' := by
      cases st
      · simp only [Bool.false_eq_true, if_false, pure_eq, Prod.mk.injEq] at h
        exact h.1
      · simp only [if_true, pure_eq, Prod.mk.injEq] at h
        exact h.1
    subst hs
    refine ⟨a1, a2, a4, a5, Or.inr a3, ?_⟩
    rw [← h]
    unfold twoPhase
    rw [bind_eq]
    dsimp only [get_eq]
    rw [if_neg (by rw [a1]; exact hc), bind_eq, updateSat_stored a3]
    rfl

theorem Ps_ok {s s' : St} {p : ℝ} (h : Ps e s = (s', some p)) :
    s'.T = s.T ∧ s'.Rho = s.Rho ∧ s'.uoff = s.uoff ∧ s'.soff = s.soff ∧ s'.T = s'.Tslast ∧ p = s'.Pst ∧
      e.Tmin ≤ s.T ∧ s.T ≤ e.Tc ∧ updateSat e s = (s', some ()) := by
  unfold Ps at h
  rw [bind_eq] at h
  dsimp only [get_eq] at h
  by_cases hc : s.T < e.Tmin ∨ s.T > e.Tc
  · rw [if_pos hc] at h
    simp at h
  · rw [if_neg hc, bind_some] at h
    obtain ⟨s1, _, h1, h⟩ := h
    obtain ⟨a1, a2, a3, a4, a5⟩ := updateSat_keeps h1
    rw [bind_eq] at h
    simp only [get_eq, pure_eq, Prod.mk.injEq, Option.some.injEq] at h
    obtain ⟨rfl, rfl⟩ := h
    push Not at hc
    exact ⟨a1, a2, a4, a5, a3, rfl, hc.1, hc.2, h1⟩

theorem P_ok {s s' : St} {p : ℝ} (h : P e s = (s', some p)) :
    s'.T = s.T ∧ s'.Rho = s.Rho ∧ s'.uoff = s.uoff ∧ s'.soff = s.soff ∧ Fresh e s' ∧
      P e s' = (s', some p) := by
  unfold P at h
  rw [bind_some] at h
  obtain ⟨s1, b, h1, h⟩ := h
  obtain ⟨a1, a2, a3, a4, a5, a6⟩ := twoPhase_ok h1
  have key : s1 = s' := by
    cases b
    · simp only [Bool.false_eq_true, if_false, bind_eq, get_eq, pure_eq, Prod.mk.injEq] at h
      exact h.1
    · simp only [if_true] at h
      obtain ⟨-, -, -, -, -, -, -, -, hu⟩ := Ps_ok h
      rcases a5 with a5 | a5
      · unfold twoPhase at a6
        rw [bind_eq] at a6
        dsimp only [get_eq] at a6
        rw [if_pos a5] at a6
        simp at a6
      · rw [updateSat_stored a5] at hu
        simp only [Prod.mk.injEq, and_true] at hu
        exact hu
  subst key
  refine ⟨a1, a2, a3, a4, a5, ?_⟩
  unfold P
  rw [bind_eq, a6]
  exact h

theorem prop_T (s : St) : prop e .T s = (s, some s.T) := by
  unfold prop
  rw [if_neg (by decide), if_pos rfl, bind_eq]
  rfl

theorem prop_P (s : St) : prop e .P s = P e s := by
  unfold prop
  rw [if_pos rfl]

theorem prop_other {f : Flag} (h1 : f ≠ .P) (h2 : f ≠ .T) {s s1 : St} {x : ℝ} (h : quality e s = (s1, some x)) :
    prop e f s = (s1, if 0 < x ∧ x < 1 then
      (vprop e f { s1 with Rho := s1.Rhv }).bind fun a =>
        (vprop e f { s1 with Rho := s1.Rhf }).bind fun b => some ((1 - x) * b + x * a)
      else vprop e f s1) := by
  unfold prop
  rw [if_neg h1, if_neg h2, bind_eq, h]
  dsimp only
  rw [bind_eq]
  dsimp only [get_eq]
  by_cases hx : 0 < x ∧ x < 1
  · rw [if_pos hx, if_pos hx, bind_eq]
    cases vprop e f { s1 with Rho := s1.Rhv } with
    | none => rfl
    | some a =>
      dsimp only [lift_eq]
      rw [bind_eq]
      cases vprop e f { s1 with Rho := s1.Rhf } with
      | none => rfl
      | some b => rfl
  · rw [if_neg hx, if_neg hx]
    rfl

/-- Reading a property leaves temperature, density and offsets alone, and reading it again gives the same. -/
theorem prop_ok {f : Flag} {s s' : St} {a : ℝ} (h : prop e f s = (s', some a)) :
    s'.T = s.T ∧ s'.Rho = s.Rho ∧ s'.uoff = s.uoff ∧ s'.soff = s.soff ∧ (f ≠ .T → Fresh e s') ∧
      prop e f s' = (s', some a) := by
  by_cases h1 : f = .P
  · subst h1
    rw [prop_P] at h ⊢
    obtain ⟨a1, a2, a3, a4, a5, a6⟩ := P_ok h
    exact ⟨a1, a2, a3, a4, fun _ => a5, a6⟩
  · by_cases h2 : f = .T
    · subst h2
      rw [prop_T] at h
      simp only [Prod.mk.injEq, Option.some.injEq] at h
      obtain ⟨rfl, rfl⟩ := h
      exact ⟨rfl, rfl, rfl, rfl, fun g => absurd rfl g, prop_T s⟩
    · rcases hq : quality e s with ⟨s1, _ | x⟩
      · unfold prop at h
        rw [if_neg h1, if_neg h2, bind_eq, hq] at h
        simp at h
      · obtain ⟨a1, a2, a3, a4, a5, a6⟩ := quality_ok hq
        have h' := h
        rw [prop_other h1 h2 hq] at h
        simp only [Prod.mk.injEq] at h
        obtain ⟨rfl, hv⟩ := h
        refine ⟨a1, a2, a3, a4, fun _ => a5, ?_⟩
        rw [prop_other h1 h2 a6, hv]

/-- With saturation data of this temperature a property is read without any change. -/
theorem prop_fresh {f : Flag} {s s' : St} {a : ℝ} (hf : Fresh e s) (h : prop e f s = (s', some a)) : s' = s := by
  have hu : ∀ s1, s.T < e.Tc → updateSat e s = (s1, some ()) → s1 = s := by
    intro s1 hc hs
    rcases hf with hf | hf
    · linarith
    · rw [updateSat_stored hf] at hs
      simp only [Prod.mk.injEq, and_true] at hs
      exact hs.symm
  by_cases hc : e.Tc ≤ s.T
  · by_cases h1 : f = .P
    · subst h1
      rw [prop_P, P_supercritical hc] at h
      simp only [Prod.mk.injEq] at h
      exact h.1.symm
    · by_cases h2 : f = .T
      · subst h2
        rw [prop_T] at h
        simp only [Prod.mk.injEq] at h
        exact h.1.symm
      · rw [prop_other h1 h2 (quality_supercritical hc)] at h
        simp only [Prod.mk.injEq] at h
        exact h.1.symm
  · have hc' := not_le.mp hc
    have hT : s.T = s.Tslast := by
      rcases hf with hf | hf
      · exact absurd hf hc
      · exact hf
    by_cases h1 : f = .P
    · subst h1
      rw [prop_P] at h
      unfold P at h
      rw [bind_some] at h
      obtain ⟨s1, b, g1, h⟩ := h
      have e1 : s1 = s := by
        unfold twoPhase at g1
        rw [bind_eq] at g1
        dsimp only [get_eq] at g1
        rw [if_neg hc, bind_some] at g1
        obtain ⟨s2, _, g2, g1⟩ := g1
        rw [hu s2 hc' g2, bind_eq] at g1
        simp only [get_eq, Bool.false_eq_true, if_false, pure_eq, Prod.mk.injEq] at g1
        exact g1.1.symm
      subst e1
      cases b
      · simp only [Bool.false_eq_true, if_false, bind_eq, get_eq, pure_eq, Prod.mk.injEq] at h
        exact h.1.symm
      · simp only [if_true] at h
        obtain ⟨-, -, -, -, -, -, -, -, h⟩ := Ps_ok h
        exact hu _ hc' h
    · by_cases h2 : f = .T
      · subst h2
        rw [prop_T] at h
        simp only [Prod.mk.injEq] at h
        exact h.1.symm
      · rw [prop_other h1 h2 (quality_stored hc' hT)] at h
        simp only [Prod.mk.injEq] at h
        exact h.1.symm

/-- Two properties read one after the other are both properties of the state reached. -/
theorem prop_pair {f g : Flag} {s s1 s2 : St} {a b : ℝ} (h1 : prop e f s = (s1, some a))
    (h2 : prop e g s1 = (s2, some b)) :
    prop e f s2 = (s2, some a) ∧ prop e g s2 = (s2, some b) ∧ s2.T = s.T ∧ s2.Rho = s.Rho := by
  obtain ⟨a1, a2, _, _, a5, a6⟩ := prop_ok h1
  obtain ⟨b1, b2, _, _, _, b6⟩ := prop_ok h2
  refine ⟨?_, b6, by rw [b1, a1], by rw [b2, a2]⟩
  by_cases hf : f = .T
  · subst hf
    rw [prop_T] at h1 ⊢
    simp only [Prod.mk.injEq, Option.some.injEq] at h1
    obtain ⟨rfl, rfl⟩ := h1
    rw [b1]
  · rw [prop_fresh (a5 hf) h2]
    exact a6

/-! ## Temperature and quality -/

/-- Refused arguments of `Set(TX)` change nothing. -/
theorem setTX_refused {t x : ℝ} (h : x > 1 ∨ x < 0 ∨ t < e.Tmin ∨ t > e.Tc) (s : St) :
    setTX e t x s = (s, none) := by
  unfold setTX
  by_cases hx : x > 1 ∨ x < 0
  · rw [if_pos hx]
    rfl
  · rw [if_neg hx, if_pos (by tauto)]
    rfl

theorem setTX_ok {t x : ℝ} {s s' : St} (h : setTX e t x s = (s', some ())) :
    0 ≤ x ∧ x ≤ 1 ∧ e.Tmin ≤ t ∧ t ≤ e.Tc ∧ s'.T = t ∧ s'.Tslast = t ∧
      s'.Rho = 1 / ((1 - x) / s'.Rhf + x / s'.Rhv) ∧ s'.uoff = s.uoff ∧ s'.soff = s.soff ∧
      ∃ s1, updateSat e { s with T := t } = (s1, some ()) ∧ s' = { s1 with Rho := s'.Rho } := by
  unfold setTX at h
  by_cases hx : x > 1 ∨ x < 0
  · rw [if_pos hx] at h
    simp at h
  · rw [if_neg hx] at h
    by_cases ht : t < e.Tmin ∨ t > e.Tc
    · rw [if_pos ht] at h
      simp at h
    · rw [if_neg ht, bind_some] at h
      obtain ⟨s1, _, h1, h⟩ := h
      unfold setT at h1
      split_ifs at h1 with h2
      · simp only [Prod.mk.injEq, and_true] at h1
        subst h1
        rw [bind_some] at h
        obtain ⟨s3, _, h3, h⟩ := h
        obtain ⟨a1, a2, a3, a4, a5⟩ := updateSat_keeps h3
        simp only [modify_eq, Prod.mk.injEq, and_true] at h
        subst h
        push Not at hx ht
        exact ⟨hx.2, hx.1, ht.1, ht.2, a1, by rw [← a3, a1], rfl, a4, a5, s3, h3, rfl⟩
      · simp at h1

/-- Round trip of the quality below the critical temperature: the quality set is the quality read, the volume is
the mixture of the two volumes and the pressure is the saturation pressure. -/
theorem setTX_roundtrip {t x : ℝ} {s s' : St} (h : setTX e t x s = (s', some ())) (ht : t < e.Tc)
    (h0 : 0 < s'.Rhv) (h1 : s'.Rhv < s'.Rhf) :
    quality e s' = (s', some x) ∧ P e s' = (s', some s'.Pst) ∧ prop e .T s' = (s', some t) := by
  obtain ⟨x0, x1, t0, _, aT, aS, aR, _⟩ := setTX_ok h
  have hf : 0 < s'.Rhf := lt_trans h0 h1
  have hfresh : s'.T = s'.Tslast := by rw [aT, aS]
  have d : 1 / s'.Rhf < 1 / s'.Rhv := one_div_lt_one_div_of_lt h0 h1
  have hv : (1 - x) / s'.Rhf + x / s'.Rhv = 1 / s'.Rhf + x * (1 / s'.Rhv - 1 / s'.Rhf) := by ring
  have p1 : 0 < 1 / s'.Rhf := by positivity
  have pv : 0 < (1 - x) / s'.Rhf + x / s'.Rhv := by
    rw [hv]
    nlinarith
  have hinv : 1 / s'.Rho = 1 / s'.Rhf + x * (1 / s'.Rhv - 1 / s'.Rhf) := by
    rw [aR, one_div_one_div, hv]
  have hr : 0 < s'.Rho := by
    rw [aR]
    positivity
  have le1 : s'.Rhv ≤ s'.Rho := by
    rw [← one_div_le_one_div hr h0, hinv]
    nlinarith
  have le2 : s'.Rho ≤ s'.Rhf := by
    rw [← one_div_le_one_div hf hr, hinv]
    nlinarith
  refine ⟨?_, ?_, ?_⟩
  · rw [quality_stored (by rw [aT]; exact ht) hfresh]
    congr 2
    by_cases g1 : s'.Rho ≤ s'.Rhv
    · rw [if_pos g1]
      have : s'.Rho = s'.Rhv := le_antisymm g1 le1
      rw [this] at hinv
      have : (1 - x) * (1 / s'.Rhv - 1 / s'.Rhf) = 0 := by linarith
      rcases mul_eq_zero.mp this with k | k <;> linarith
    · rw [if_neg g1]
      by_cases g2 : s'.Rhf ≤ s'.Rho
      · rw [if_pos g2]
        have : s'.Rho = s'.Rhf := le_antisymm le2 g2
        rw [this] at hinv
        have : x * (1 / s'.Rhv - 1 / s'.Rhf) = 0 := by linarith
        rcases mul_eq_zero.mp this with k | k <;> linarith
      · rw [if_neg g2, hinv]
        have : 1 / s'.Rhv - 1 / s'.Rhf ≠ 0 := by
          intro k
          linarith
        rw [add_sub_cancel_left, mul_div_assoc, div_self this, mul_one]
  · rw [P_stored (by rw [aT]; exact ht) hfresh (by rw [aT]; exact t0), if_pos ⟨le1, le2⟩]
  · rw [prop_T, aT]

/-- If the two densities coincide (the trivial solution, which the search accepts) the quality read is 1 whatever
was set. -/
theorem trivial_root {t x : ℝ} {s s' : St} (h : setTX e t x s = (s', some ())) (ht : t < e.Tc)
    (h1 : s'.Rhv = s'.Rhf) : quality e s' = (s', some 1) := by
  obtain ⟨x0, x1, t0, _, aT, aS, aR, _⟩ := setTX_ok h
  rw [quality_stored (by rw [aT]; exact ht) (by rw [aT, aS]), if_pos]
  rw [aR, h1, ← add_div, sub_add_cancel, one_div_one_div]

/-- At the critical temperature itself a quality is accepted, but the quality read is 0 or 1. -/
theorem critical_quality {x : ℝ} {s s' : St} (h : setTX e e.Tc x s = (s', some ())) :
    ∃ y, quality e s' = (s', some y) ∧ (y = 0 ∨ y = 1) := by
  obtain ⟨_, _, _, _, aT, _⟩ := setTX_ok h
  refine ⟨_, quality_supercritical aT.ge, ?_⟩
  by_cases g : 1 / s'.Rho < e.Vc
  · rw [if_pos g]
    exact Or.inl rfl
  · rw [if_neg g]
    exact Or.inr rfl

/-- `Set(PX)` with a quality outside 0 to 1 is refused, but the temperature is then the lowest one. -/
theorem setPX_refused {p x : ℝ} (h : x > 1 ∨ x < 0) (hm : e.Tmin ≤ e.Tmax) (s : St) :
    setPX e p x s = ({ s with T := e.Tmin }, none) := by
  unfold setPX
  rw [bind_eq]
  unfold setT
  rw [if_pos ⟨le_refl _, hm⟩]
  dsimp only
  rw [if_pos h]
  rfl

/-! ## Properties in the mixture -/

/-- Specific volume read from a mixture is the reciprocal of the density. -/
theorem prop_V {s : St} (h : s.T < e.Tc) (hT : s.T = s.Tslast) (h0 : 0 < s.Rhv) (h1 : s.Rhv ≤ s.Rhf) :
    prop e .V s = (s, some (1 / s.Rho)) := by
  obtain ⟨x, hq, _, _, hx⟩ := quality_range h hT h0 h1
  rw [prop_other (by decide) (by decide) hq]
  congr 1
  by_cases g : s.Rhv < s.Rho ∧ s.Rho < s.Rhf
  · obtain ⟨x0, x1, hv⟩ := hx g.1 g.2
    rw [if_pos ⟨x0, x1⟩]
    simp only [vprop, Option.bind_some, Option.some.injEq]
    rw [hv]
    ring
  · have hx01 : ¬ (0 < x ∧ x < 1) := by
      rw [quality_stored h hT] at hq
      simp only [Prod.mk.injEq, Option.some.injEq, true_and] at hq
      by_cases g1 : s.Rho ≤ s.Rhv
      · rw [if_pos g1] at hq
        rw [← hq]
        norm_num
      · have g2 : s.Rhf ≤ s.Rho := by
          by_contra g2
          exact g ⟨not_le.mp g1, not_le.mp g2⟩
        rw [if_neg g1, if_pos g2] at hq
        rw [← hq]
        norm_num
    rw [if_neg hx01]
    rfl

/-- Enthalpy, entropy and energy of a mixture are the mass averages of the saturated phases. -/
theorem prop_mixture {s : St} (h : s.T < e.Tc) (hT : s.T = s.Tslast) (h0 : 0 < s.Rhv) (h1 : s.Rhv < s.Rho)
    (h2 : s.Rho < s.Rhf) : ∃ x, 0 < x ∧ x < 1 ∧ 1 / s.Rho = (1 - x) / s.Rhf + x / s.Rhv ∧
      prop e .H s = (s, some ((1 - x) * (e.up s.T s.Rhf + s.uoff + e.Pp s.T s.Rhf / s.Rhf) +
        x * (e.up s.T s.Rhv + s.uoff + e.Pp s.T s.Rhv / s.Rhv))) ∧
      prop e .S s = (s, some ((1 - x) * (e.sp s.T s.Rhf + s.soff) + x * (e.sp s.T s.Rhv + s.soff))) ∧
      prop e .U s = (s, some ((1 - x) * (e.up s.T s.Rhf + s.uoff) + x * (e.up s.T s.Rhv + s.uoff))) := by
  obtain ⟨x, hq, _, _, hx⟩ := quality_range h hT h0 (le_trans h1.le h2.le)
  obtain ⟨x0, x1, hv⟩ := hx h1 h2
  refine ⟨x, x0, x1, hv, ?_, ?_, ?_⟩ <;> rw [prop_other (by decide) (by decide) hq, if_pos ⟨x0, x1⟩] <;> rfl

/-- Enthalpy, entropy and energy above the critical temperature. -/
theorem prop_supercritical {s : St} (h : e.Tc ≤ s.T) :
    prop e .H s = (s, some (e.up s.T s.Rho + s.uoff + e.Pp s.T s.Rho / s.Rho)) ∧
      prop e .S s = (s, some (e.sp s.T s.Rho + s.soff)) ∧ prop e .U s = (s, some (e.up s.T s.Rho + s.uoff)) ∧
      prop e .V s = (s, some (1 / s.Rho)) := by
  have hx : ¬ ((0 : ℝ) < (if 1 / s.Rho < e.Vc then 0 else 1) ∧
      (if 1 / s.Rho < e.Vc then (0 : ℝ) else 1) < 1) := by
    by_cases g : 1 / s.Rho < e.Vc
    · rw [if_pos g]
      norm_num
    · rw [if_neg g]
      norm_num
  refine ⟨?_, ?_, ?_, ?_⟩ <;>
    rw [prop_other (by decide) (by decide) (quality_supercritical h), if_neg hx] <;> rfl

end Verif.Tpx
