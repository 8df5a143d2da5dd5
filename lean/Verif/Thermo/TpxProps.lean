import Verif.Thermo.Tpx
import Mathlib.Tactic.Linarith
import Mathlib.Tactic.FieldSimp
import Mathlib.Tactic.Ring
import Mathlib.Tactic.NormNum

/-!
# Pure fluids: density iteration, saturation, quality
-/

namespace Verif.Tpx

open Verif

variable {e : Eos}

/-! ## Sequencing -/

theorem bind_eq {α β : Type} (x : M α) (f : α → M β) (s : St) :
    (x >>= f) s = match x s with
      | (s', some a) => f a s'
      | (s', none) => (s', none) := rfl

theorem bind_some {α β : Type} {x : M α} {f : α → M β} {s s' : St} {b : β} :
    (x >>= f) s = (s', some b) ↔ ∃ s1 a, x s = (s1, some a) ∧ f a s1 = (s', some b) := by
  rw [bind_eq]
  rcases h : x s with ⟨s1, _ | a⟩
  · simp
  · constructor
    · intro h2
      exact ⟨s1, a, rfl, h2⟩
    · rintro ⟨s2, a2, h1, h2⟩
      simp only [Prod.mk.injEq, Option.some.injEq] at h1
      obtain ⟨rfl, rfl⟩ := h1
      exact h2

theorem bind_none {α β : Type} {x : M α} {f : α → M β} {s s' : St} :
    (x >>= f) s = (s', none) ↔ x s = (s', none) ∨ ∃ s1 a, x s = (s1, some a) ∧ f a s1 = (s', none) := by
  rw [bind_eq]
  rcases h : x s with ⟨s1, _ | a⟩
  · simp
  · constructor
    · intro h2
      exact Or.inr ⟨s1, a, rfl, h2⟩
    · rintro (h1 | ⟨s2, a2, h1, h2⟩)
      · simp at h1
      · simp only [Prod.mk.injEq, Option.some.injEq] at h1
        obtain ⟨rfl, rfl⟩ := h1
        exact h2

@[simp] theorem pure_eq {α : Type} (a : α) (s : St) : (pure a : M α) s = (s, some a) := rfl
@[simp] theorem get_eq (s : St) : get s = (s, some s) := rfl
@[simp] theorem modify_eq (f : St → St) (s : St) : modify f s = (f s, some ()) := rfl
@[simp] theorem throw_eq {α : Type} (s : St) : (throwM : M α) s = (s, none) := rfl
@[simp] theorem lift_eq {α : Type} (o : Option α) (s : St) : lift o s = (s, o) := rfl

/-! ## Temperature and volume -/

/-- Setting temperature and volume: what is accepted, and the new state. -/
theorem setTV_ok {t v : ℝ} {s s' : St} (h : setTV e t v s = (s', some ())) :
    e.Tmin ≤ t ∧ t ≤ e.Tmax ∧ 0 < v ∧ s' = { s with
      T := t
      Rho := 1 / v } := by
  unfold setTV at h
  rw [bind_some] at h
  obtain ⟨s1, _, h1, h2⟩ := h
  unfold setT at h1
  unfold setV at h2
  split_ifs at h1 with ht
  · simp only [Prod.mk.injEq, and_true] at h1
    subst h1
    split_ifs at h2 with hv
    · simp only [Prod.mk.injEq, and_true] at h2
      subst h2
      exact ⟨ht.1, ht.2, hv, rfl⟩
    · simp at h2
  · simp at h1

theorem setTV_run {t v : ℝ} (s : St) (h1 : e.Tmin ≤ t) (h2 : t ≤ e.Tmax) (h3 : 0 < v) :
    setTV e t v s = ({ s with
      T := t
      Rho := 1 / v }, some ()) := by
  unfold setTV
  rw [bind_eq]
  unfold setT setV
  rw [if_pos ⟨h1, h2⟩]
  simp only
  rw [if_pos h3]

/-- A volume that is not positive is refused, but the temperature has been changed by then. -/
theorem setTV_bad_volume {t v : ℝ} (s : St) (h1 : e.Tmin ≤ t) (h2 : t ≤ e.Tmax) (h3 : v ≤ 0) :
    setTV e t v s = ({ s with T := t }, none) := by
  unfold setTV
  rw [bind_eq]
  unfold setT setV
  rw [if_pos ⟨h1, h2⟩]
  simp only
  rw [if_neg (not_lt.mpr h3)]

/-- A temperature outside the limits is refused without any change. -/
theorem setTV_bad_temperature {t v : ℝ} (s : St) (h : t < e.Tmin ∨ e.Tmax < t) :
    setTV e t v s = (s, none) := by
  unfold setTV
  rw [bind_eq]
  unfold setT
  rw [if_neg]
  rintro ⟨a, b⟩
  rcases h with h | h <;> linarith

/-- The states differ only in density. -/
def Same (s s' : St) : Prop := ∃ r, s' = { s with Rho := r }

theorem Same.refl (s : St) : Same s s := ⟨s.Rho, rfl⟩

theorem Same.trans {a b c : St} (h1 : Same a b) (h2 : Same b c) : Same a c := by
  obtain ⟨r, rfl⟩ := h1
  obtain ⟨q, rfl⟩ := h2
  exact ⟨q, rfl⟩

theorem setTV_same {t v : ℝ} {s s' : St} {o : Option Unit} (ht : s.T = t)
    (h : setTV e t v s = (s', o)) : Same s s' := by
  unfold setTV at h
  rw [bind_eq] at h
  unfold setT setV at h
  by_cases h1 : e.Tmin ≤ t ∧ t ≤ e.Tmax
  · rw [if_pos h1] at h
    simp only at h
    split_ifs at h with h2
    · simp only [Prod.mk.injEq] at h
      rw [← h.1, ← ht]
      exact ⟨1 / v, rfl⟩
    · simp only [Prod.mk.injEq] at h
      rw [← h.1, ← ht]
      exact ⟨s.Rho, rfl⟩
  · rw [if_neg h1] at h
    simp only [Prod.mk.injEq] at h
    rw [← h.1]
    exact Same.refl s

/-! ## Density iteration -/

theorem chooseStep_same {t p : ℝ} {b : Br} {s s' : St} {o : Option Br} (ht : s.T = t)
    (h : chooseStep e t p b s = (s', o)) : Same s s' := by
  unfold chooseStep at h
  by_cases h0 : b.P < 0
  · rw [if_pos h0] at h
    simp only [pure_eq, Prod.mk.injEq] at h
    rw [← h.1]
    exact Same.refl s
  · rw [if_neg h0] at h
    dsimp only at h
    generalize (if b.v ≤ e.Vc then -(0.001 * b.v) else 0.001 * b.v) = dv at h
    rw [bind_eq] at h
    rcases h1 : setTV e t (b.v + dv) s with ⟨s1, _ | u⟩
    · rw [h1] at h
      simp only [Prod.mk.injEq] at h
      rw [← h.1]
      exact setTV_same ht h1
    · rw [h1] at h
      simp only [bind_eq, get_eq] at h
      have := setTV_same ht h1
      split_ifs at h <;> simp only [pure_eq, lift_eq, Prod.mk.injEq] at h <;> rw [← h.1] <;> exact this

theorem tppLoop_same (t p vs : ℝ) : ∀ (n : ℕ) (first : Bool) (b : Br) (s s' : St) (o : Option ℝ),
    s.T = t → tppLoop e t p vs n first b s = (s', o) → Same s s'
  | 0, first, b, s, s', o, ht, h => by
    unfold tppLoop at h
    rw [bind_eq] at h
    rcases h1 : setTV e t vs s with ⟨s1, _ | u⟩ <;> rw [h1] at h <;>
      simp only [throw_eq, Prod.mk.injEq] at h <;> rw [← h.1] <;> exact setTV_same ht h1
  | n + 1, first, b, s, s', o, ht, h => by
    unfold tppLoop at h
    rw [bind_eq] at h
    dsimp only [get_eq] at h
    by_cases h0 : 1e-7 * p ≤ |p - Pp e s| ∨ first = true
    · rw [if_pos h0, bind_eq] at h
      rcases h1 : chooseStep e t p { b with P := Pp e s } s with ⟨s1, _ | b'⟩
      · rw [h1] at h
        simp only [Prod.mk.injEq] at h
        rw [← h.1]
        exact chooseStep_same ht h1
      · rw [h1] at h
        have e1 := chooseStep_same ht h1
        have ht1 : s1.T = t := by
          obtain ⟨r, rfl⟩ := e1
          exact ht
        dsimp only at h
        by_cases h2 : limitStep e p b' = 0
        · rw [if_pos h2] at h
          simp only [throw_eq, Prod.mk.injEq] at h
          rw [← h.1]
          exact e1
        · rw [if_neg h2, bind_eq] at h
          rcases h4 : setTV e t (b'.v + limitStep e p b') s1 with ⟨s2, _ | u⟩
          · rw [h4] at h
            simp only [Prod.mk.injEq] at h
            rw [← h.1]
            exact e1.trans (setTV_same ht1 h4)
          · rw [h4] at h
            have e2 := setTV_same ht1 h4
            have ht2 : s2.T = t := by
              obtain ⟨r, rfl⟩ := e2
              exact ht1
            dsimp only at h
            by_cases h3 : n = 0
            · rw [if_pos h3, bind_eq] at h
              rcases h5 : setTV e t vs s2 with ⟨s3, _ | u⟩ <;> rw [h5] at h <;>
                simp only [throw_eq, Prod.mk.injEq] at h <;> rw [← h.1] <;>
                exact (e1.trans e2).trans (setTV_same ht2 h5)
            · rw [if_neg h3] at h
              exact (e1.trans e2).trans (tppLoop_same t p vs n false _ s2 s' o ht2 h)
    · rw [if_neg h0] at h
      simp only [pure_eq, Prod.mk.injEq] at h
      rw [← h.1]
      exact Same.refl s

/-- Whatever happens, the search for the density changes temperature and density only, and the temperature is the
requested one also after a failure. -/
theorem setTPp_frame {t p : ℝ} {s s' : St} {o : Option Unit} (h : setTPp e t p s = (s', o)) :
    ∃ r, s' = { s with
      T := t
      Rho := r } := by
  unfold setTPp at h
  simp only [bind_eq, get_eq, modify_eq] at h
  rcases h1 : tppLoop e t p (1 / s.Rho) 201 true ⟨false, 1, 0, big, big, 0, 1 / s.Rho, 0, 0⟩ { s with T := t }
    with ⟨s1, _ | v⟩
  · rw [h1] at h
    simp only [Prod.mk.injEq] at h
    rw [← h.1]
    obtain ⟨r, rfl⟩ := tppLoop_same t p _ _ _ _ _ _ _ rfl h1
    exact ⟨r, rfl⟩
  · rw [h1] at h
    simp only at h
    obtain ⟨r, rfl⟩ := tppLoop_same t p _ _ _ _ _ _ _ rfl h1
    obtain ⟨q, rfl⟩ := setTV_same (t := t) rfl h
    exact ⟨q, rfl⟩

theorem tppLoop_ok (t p vs : ℝ) : ∀ (n : ℕ) (first : Bool) (b : Br) (s s' : St) (v : ℝ),
    s.T = t → s.Rho = 1 / b.v → tppLoop e t p vs n first b s = (s', some v) →
      s'.T = t ∧ s'.Rho = 1 / v ∧ |p - e.Pp t s'.Rho| < 1e-7 * p
  | 0, first, b, s, s', v, ht, hr, h => by
    unfold tppLoop at h
    rw [bind_some] at h
    obtain ⟨s1, _, _, h2⟩ := h
    simp at h2
  | n + 1, first, b, s, s', v, ht, hr, h => by
    unfold tppLoop at h
    rw [bind_eq] at h
    dsimp only [get_eq] at h
    by_cases h0 : 1e-7 * p ≤ |p - Pp e s| ∨ first = true
    · rw [if_pos h0, bind_some] at h
      obtain ⟨s1, b', h1, h⟩ := h
      have ht1 : s1.T = t := by
        obtain ⟨r, rfl⟩ := chooseStep_same ht h1
        exact ht
      by_cases h2 : limitStep e p b' = 0
      · rw [if_pos h2] at h
        simp at h
      · rw [if_neg h2, bind_some] at h
        obtain ⟨s2, _, h4, h⟩ := h
        by_cases h3 : n = 0
        · rw [if_pos h3, bind_some] at h
          obtain ⟨s3, _, h5, h⟩ := h
          simp at h
        · rw [if_neg h3] at h
          obtain ⟨_, _, hv, rfl⟩ := setTV_ok h4
          exact tppLoop_ok t p vs n false _ _ s' v rfl rfl h
    · rw [if_neg h0] at h
      simp only [pure_eq, Prod.mk.injEq, Option.some.injEq] at h
      obtain ⟨rfl, rfl⟩ := h
      push Not at h0
      refine ⟨ht, hr, ?_⟩
      have := h0.1
      unfold Pp at this
      rw [ht] at this
      exact this

/-- A density found reproduces the pressure to seven digits at the requested temperature; it is positive and
nothing but temperature and density is changed. -/
theorem setTPp_ok {t p : ℝ} {s s' : St} (h : setTPp e t p s = (s', some ())) :
    |p - e.Pp t s'.Rho| < 1e-7 * p ∧ 0 < s'.Rho ∧ e.Tmin ≤ t ∧ t ≤ e.Tmax ∧
      s' = { s with
        T := t
        Rho := s'.Rho } := by
  have hf := setTPp_frame h
  unfold setTPp at h
  rw [bind_some] at h
  obtain ⟨s0, a, h0, h⟩ := h
  simp only [get_eq, Prod.mk.injEq, Option.some.injEq] at h0
  obtain ⟨rfl, rfl⟩ := h0
  rw [bind_some] at h
  obtain ⟨s1, _, h1, h⟩ := h
  simp only [modify_eq, Prod.mk.injEq, and_true] at h1
  subst h1
  rw [bind_some] at h
  obtain ⟨s2, v, h2, h⟩ := h
  obtain ⟨a1, a2, a3⟩ := tppLoop_ok t p _ _ _ _ _ _ _ rfl (by simp) h2
  obtain ⟨b1, b2, b3, rfl⟩ := setTV_ok h
  refine ⟨?_, by positivity, b1, b2, ?_⟩
  · simpa [← a2] using a3
  · obtain ⟨r, hr⟩ := hf
    rw [hr]

/-- A pressure that is not positive is never reached. -/
theorem setTPp_nonpositive {t p : ℝ} (hp : p ≤ 0) (s : St) : (setTPp e t p s).2 = none := by
  rcases h : setTPp e t p s with ⟨s', _ | u⟩
  · rfl
  · have := (setTPp_ok h).1
    have := abs_nonneg (p - e.Pp t s'.Rho)
    linarith

/-- A step changes the volume by at most a fifth, by at most a tenth below twice the critical volume, and by at
most a twentieth below seven tenths of it. -/
theorem limitStep_bound {p : ℝ} {b : Br} (hv : 0 < b.v) :
    |limitStep e p b| ≤ 0.2 * b.v ∧ (b.v < 2 * e.Vc → |limitStep e p b| ≤ 0.1 * b.v) ∧
      (b.v < 2 * e.Vc → b.v < 0.7 * e.Vc → |limitStep e p b| ≤ 0.05 * b.v) := by
  have key : ∀ d m : ℝ, 0 ≤ m → |if m < |d| then d * (m / |d|) else d| ≤ m := by
    intro d m hm
    split_ifs with h
    · have hd : 0 < |d| := lt_of_le_of_lt hm h
      rw [abs_mul, abs_div, abs_abs, abs_of_nonneg hm]
      rw [mul_div_assoc', mul_comm, mul_div_assoc, div_self hd.ne', mul_one]
    · exact not_lt.mp h
  unfold limitStep
  simp only
  generalize (if b.kbr = true ∧ (b.v + b.dv < b.Vmin ∨ b.v + b.dv > b.Vmax) then
      b.Vmin + (p - b.Pmin) * (b.Vmax - b.Vmin) / (b.Pmax - b.Pmin) - b.v else b.dv) = d
  refine ⟨?_, fun h1 => ?_, fun h1 h2 => ?_⟩
  · refine le_trans (key d _ ?_) ?_ <;> split_ifs <;> nlinarith
  · rw [if_pos h1]
    refine le_trans (key d _ ?_) ?_ <;> split_ifs <;> nlinarith
  · rw [if_pos h1, if_pos h2]
    refine le_trans (key d _ ?_) ?_ <;> nlinarith

/-- The next volume stays positive. -/
theorem limitStep_positive {p : ℝ} {b : Br} (hv : 0 < b.v) : 0.8 * b.v ≤ b.v + limitStep e p b := by
  have := (limitStep_bound (e := e) (p := p) hv).1
  have := neg_abs_le (limitStep e p b)
  linarith

/-- A starting density that has exactly the requested pressure is reported as a failure (the loop is entered at
least once and then refuses a step of zero), and the density is left off by a thousandth of the volume. -/
theorem exact_start_fails {t p : ℝ} {s : St} (hr : 0 < s.Rho) (h1 : e.Tmin ≤ t) (h2 : t ≤ e.Tmax)
    (hp : 0 ≤ p) (hP : e.Pp t s.Rho = p) (hb : 1 / s.Rho < big) (hc : 1 / s.Rho ≤ e.Vc)
    (hs : p < e.Pp t (1 / (0.999 * (1 / s.Rho)))) :
    setTPp e t p s = ({ s with
      T := t
      Rho := 1 / (0.999 * (1 / s.Rho)) }, none) := by
  have hv : 0 < 1 / s.Rho := by positivity
  have e1 : 1 / s.Rho + -(0.001 * (1 / s.Rho)) = 0.999 * (1 / s.Rho) := by ring
  have hd : (Pp e { s with
      T := t
      Rho := 1 / (0.999 * (1 / s.Rho)) } - p) / (-(0.001 * (1 / s.Rho))) < 0 :=
    div_neg_of_pos_of_neg (by unfold Pp; linarith) (by nlinarith)
  have hch : chooseStep e t p ⟨false, 1, 0, big, big, 0, 1 / s.Rho, p, 0⟩ { s with T := t } =
      ({ s with
        T := t
        Rho := 1 / (0.999 * (1 / s.Rho)) },
       some ⟨false, 1, 0, big, big, 0, 1 / s.Rho, p, 0⟩) := by
    unfold chooseStep
    rw [if_neg (not_lt.mpr hp)]
    simp only [bind_eq]
    rw [if_pos hc, e1, setTV_run _ h1 h2 (by positivity)]
    dsimp only [get_eq]
    rw [if_neg (not_lt.mpr hd.le)]
    unfold bracketStep
    simp only [lift_eq, gt_iff_lt, lt_irrefl, false_and, if_false]
    rw [if_neg hv.ne', if_neg hb.ne, if_neg (by unfold big; norm_num), if_neg hd.ne]
    simp
  have hl : limitStep e p ⟨false, 1, 0, big, big, 0, 1 / s.Rho, p, 0⟩ = 0 := by
    unfold limitStep
    simp
  unfold setTPp
  simp only [bind_eq, get_eq, modify_eq]
  unfold tppLoop
  simp only [bind_eq, get_eq, Pp, hP, or_true, if_true]
  rw [hch]
  simp only [hl, if_true, throw_eq]

/-! ## Saturation -/

/-- Gibbs function of a single phase as `update_sat` uses it. -/
noncomputable def gibbs (e : Eos) (s : St) (t r : ℝ) : ℝ :=
  e.up t r + s.uoff + e.Pp t r / r - t * (e.sp t r + s.soff)

/-- The two densities of a saturated state. -/
structure Saturated (e : Eos) (s : St) : Prop where
  order : s.Rhv ≤ s.Rhf
  pos : 0 < s.Rhv
  gibbs : |gibbs e s s.T s.Rhv - gibbs e s s.T s.Rhf| < 0.001
  liquid : |s.Pst - e.Pp s.T s.Rhf| < 1e-7 * s.Pst
  vapor : |s.Pst - e.Pp s.T s.Rhv| < 1e-7 * s.Pst

theorem satTrial_ok {first : Bool} {pp dg : ℝ} {s s' : St} (h : satTrial e first pp s = (s', some dg)) :
    s'.Rhv ≤ s'.Rhf ∧ 0 < s'.Rhv ∧ gibbs e s s.T s'.Rhv - gibbs e s s.T s'.Rhf = dg ∧
      |pp - e.Pp s.T s'.Rhf| < 1e-7 * pp ∧ |pp - e.Pp s.T s'.Rhv| < 1e-7 * pp ∧
      s' = { s with
        Rho := s'.Rho
        Rhf := s'.Rhf
        Rhv := s'.Rhv } := by
  unfold satTrial at h
  simp only [bind_some, get_eq, lift_eq, modify_eq, Prod.mk.injEq, Option.some.injEq] at h
  obtain ⟨_, _, ⟨rfl, rfl⟩, _, rl, ⟨rfl, hl⟩, _, _, ⟨rfl, -⟩, s3, _, h3, _, _, ⟨rfl, -⟩, _, _, ⟨rfl, rfl⟩,
    _, _, ⟨rfl, -⟩, s7, _, h7, _, _, ⟨rfl, -⟩, _, _, ⟨rfl, rfl⟩, _, _, ⟨rfl, -⟩, h⟩ := h
  obtain ⟨p3, r3, _, _, f3⟩ := setTPp_ok h3
  obtain ⟨p7, r7, _, _, f7⟩ := setTPp_ok h7
  simp only [pure_eq, Prod.mk.injEq, Option.some.injEq] at h
  obtain ⟨hs, hd⟩ := h
  generalize s3.Rho = rf at *
  generalize s7.Rho = rv at *
  subst f3
  simp only at f7 p7 p3 hd hs
  subst f7
  simp only [hp, sp, up, Pp] at hd hs
  by_cases hsw : rv > rf
  · rw [if_pos hsw] at hs hd
    subst hs
    refine ⟨hsw.le, r3, ?_, p7, p3, rfl⟩
    rw [← hd]
    unfold gibbs
    ring
  · rw [if_neg hsw] at hs hd
    subst hs
    refine ⟨not_lt.mp hsw, r7, ?_, p3, p7, rfl⟩
    rw [← hd]
    unfold gibbs
    ring

theorem satTrial_frame {first : Bool} {pp : ℝ} {s s' : St} {o : Option ℝ} (h : satTrial e first pp s = (s', o)) :
    ∃ r f v, s' = { s with
      Rho := r
      Rhf := f
      Rhv := v } := by
  unfold satTrial at h
  simp only [bind_eq, get_eq, lift_eq, modify_eq] at h
  rcases ho : (if first = true then e.ldens s.T else some s.Rhf) with _ | rl <;> rw [ho] at h
  · simp only [Prod.mk.injEq] at h
    exact ⟨s.Rho, s.Rhf, s.Rhv, h.1.symm⟩
  · simp only at h
    rcases h3 : setTPp e s.T pp { s with Rho := rl } with ⟨s3, _ | u⟩
    · rw [h3] at h
      simp only [Prod.mk.injEq] at h
      rw [← h.1]
      obtain ⟨r, rfl⟩ := setTPp_frame h3
      exact ⟨r, s.Rhf, s.Rhv, rfl⟩
    · rw [h3] at h
      obtain ⟨r, rfl⟩ := setTPp_frame h3
      simp only at h
      generalize hw : (if first = true then pp * e.mw / (Rg * s.T) else s.Rhv) = w at h
      rcases h7 : setTPp e s.T pp { s with
          Rho := w
          Rhf := r } with ⟨s7, _ | u⟩
      · rw [h7] at h
        simp only [Prod.mk.injEq] at h
        rw [← h.1]
        obtain ⟨q, rfl⟩ := setTPp_frame h7
        exact ⟨q, r, s.Rhv, rfl⟩
      · rw [h7] at h
        obtain ⟨q, rfl⟩ := setTPp_frame h7
        simp only [pure_eq, Prod.mk.injEq] at h
        rw [← h.1]
        by_cases hsw : q > r
        · rw [if_pos hsw]
          exact ⟨q, q, r, rfl⟩
        · rw [if_neg hsw]
          exact ⟨q, r, q, rfl⟩

theorem satLoop_ok (rs : ℝ) : ∀ (n : ℕ) (first : Bool) (pp lps : ℝ) (s s' : St),
    satLoop e rs n first pp lps s = (s', some ()) →
      Saturated e s' ∧ s' = { s with
        Rho := rs
        Tslast := s.T
        Rhf := s'.Rhf
        Rhv := s'.Rhv
        Pst := s'.Pst }
  | 0, first, pp, lps, s, s', h => by
    unfold satLoop at h
    simp at h
  | n + 1, first, pp, lps, s, s', h => by
    unfold satLoop at h
    rw [bind_some] at h
    obtain ⟨s1, dg, h1, h⟩ := h
    obtain ⟨a1, a2, a3, a4, a5, a6⟩ := satTrial_ok h1
    by_cases hg : |dg| < 0.001
    · rw [if_pos hg] at h
      simp only [modify_eq, Prod.mk.injEq, and_true] at h
      subst h
      rw [a6]
      refine ⟨⟨a1, a2, ?_, a4, a5⟩, rfl⟩
      unfold gibbs at a3 ⊢
      simpa [a3] using hg
    · rw [if_neg hg, bind_some] at h
      obtain ⟨s2, _, h2, h⟩ := h
      simp only [get_eq, Prod.mk.injEq, Option.some.injEq] at h2
      obtain ⟨rfl, rfl⟩ := h2
      obtain ⟨q1, q2⟩ := satLoop_ok rs n _ _ _ _ _ h
      refine ⟨q1, ?_⟩
      rw [q2, a6]

/-- A successful update of the saturation data at a new temperature: temperature, density and offsets are as
before, the stored temperature is the present one, both densities have the stored pressure to seven digits, their
Gibbs functions agree to a thousandth of a joule per kilogram, and the vapour is not denser than the liquid. -/
theorem updateSat_ok {s s' : St} (hT : s.T ≠ s.Tslast) (h : updateSat e s = (s', some ())) :
    s'.T = s.T ∧ s'.Rho = s.Rho ∧ s'.Tslast = s.T ∧ s'.uoff = s.uoff ∧ s'.soff = s.soff ∧
      s'.Rhv ≤ s'.Rhf ∧ 0 < s'.Rhv ∧
      |(e.up s.T s'.Rhv + s.uoff + e.Pp s.T s'.Rhv / s'.Rhv - s.T * (e.sp s.T s'.Rhv + s.soff)) -
        (e.up s.T s'.Rhf + s.uoff + e.Pp s.T s'.Rhf / s'.Rhf - s.T * (e.sp s.T s'.Rhf + s.soff))| < 0.001 ∧
      |s'.Pst - e.Pp s.T s'.Rhf| < 1e-7 * s'.Pst ∧ |s'.Pst - e.Pp s.T s'.Rhv| < 1e-7 * s'.Pst := by
  unfold updateSat at h
  rw [if_neg hT] at h
  rcases hp : e.Psat s.T with _ | pp
  · simp [hp] at h
  · rw [hp] at h
    simp only at h
    obtain ⟨q1, q2⟩ := satLoop_ok _ _ _ _ _ _ _ h
    have a1 : s'.T = s.T := by rw [q2]
    have a2 : s'.Rho = s.Rho := by rw [q2]
    have a3 : s'.Tslast = s.T := by rw [q2]
    have a4 : s'.uoff = s.uoff := by rw [q2]
    have a5 : s'.soff = s.soff := by rw [q2]
    obtain ⟨b1, b2, b3, b4, b5⟩ := q1
    unfold gibbs at b3
    rw [a1] at b3 b4 b5
    rw [a4, a5] at b3
    exact ⟨a1, a2, a3, a4, a5, b1, b2, b3, b4, b5⟩

/-- At the temperature of the stored data nothing is computed. -/
theorem updateSat_stored {s : St} (hT : s.T = s.Tslast) : updateSat e s = (s, some ()) := by
  unfold updateSat
  rw [if_pos hT]

theorem satLoop_fail (rs : ℝ) : ∀ (n : ℕ) (first : Bool) (pp lps : ℝ) (s s' : St),
    satLoop e rs n first pp lps s = (s', none) →
      ∃ r f v, s' = { s with
        Rho := r
        Rhf := f
        Rhv := v }
  | 0, first, pp, lps, s, s', h => by
    unfold satLoop at h
    simp only [throw_eq, Prod.mk.injEq, and_true] at h
    exact ⟨s.Rho, s.Rhf, s.Rhv, h.symm⟩
  | n + 1, first, pp, lps, s, s', h => by
    unfold satLoop at h
    rw [bind_none] at h
    rcases h with h | ⟨s1, dg, h1, h⟩
    · exact satTrial_frame h
    · obtain ⟨r, f, v, rfl⟩ := satTrial_frame h1
      by_cases hg : |dg| < 0.001
      · rw [if_pos hg] at h
        simp at h
      · rw [if_neg hg, bind_none] at h
        rcases h with h | ⟨s2, a, h2, h⟩
        · simp at h
        · simp only [get_eq, Prod.mk.injEq, Option.some.injEq] at h2
          obtain ⟨rfl, rfl⟩ := h2
          obtain ⟨r', f', v', rfl⟩ := satLoop_fail rs n _ _ _ _ _ h
          exact ⟨r', f', v', rfl⟩

/-- After a failed update temperature, stored temperature and stored pressure are as before; density and the two
saturation densities are not protected. -/
theorem updateSat_fail {s s' : St} (h : updateSat e s = (s', none)) :
    s'.T = s.T ∧ s'.Tslast = s.Tslast ∧ s'.Pst = s.Pst ∧ s'.uoff = s.uoff ∧ s'.soff = s.soff := by
  unfold updateSat at h
  split_ifs at h with hT
  · simp at h
  · rcases hp : e.Psat s.T with _ | pp
    · rw [hp] at h
      simp only [Prod.mk.injEq, and_true] at h
      subst h
      simp
    · rw [hp] at h
      simp only at h
      obtain ⟨r, f, v, rfl⟩ := satLoop_fail _ _ _ _ _ _ _ h
      simp

/-- The saturation data belong to the present temperature, or are not needed. -/
def Fresh (e : Eos) (s : St) : Prop := e.Tc ≤ s.T ∨ s.T = s.Tslast

/-- A successful update keeps temperature, density and offsets and makes the data belong to this temperature. -/
theorem updateSat_keeps {s s' : St} (h : updateSat e s = (s', some ())) :
    s'.T = s.T ∧ s'.Rho = s.Rho ∧ s'.T = s'.Tslast ∧ s'.uoff = s.uoff ∧ s'.soff = s.soff := by
  by_cases hT : s.T = s.Tslast
  · rw [updateSat_stored hT] at h
    simp only [Prod.mk.injEq, and_true] at h
    subst h
    exact ⟨rfl, rfl, hT, rfl, rfl⟩
  · obtain ⟨a1, a2, a3, a4, a5, _⟩ := updateSat_ok hT h
    exact ⟨a1, a2, by rw [a1, a3], a4, a5⟩

end Verif.Tpx
