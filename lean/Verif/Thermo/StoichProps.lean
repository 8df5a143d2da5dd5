import Verif.Thermo.Stoich
import Mathlib.Analysis.Calculus.Deriv.Add
import Mathlib.Analysis.Calculus.Deriv.Mul
import Mathlib.Analysis.Calculus.Deriv.MeanValue
import Mathlib.Analysis.SpecialFunctions.Log.Deriv
import Mathlib.Analysis.Complex.ExponentialBounds
import Mathlib.Tactic.FieldSimp
import Mathlib.Tactic.Linarith
import Mathlib.Tactic.LinearCombination
import Mathlib.Tactic.Positivity

/-!
# Properties of pure condensed substances
-/

namespace Verif.Stoich

open Filter Topology

variable (D : Sub)

/-- The cached values belong to the cached temperature. -/
def Ok (x : St) : Prop := x.h0 = D.h x.tlast ∧ x.s0 = D.s x.tlast ∧ x.cp0 = D.cp x.tlast

theorem update_spec (x : St) (h : Ok D x) :
    (updateThermo D x).h0 = D.h x.T ∧ (updateThermo D x).s0 = D.s x.T ∧
    (updateThermo D x).cp0 = D.cp x.T ∧ Ok D (updateThermo D x) ∧
    (updateThermo D x).T = x.T ∧ (updateThermo D x).P = x.P := by
  unfold updateThermo
  by_cases ht : x.tlast ≠ x.T
  · rw [if_pos ht]; exact ⟨rfl, rfl, rfl, ⟨rfl, rfl, rfl⟩, rfl, rfl⟩
  · rw [if_neg ht]
    have ht' : x.tlast = x.T := not_not.1 ht
    obtain ⟨a, b, c⟩ := h
    rw [ht'] at a b c
    exact ⟨a, b, c, ⟨by rw [ht']; exact a, by rw [ht']; exact b, by rw [ht']; exact c⟩, rfl, rfl⟩

theorem at_ok (T P : ℝ) : Ok D (at' D T P) ∧ (at' D T P).T = T ∧ (at' D T P).P = P := by
  unfold at' updateThermo
  have : T - 1 ≠ T := by intro h; linarith
  rw [if_pos this]
  exact ⟨⟨rfl, rfl, rfl⟩, rfl, rfl⟩

/-- The values by temperature and pressure alone, whatever the cache. -/
theorem values (hR : D.R ≠ 0) (x : St) (h : Ok D x) (hT : x.T ≠ 0) :
    enthalpy D x = D.R * (D.h x.T * x.T) + (x.P - D.p0) * (D.W / D.ρ) ∧
    intEnergy D x = D.R * (D.h x.T * x.T) - D.p0 * (D.W / D.ρ) ∧
    entropy D x = D.R * D.s x.T ∧
    gibbs D x = D.R * (D.h x.T * x.T) - D.R * x.T * D.s x.T + (x.P - D.p0) * (D.W / D.ρ) ∧
    cp D x = D.R * D.cp x.T ∧ cv D x = D.R * D.cp x.T ∧ volume D = D.W / D.ρ := by
  obtain ⟨a, b, c, -⟩ := update_spec D x h
  unfold enthalpy intEnergy entropy gibbs cv cvGen cp gibbsRT enthalpyRT intEnergyRT entropyR cpR
    molarDensity volume
  rw [a, b, c, div_div_eq_mul_div, div_div_eq_mul_div]
  refine ⟨?_, ?_, ?_, ?_, ?_, ?_, rfl⟩
  · field_simp
  · field_simp
  · ring
  · field_simp; ring
  · ring
  · simp; ring

/-- `u = h - P V`, `g = h - T s`, `cv = cp`. -/
theorem identities (hR : D.R ≠ 0) (x : St) (h : Ok D x) (hT : x.T ≠ 0) :
    intEnergy D x = enthalpy D x - x.P * volume D ∧
    gibbs D x = enthalpy D x - x.T * entropy D x ∧ cv D x = cp D x := by
  obtain ⟨a, b, c, d, e, f, g⟩ := values D hR x h hT
  rw [a, b, c, d, e, f, g]
  refine ⟨?_, ?_, rfl⟩ <;> ring

example : ∃ (D : Sub) (x : St), D.R ≠ 0 ∧ Ok D x ∧ x.T ≠ 0 :=
  ⟨⟨8314, 1, 1, 1, fun _ => 0, fun _ => 0, fun _ => 0⟩, ⟨300, 1, 300, 0, 0, 0⟩, by norm_num,
    ⟨rfl, rfl, rfl⟩, by norm_num⟩

/-- The reference thermodynamics belong together. -/
structure Consistent (D : Sub) : Prop where
  h : ∀ T, 0 < T → HasDerivAt (fun T => D.h T * T) (D.cp T) T
  s : ∀ T, 0 < T → HasDerivAt D.s (D.cp T / T) T

theorem derivs (hD : Consistent D) (hR : D.R ≠ 0) (T P : ℝ) (hT : 0 < T) :
    HasDerivAt (fun T => gibbs D (at' D T P)) (-entropy D (at' D T P)) T ∧
    HasDerivAt (fun P => gibbs D (at' D T P)) (volume D) P ∧
    HasDerivAt (fun T => enthalpy D (at' D T P)) (cp D (at' D T P)) T ∧
    HasDerivAt (fun T => intEnergy D (at' D T P)) (cv D (at' D T P)) T ∧
    HasDerivAt (fun T => entropy D (at' D T P)) (cp D (at' D T P) / T) T := by
  have val : ∀ T P : ℝ, T ≠ 0 → _ := fun T P h => values D hR (at' D T P) (at_ok D T P).1
    (by rw [(at_ok D T P).2.1]; exact h)
  simp only [(at_ok D _ _).2.1, (at_ok D _ _).2.2] at val
  obtain ⟨v1, v2, v3, v4, v5, v6, v7⟩ := val T P hT.ne'
  have ev : ∀ᶠ T' in 𝓝 T, 0 < T' := lt_mem_nhds hT
  refine ⟨?_, ?_, ?_, ?_, ?_⟩
  · have := (((hD.h T hT).const_mul D.R).fun_sub
      (((hasDerivAt_id' T).const_mul D.R).fun_mul (hD.s T hT))).add_const
      ((P - D.p0) * (D.W / D.ρ))
    rw [v3]
    refine (this.congr_deriv ?_).congr_of_eventuallyEq ?_
    · field_simp; ring
    · filter_upwards [ev] with T' h
      exact (val T' P h.ne').2.2.2.1
  · have : HasDerivAt (fun P => D.R * (D.h T * T) - D.R * T * D.s T + (P - D.p0) * (D.W / D.ρ))
        (1 * (D.W / D.ρ)) P :=
      (((hasDerivAt_id' P).sub_const D.p0).mul_const _).const_add _
    rw [v7]
    refine (this.congr_deriv (one_mul _)).congr_of_eventuallyEq (Eventually.of_forall fun P' => ?_)
    exact (val T P' hT.ne').2.2.2.1
  · rw [v5]
    refine (((hD.h T hT).const_mul D.R).add_const ((P - D.p0) * (D.W / D.ρ))).congr_of_eventuallyEq ?_
    filter_upwards [ev] with T' h
    exact (val T' P h.ne').1
  · rw [v6]
    refine (((hD.h T hT).const_mul D.R).sub_const (D.p0 * (D.W / D.ρ))).congr_of_eventuallyEq ?_
    filter_upwards [ev] with T' h
    exact (val T' P h.ne').2.1
  · rw [v5, mul_div_assoc]
    refine ((hD.s T hT).const_mul D.R).congr_of_eventuallyEq ?_
    filter_upwards [ev] with T' h
    exact (val T' P h.ne').2.2.1

/-- General relation of the heat capacities. -/
theorem cvGen_spec (c al be V T : ℝ) :
    (be ≠ 0 → cvGen c al be V T = c - al ^ 2 * V * T / be) ∧ cvGen c al 0 V T = c := by
  unfold cvGen
  constructor
  · intro h; rw [if_pos h]; ring
  · simp

/-! ## Changed thermodynamic data -/

/-- After the data are changed and the cache is invalidated the new data are used, unless the
temperature is 0.1234 K above the last one. -/
theorem invalidate_spec_partial (D' : Sub) (x : St) (T : ℝ) (h : T ≠ x.tlast + 1234 / 10000) :
    entropy D' { invalidate x with T := T } = D'.R * D'.s T := by
  unfold entropy entropyR updateThermo invalidate
  rw [if_pos (Ne.symm h)]
  ring

theorem invalidate_stale : ∃ (D D' : Sub) (x : St) (T : ℝ), Ok D x ∧ 0 < x.T ∧ 0 < T ∧
    x.tlast = x.T ∧ entropy D' { invalidate x with T := T } ≠ D'.R * D'.s T := by
  refine ⟨⟨1, 1, 1, 1, fun _ => 0, fun _ => 0, fun _ => 0⟩,
    ⟨1, 1, 1, 1, fun _ => 0, fun _ => 1, fun _ => 0⟩, ⟨300, 1, 300, 0, 0, 0⟩, 300 + 1234 / 10000,
    ⟨rfl, rfl, rfl⟩, by norm_num, by norm_num, rfl, ?_⟩
  norm_num [entropy, entropyR, updateThermo, invalidate]

/-! ## Setting the state -/

theorem clip_bounds (v : ℝ) : |clip v (-100) 100| ≤ 100 := by
  unfold clip
  rw [abs_le]
  exact ⟨le_max_left _ _, max_le (by norm_num) (min_le_left _ _)⟩

theorem clip_id {v : ℝ} (h : |clip v (-100) 100| < 100) : clip v (-100) 100 = v := by
  unfold clip at h ⊢
  rw [abs_lt] at h
  rcases le_total 100 v with h1 | h1
  · rw [min_eq_left h1, max_eq_right (by norm_num)] at h
    exact absurd h.2 (lt_irrefl _)
  · rw [min_eq_right h1] at h ⊢
    rcases le_total v (-100) with h2 | h2
    · rw [max_eq_left h2] at h
      exact absurd h.1 (lt_irrefl _)
    · exact max_eq_right h2

theorem clip_small {v : ℝ} (h : |v| ≤ 100) : clip v (-100) 100 = v := by
  unfold clip
  rw [abs_le] at h
  rw [min_eq_right h.2, max_eq_right h.1]

/-- The temperature left is positive, and if the call returned it is one small step from the
temperature at which the step was computed. -/
theorem loop_spec (f : ℝ → ℝ) (tol : ℝ) (n : ℕ) (T : ℝ) (hT : 0 < T) :
    0 < (loop f tol n T).1 ∧ ((loop f tol n T).2 = true → ∃ T0, 0 < T0 ∧
      (loop f tol n T).1 = T0 + clip (f T0) (-100) 100 ∧
      |clip (f T0) (-100) 100| < tol * (loop f tol n T).1) := by
  induction n generalizing T with
  | zero => exact ⟨hT, fun h => by simp [loop] at h⟩
  | succ n ih =>
    unfold loop
    simp only []
    split_ifs with h1 h2
    · exact ⟨hT, fun h => by simp at h⟩
    · have hp : 0 < T + clip (f T) (-100) 100 := not_le.1 h1
      refine ⟨hp, fun _ => ⟨T, hT, rfl, ?_⟩⟩
      rw [abs_div, abs_of_pos hp, div_lt_iff₀ hp] at h2
      exact h2
    · exact ih _ (not_le.1 h1)

/-- How well the target is met: by the Lipschitz constant of the heat capacity and the tolerance.
`H` is the property by mass and `c` its derivative. -/
theorem loop_error (H c : ℝ → ℝ) (L target tol T : ℝ) (n : ℕ) (hT : 0 < T)
    (hH : ∀ T, 0 < T → HasDerivAt H (c T) T) (hc : ∀ T, 0 < T → c T ≠ 0)
    (hL : ∀ a b, 0 < a → 0 < b → |c a - c b| ≤ L * |a - b|) (hL0 : 0 ≤ L)
    (r : ℝ) (hr : loop (fun T => (target - H T) / c T) tol n T = (r, true)) (ht : tol * r ≤ 100) :
    |H r - target| ≤ L * (tol * r) ^ 2 := by
  obtain ⟨hpos, hs⟩ := loop_spec (fun T => (target - H T) / c T) tol n T hT
  rw [hr] at hpos hs
  obtain ⟨T0, h0, e, hlt⟩ := hs rfl
  simp only at hpos e hlt
  have hu := clip_id (lt_of_lt_of_le hlt ht)
  rw [hu] at e hlt
  set dt := (target - H T0) / c T0 with hdt
  have htar : target = H T0 + c T0 * dt := by
    rw [hdt, mul_div_cancel₀ _ (hc T0 h0)]; ring
  have mv : ∃ ξ, 0 < ξ ∧ |ξ - T0| ≤ |dt| ∧ H r - H T0 = c ξ * dt := by
    rcases lt_trichotomy T0 r with hlt' | heq | hgt
    · obtain ⟨ξ, hξ, hs⟩ := exists_hasDerivAt_eq_slope H c hlt'
        (fun x hx => (hH x (by linarith [hx.1])).continuousAt.continuousWithinAt)
        (fun x hx => hH x (by linarith [hx.1]))
      refine ⟨ξ, by linarith [hξ.1], ?_, ?_⟩
      · have hd : dt = r - T0 := by rw [e]; ring
        rw [hd, abs_of_pos (by linarith [hξ.1]), abs_of_pos (by linarith)]
        linarith [hξ.2]
      · have hd : dt = r - T0 := by rw [e]; ring
        have hn : r - T0 ≠ 0 := by linarith
        rw [hs, hd]; field_simp
    · refine ⟨T0, h0, by simp, ?_⟩
      have hd : dt = 0 := by rw [← heq] at e; linarith
      rw [hd, heq]; ring
    · obtain ⟨ξ, hξ, hs⟩ := exists_hasDerivAt_eq_slope H c hgt
        (fun x hx => (hH x (by linarith [hx.1])).continuousAt.continuousWithinAt)
        (fun x hx => hH x (by linarith [hx.1]))
      have hd : dt = r - T0 := by rw [e]; ring
      refine ⟨ξ, by linarith [hξ.1], ?_, ?_⟩
      · rw [hd, abs_of_neg (by linarith [hξ.2]), abs_of_neg (by linarith)]
        linarith [hξ.1]
      · have hn : T0 - r ≠ 0 := by linarith
        rw [hs, hd]; field_simp; ring
  obtain ⟨ξ, hξ, hb, hm⟩ := mv
  have : H r - target = (c ξ - c T0) * dt := by rw [htar]; linear_combination hm
  rw [this, abs_mul]
  have b1 := hL ξ T0 hξ h0
  have b2 : L * |ξ - T0| ≤ L * |dt| := mul_le_mul_of_nonneg_left hb hL0
  have hd0 := abs_nonneg dt
  calc |c ξ - c T0| * |dt| ≤ (L * |dt|) * |dt| := by gcongr; linarith
    _ = L * |dt| ^ 2 := by ring
    _ ≤ L * (tol * r) ^ 2 := by gcongr

/-- The same for the enthalpy. -/
theorem setHP_spec (hD : Consistent D) (hR : 0 < D.R) (hW : 0 < D.W) (hcp : ∀ T, 0 < T → 0 < D.cp T)
    (L : ℝ) (hL0 : 0 ≤ L) (hL : ∀ a b, 0 < a → 0 < b → |D.cp a - D.cp b| ≤ L * |a - b|)
    (h p tol T r : ℝ) (hT : 0 < T) (hr : setHP D h p tol T = (r, true)) (ht : tol * r ≤ 100) :
    0 < r ∧ |enthalpy D (at' D r p) / D.W - h| ≤ D.R * L / D.W * (tol * r) ^ 2 := by
  have hc : ∀ T, 0 < T → cp D (at' D T p) / D.W = D.R / D.W * D.cp T := by
    intro T hT
    have := (values D hR.ne' (at' D T p) (at_ok D T p).1
      (by rw [(at_ok D T p).2.1]; exact hT.ne')).2.2.2.2.1
    rw [this, (at_ok D T p).2.1]; ring
  constructor
  · have := (loop_spec (fun T => (h - enthalpy D (at' D T p) / D.W) / (cp D (at' D T p) / D.W)) tol 50
      T hT).1
    unfold setHP at hr
    rwa [hr] at this
  · refine loop_error (fun T => enthalpy D (at' D T p) / D.W) (fun T => cp D (at' D T p) / D.W)
      (D.R * L / D.W) h tol T 50 hT ?_ ?_ ?_ (by positivity) r hr ht
    · intro T hT
      exact (derivs D hD hR.ne' T p hT).2.2.1.div_const D.W
    · intro T hT
      simp only [hc T hT]
      have := hcp T hT
      positivity
    · intro a b ha hb
      simp only [hc a ha, hc b hb]
      rw [← mul_sub, abs_mul, abs_of_pos (by positivity)]
      calc D.R / D.W * |D.cp a - D.cp b| ≤ D.R / D.W * (L * |a - b|) := by
            gcongr; exact hL a b ha hb
        _ = _ := by ring

/-- With constant heat capacity the step is exact. -/
theorem loop_const (Ts tol T : ℝ) (hs : 0 < Ts) (hT : 0 < T) (ht : 0 < tol)
    (htol : tol * max T Ts ≤ 100) (n : ℕ) (hn : |Ts - T| ≤ 100 * n) :
    loop (fun T => Ts - T) tol (n + 1) T = (Ts, true) := by
  induction n generalizing T with
  | zero =>
    have : T = Ts := by
      have := abs_nonpos_iff.1 (by simpa using hn : |Ts - T| ≤ 0)
      linarith
    subst this
    unfold loop
    simp only [sub_self]
    rw [clip_small (by norm_num), add_zero, if_neg (not_le.2 hT), if_pos (by simpa using ht)]
  | succ n ih =>
    have fin : ∀ m, loop (fun T => Ts - T) tol (m + 1) Ts = (Ts, true) := by
      intro m
      unfold loop
      simp only [sub_self]
      rw [clip_small (by norm_num), add_zero, if_neg (not_le.2 hs), if_pos (by simpa using ht)]
    rw [loop]
    rcases le_or_gt |Ts - T| 100 with h | h
    · rw [clip_small h]
      have e : T + (Ts - T) = Ts := by ring
      rw [e, if_neg (not_le.2 hs)]
      split_ifs
      · rfl
      · exact fin n
    · push_cast at hn
      rcases le_total T Ts with hle | hle
      · rw [abs_of_nonneg (by linarith)] at h hn
        have hc : clip (Ts - T) (-100) 100 = 100 := by
          unfold clip; rw [min_eq_left h.le, max_eq_right (by norm_num)]
        have hp : 0 < T + 100 := by linarith
        rw [hc, if_neg (not_le.2 hp)]
        have hsm : ¬ |100 / (T + 100)| < tol := by
          rw [abs_of_pos (by positivity), not_lt, le_div_iff₀ hp]
          calc tol * (T + 100) ≤ tol * max T Ts := by
                gcongr; exact le_trans (by linarith) (le_max_right _ _)
            _ ≤ 100 := htol
        rw [if_neg hsm]
        refine ih _ hp ?_ ?_
        · refine le_trans ?_ htol
          exact mul_le_mul_of_nonneg_left
            (max_le (le_trans (by linarith) (le_max_right _ _)) (le_max_right _ _)) ht.le
        · rw [abs_of_nonneg (by linarith)]; linarith
      · rw [abs_of_nonpos (by linarith)] at h hn
        have hc : clip (Ts - T) (-100) 100 = -100 := by
          unfold clip
          rw [min_eq_right (by linarith), max_eq_left (by linarith)]
        have hp : 0 < T + -100 := by linarith
        rw [hc, if_neg (not_le.2 hp)]
        have hsm : ¬ |-100 / (T + -100)| < tol := by
          rw [abs_div, abs_of_pos hp, abs_neg, abs_of_pos (by norm_num : (0 : ℝ) < 100), not_lt,
            le_div_iff₀ hp]
          calc tol * (T + -100) ≤ tol * max T Ts := by
                gcongr; exact le_trans (by linarith) (le_max_left _ _)
            _ ≤ 100 := htol
        rw [if_neg hsm]
        refine ih _ hp ?_ ?_
        · refine le_trans ?_ htol
          exact mul_le_mul_of_nonneg_left
            (max_le (le_trans (by linarith) (le_max_left _ _)) (le_max_right _ _)) ht.le
        · rw [abs_of_nonpos (by linarith)]; linarith

/-- Beyond the reach of all passes the call fails, and leaves another temperature. -/
theorem loop_far (Ts tol T : ℝ) (hT : 0 < T) (htol : tol * Ts ≤ 100) (ht : 0 < tol) (n : ℕ)
    (hn : 100 * n < Ts - T) : loop (fun T => Ts - T) tol n T = (T + 100 * n, false) := by
  induction n generalizing T with
  | zero => simp [loop]
  | succ n ih =>
    push_cast at hn
    have hn0 : (0 : ℝ) ≤ n := Nat.cast_nonneg n
    rw [loop]
    have hc : clip (Ts - T) (-100) 100 = 100 := by
      unfold clip; rw [min_eq_left (by linarith), max_eq_right (by norm_num)]
    have hp : 0 < T + 100 := by linarith
    rw [hc, if_neg (not_le.2 hp)]
    have hsm : ¬ |100 / (T + 100)| < tol := by
      rw [abs_of_pos (by positivity), not_lt, le_div_iff₀ hp]
      calc tol * (T + 100) ≤ tol * Ts := by gcongr; linarith
        _ ≤ 100 := htol
    rw [if_neg hsm, ih (T + 100) hp (by linarith)]
    push_cast
    congr 1
    ring

/-- A substance with constant heat capacity `c`, h = c T, s = c ln T. -/
noncomputable def constSub (R W c : ℝ) : Sub :=
  ⟨R, 0, W, 1, fun _ => c, fun T => c * Real.log T, fun _ => c⟩

theorem constSub_consistent (R W c : ℝ) : Consistent (constSub R W c) := by
  constructor
  · intro T _
    have := (hasDerivAt_id' T).const_mul c
    rwa [mul_one] at this
  · intro T hT
    have := (Real.hasDerivAt_log hT.ne').const_mul c
    exact this.congr_deriv (by simp [constSub, div_eq_mul_inv])

/-- setState_HP finds every temperature within 4900 K. -/
theorem setHP_const (R W c p tol T Ts : ℝ) (hR : 0 < R) (hW : 0 < W) (hc : 0 < c) (hT : 0 < T)
    (hs : 0 < Ts) (ht : 0 < tol) (htol : tol * max T Ts ≤ 100) (hd : |Ts - T| ≤ 4900) :
    setHP (constSub R W c) (enthalpy (constSub R W c) (at' (constSub R W c) Ts p) / W) p tol T
      = (Ts, true) := by
  have hv : ∀ T, T ≠ 0 → enthalpy (constSub R W c) (at' (constSub R W c) T p) = R * (c * T) + p * W ∧
      cp (constSub R W c) (at' (constSub R W c) T p) = R * c := by
    intro T h
    have := values (constSub R W c) hR.ne' (at' _ T p) (at_ok _ T p).1
      (by rw [(at_ok _ T p).2.1]; exact h)
    rw [(at_ok _ T p).2.1, (at_ok _ T p).2.2] at this
    exact ⟨by rw [this.1]; simp [constSub], this.2.2.2.2.1⟩
  have key : ∀ n T, 0 < T → loop (fun T =>
      (enthalpy (constSub R W c) (at' (constSub R W c) Ts p) / W
        - enthalpy (constSub R W c) (at' (constSub R W c) T p) / W)
      / (cp (constSub R W c) (at' (constSub R W c) T p) / W)) tol n T
      = loop (fun T => Ts - T) tol n T := by
    intro n
    induction n with
    | zero => intro T _; rfl
    | succ n ih =>
      intro T hT
      have e : (enthalpy (constSub R W c) (at' (constSub R W c) Ts p) / W
        - enthalpy (constSub R W c) (at' (constSub R W c) T p) / W)
        / (cp (constSub R W c) (at' (constSub R W c) T p) / W) = Ts - T := by
        rw [(hv Ts hs.ne').1, (hv T hT.ne').1, (hv T hT.ne').2]
        field_simp
        ring
      rw [loop, loop]
      simp only [e]
      split_ifs with h1 h2
      · rfl
      · rfl
      · exact ih _ (not_le.1 h1)
  have := loop_const Ts tol T hs hT ht htol 49 (by norm_num; exact hd)
  unfold setHP
  rw [show (constSub R W c).W = W from rfl, key 50 T hT]
  exact this

/-- setState_SP throws for a state that exists: from 50 K to the entropy at 10 K. -/
theorem setSP_refuted : ∃ (D : Sub) (p T Ts : ℝ), Consistent D ∧ 0 < T ∧ 0 < Ts ∧
    (∀ T, 0 < T → 0 < D.cp T) ∧ ∀ tol,
    (setSP D (entropy D (at' D Ts p) / D.W) p tol T).2 = false := by
  refine ⟨constSub 1 1 1, 1, 50, 10, constSub_consistent 1 1 1, by norm_num, by norm_num,
    fun _ _ => by norm_num [constSub], fun tol => ?_⟩
  have hv : ∀ T, T ≠ 0 → entropy (constSub 1 1 1) (at' (constSub 1 1 1) T 1) = Real.log T ∧
      cp (constSub 1 1 1) (at' (constSub 1 1 1) T 1) = 1 := by
    intro T h
    have := values (constSub 1 1 1) (by norm_num [constSub]) (at' _ T 1) (at_ok _ T 1).1
      (by rw [(at_ok _ T 1).2.1]; exact h)
    rw [(at_ok _ T 1).2.1] at this
    exact ⟨by rw [this.2.2.1]; simp [constSub], by rw [this.2.2.2.2.1]; simp [constSub]⟩
  have hlog : 1 < Real.log 5 := by
    rw [Real.lt_log_iff_exp_lt (by norm_num)]
    have := Real.exp_one_lt_d9
    linarith
  have hl : Real.log 10 - Real.log 50 = -Real.log 5 := by
    rw [← Real.log_div (by norm_num) (by norm_num), ← Real.log_inv]; norm_num
  unfold setSP loop
  simp only [(hv 10 (by norm_num)).1, (hv 50 (by norm_num)).1, (hv 50 (by norm_num)).2]
  have hst : (Real.log 10 / (constSub 1 1 1).W - Real.log 50 / (constSub 1 1 1).W) * 50
      / (1 / (constSub 1 1 1).W) = -Real.log 5 * 50 := by
    rw [← hl]; norm_num [constSub]
  rw [hst]
  have : clip (-Real.log 5 * 50) (-100) 100 ≤ -50 := by
    unfold clip
    refine max_le (by norm_num) (le_trans (min_le_right _ _) (by linarith))
  rw [if_pos (by linarith)]

/-- Setting the state with a volume is refused for an incompressible substance; for others a
volume of zero is taken as a huge density and a negative one is refused. -/
theorem densityOfV_spec (v : ℝ) : densityOfV false v = none ∧
    densityOfV true v = if v = 0 then some (10 ^ 100) else if 0 < v then some (1 / v) else none := by
  unfold densityOfV
  constructor
  · simp
  · simp only [Bool.true_eq_false, if_false]
    by_cases h0 : v = 0
    · simp [h0]
    · simp only [if_neg h0, one_div_pos]

end Verif.Stoich
