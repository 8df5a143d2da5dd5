import Verif.Thermo.SetStateRuns
import Mathlib.Analysis.Complex.ExponentialBounds

/-!
# Setting the state of a phase by two properties: failures and dispatch (C77)
-/

namespace Verif.SetState

open Classical

theorem tiny_le_one : (1 : ℝ) / 10 ^ 300 ≤ 1 := by
  rw [div_le_one (by positivity)]; exact one_le_pow₀ (by norm_num)

/-- Heating with constant heat capacity by up to 50 000 K, from a temperature inside the limits;
the target may lie above the maximum. -/
theorem hp_const_heat (c b minT maxT tgt p rtol T0 Tt : ℝ) (uv : Bool) (hc : 0 < c) (h0 : 0 < T0)
    (hp : 1 / 10 ^ 300 ≤ p) (h1 : minT - 0.1 ≤ T0) (h2 : T0 ≤ maxT + 0.1)
    (h3 : T0 ≤ Tt) (h4 : Tt - T0 ≤ 50000) (ht : tgt = c * Tt + b) :
    ∃ T, hpMain (constCp c b minT maxT) tgt p rtol uv T0 = .conv T ∧ T0 ≤ T ∧ T ≤ Tt ∧
      (T = Tt ∨ c * (Tt - T) < rtol * max |tgt| (max c (1 / 10 ^ 5) * T) ∨ 100 < rtol * T) := by
  have hs : start (constCp c b minT maxT) T0 = T0 := start_eq _ _ h1 h2
  unfold hpMain
  simp only [hs, not_lt.2 hp, if_false, ne_eq, not_true_eq_false, if_true]
  refine run_const_heat c b minT maxT tgt rtol _ Tt hc ht (by linarith) 500
    (It.init (constCp c b minT maxT) T0) (inv_init _ _ h0) rfl ?_ h3 h1 ?_ (by norm_num)
  · show c * T0 + b ≤ tgt
    rw [ht]; have := mul_le_mul_of_nonneg_left h3 hc.le; linarith
  · show Tt - T0 ≤ _
    push_cast; linarith

example : ∃ T, hpMain (constCp 1000 0 200 3000) 2000000 101325 (1 / 10 ^ 9) false 300 = .conv T ∧
    300 ≤ T := by
  obtain ⟨T, h1, h2, -⟩ := hp_const_heat 1000 0 200 3000 2000000 101325 (1 / 10 ^ 9) 300 2000 false
    (by norm_num) (by norm_num) (by linarith [tiny_le_one]) (by norm_num) (by norm_num)
    (by norm_num) (by norm_num) (by norm_num)
  exact ⟨T, h1, h2⟩

/-! ## Failure to converge -/

/-- The value reported: always zero for `setState_UV`, since the specific volume is assigned to an
inner variable. -/
theorem run_rep (step : It → StepR) (rep : ℝ) (n : ℕ) :
    ∀ (s : It) (T r : ℝ), run step rep n s = .fail T r → r = rep := by
  induction n with
  | zero => intro s T r e; simp only [run, Res.fail.injEq] at e; exact e.2.symm
  | succ n ih =>
    intro s T r e
    unfold run at e
    cases hs : step s with
    | more s' => rw [hs] at e; exact ih _ _ _ e
    | conv T' => rw [hs] at e; cases e
    | threw T' => rw [hs] at e; cases e

theorem hp_reported (q : Ph) (tgt p rtol T0 T r : ℝ) (uv : Bool)
    (e : hpMain q tgt p rtol uv T0 = .fail T r) : r = if uv then 0 else p := by
  unfold hpMain at e
  simp only at e
  by_cases hp : p < 1 / 10 ^ 300
  · rw [if_pos hp] at e; cases e
  rw [if_neg hp] at e
  by_cases hs : (if start q T0 ≠ T0 then q.set T0 (start q T0) else (true, T0)).1 = true
  · rw [if_pos hs] at e; exact run_rep _ _ _ _ _ _ e
  · rw [if_neg hs] at e; cases e

theorem sp_reported (q : Ph) (tgt p rtol T0 T r : ℝ)
    (e : spMain q tgt p rtol T0 = .fail T r) : r = p := by
  unfold spMain at e
  simp only at e
  split_ifs at e
  all_goals exact run_rep _ _ _ _ _ _ e

/-- A property which does not change with the temperature. -/
noncomputable def flat (maxT : ℝ) : Ph := ⟨fun _ => 0, fun _ => 1, fun _ => True, 200, maxT⟩

theorem run_flat (tgt rtol rep maxT : ℝ) (ht : 100 ≤ tgt) (hr : rtol ≤ 1 / 10 ^ 9)
    (hmax : 0 < maxT + 0.1) (n : ℕ) :
    ∀ (s : It), s.H = 0 → s.C = 1 → s.Htop = 0 → s.Hbot = 0 → s.unst = false → 0 < s.T →
      200 - 0.1 ≤ s.T → s.T + 100 * n ≤ min tgt (10 ^ 6) → s.T + 100 * n ≤ maxT →
      run (hpStep (flat maxT) tgt rtol) rep n s = .fail (s.T + 100 * n) rep := by
  induction n with
  | zero => intro s _ _ _ _ _ _ _ _ _; simp [run]
  | succ n ih =>
    intro s hH hC htop hbot hu hT hTm hle hle2
    have hle' := hle.trans (min_le_left _ _)
    have hle'' := hle.trans (min_le_right _ _)
    push_cast at hle' hle'' hle2
    have hn0 : (0 : ℝ) ≤ n := Nat.cast_nonneg n
    have hn : newton (tgt - s.H) s.C = 100 := by
      rw [hH, hC, newton_pos _ _ one_pos, sub_zero, div_one, min_eq_left ht, max_eq_right]
      norm_num
    have hl : limitH tgt s false (newton (tgt - s.H) s.C) = 100 := by
      rw [hn]; unfold limitH
      rw [if_neg (by norm_num), if_neg (fun k => by linarith [k.1])]
    obtain ⟨T, s1, hT', e, hch, hu1⟩ := hpStep_ok (flat maxT) tgt rtol s
      (fun _ _ => trivial) (fun _ => zero_le_one) hT (by rw [hC]; exact zero_le_one) hu hmax
      (Or.inl (by norm_num [flat]))
    rw [hl, max_eq_left (by linarith)] at hT'
    unfold run
    cases hf : hpStep (flat maxT) tgt rtol s with
    | threw T1 =>
      exfalso; rw [e] at hf; unfold finish at hf; simp only at hf; split_ifs at hf
    | conv T1 =>
      exfalso
      rw [e] at hf
      obtain ⟨rfl, hq⟩ := finish_conv _ _ _ _ _ _ _ _ _ _ hf
      have hTp : 0 < T1 := by linarith
      have htp : 0 < tgt := by linarith
      rcases hq with hq | hq | hq
      · have : (0 : ℝ) = tgt := hq
        linarith
      · have hH0 : (flat maxT).H T1 = 0 := rfl
        rw [hH0, hC] at hq
        have : max |tgt| (max |(1 : ℝ)| (1 / 10 ^ 5) * T1) = tgt := by
          rw [abs_one, max_eq_left (by norm_num : (1 : ℝ) / 10 ^ 5 ≤ 1), one_mul, abs_of_pos htp,
            max_eq_left (by linarith)]
        rw [this, mul_one, sub_zero, div_self htp.ne', abs_one] at hq
        have : (1 : ℝ) / 10 ^ 9 ≤ 1 := by norm_num
        linarith
      · rw [hT', add_sub_cancel_left, abs_div, abs_of_pos (by linarith : 0 < s.T + 100),
          div_lt_iff₀ (by linarith), abs_of_pos (by norm_num : (0:ℝ) < 100)] at hq
        have : rtol * (s.T + 100) ≤ 1 / 10 ^ 9 * 10 ^ 6 :=
          mul_le_mul hr (by linarith) (by linarith) (by norm_num)
        norm_num at this
        linarith
    | more s' =>
      simp only
      have hi' := hf
      rw [e] at hf
      obtain ⟨g0, -, -, g1, g2, g3, -, g4, ga, gb, gz⟩ := finish_more _ _ _ _ _ _ _ _ _ _ hf
      have hH0 : (flat maxT).H T = 0 := rfl
      have ht1 : s1.Htop = 0 := by
        rcases hch.1 with ⟨k, -⟩ | ⟨-, -, -, -, k⟩
        · rw [k]; exact htop
        · rw [k]; rfl
      have hb1 : s1.Hbot = 0 := by
        rcases hch.2 with ⟨k, -⟩ | ⟨-, -, -, -, k⟩
        · rw [k]; exact hbot
        · rw [k]; rfl
      have hz := gz (fun k => by rw [hH0] at k; linarith [k.1])
        (fun k => by rw [hH0, hb1] at k; rcases k.2 with k | k <;> linarith)
      have hcast : s'.T + 100 * n = s.T + 100 * ((n + 1 : ℕ) : ℝ) := by
        rw [g1, hT']; push_cast; ring
      rw [ih s' (by rw [g2]; rfl) (by rw [g3]; rfl) (by rw [hz.2.2.1]; exact ht1)
        (by rw [hz.1]; exact hb1) (g4.trans hu1) (by rw [g1]; linarith) (by rw [g1]; linarith)
        (by rw [hcast]; exact hle) (by rw [hcast]; push_cast; exact hle2), hcast]

/-- Failure to converge leaves the phase at the last temperature, here 50 300 K after a start at
300 K; the volume reported by `setState_UV` is zero though it was one. -/
theorem hp_failure_keeps_last :
    hpMain (flat 100000) 1000000 1 (1 / 10 ^ 9) true 300 = .fail 50300 0 := by
  have hs : start (flat 100000) 300 = 300 := start_eq _ _ (by norm_num [flat]) (by norm_num [flat])
  unfold hpMain
  simp only [hs, not_lt.2 tiny_le_one, if_false, ne_eq, not_true_eq_false, if_true]
  rw [run_flat 1000000 (1 / 10 ^ 9) 0 100000 (by norm_num) (le_refl _) (by norm_num) 500
    (It.init (flat 100000) 300) rfl rfl rfl rfl rfl (by norm_num [It.init])
    (by norm_num [It.init]) (by norm_num [It.init]) (by norm_num [It.init])]
  norm_num [It.init]

/-- A phase with a very large heat capacity just above 300 K (of a melting, say). -/
noncomputable def spike : Ph :=
  ⟨fun T => if T ≤ 300 + 1 / 10 ^ 11 then 10 ^ 13 * (T - 300) else 100 + (T - (300 + 1 / 10 ^ 11)),
   fun T => if T ≤ 300 + 1 / 10 ^ 11 then 10 ^ 13 else 1, fun _ => True, 200, 3000⟩

/-- Convergence is accepted after a small step although the property is far from the target: the
enthalpy 1000 is at about 1200 K, the enthalpy at the temperature returned is below 101. -/
theorem hp_false_convergence :
    hpMain spike 1000 101325 (1 / 10 ^ 9) false 300 = .conv (300 + 1 / 10 ^ 10) ∧
    spike.H (300 + 1 / 10 ^ 10) < 101 ∧ spike.H (1200 + 1 / 10 ^ 11) = 1000 := by
  have hp : ¬ ((101325 : ℝ) < 1 / 10 ^ 300) := not_lt.2 (by linarith [tiny_le_one])
  refine ⟨?_, ?_, ?_⟩
  · have hs : start spike 300 = 300 := start_eq _ _ (by norm_num [spike]) (by norm_num [spike])
    unfold hpMain
    simp only [hs, hp, if_false, ne_eq, not_true_eq_false, if_true]
    rw [show (500 : ℕ) = 499 + 1 from rfl]
    unfold run
    have hH : (It.init spike 300).H = 0 := by norm_num [It.init, spike]
    have hC : (It.init spike 300).C = 10 ^ 13 := by norm_num [It.init, spike]
    have hn : newton (1000 - (It.init spike 300).H) (It.init spike 300).C = 1 / 10 ^ 10 := by
      rw [hH, hC, newton_pos _ _ (by positivity)]; norm_num
    have hl : limitH 1000 (It.init spike 300) false (1 / 10 ^ 10) = 1 / 10 ^ 10 := by
      unfold limitH
      rw [if_neg (by norm_num), if_neg]
      rintro ⟨k, -⟩
      norm_num [It.init, spike] at k
    obtain ⟨T, s1, hT, e, -, -⟩ := hpStep_ok spike 1000 (1 / 10 ^ 9) (It.init spike 300)
      (fun _ _ => trivial) (fun T => by simp only [spike]; split_ifs <;> norm_num)
      (by norm_num [It.init]) (by rw [hC]; positivity) rfl (by norm_num [spike])
      (Or.inl (by norm_num [spike]))
    rw [hn, hl] at hT
    have hT' : T = 300 + 1 / 10 ^ 10 := by
      rw [hT]; show max (300 + 1 / 10 ^ 10) (300 / 3) = _
      rw [max_eq_left (by norm_num)]
    have hHT : spike.H T < 101 := by rw [hT']; norm_num [spike]
    rw [e]
    have : finish 1000 (1 / 10 ^ 9) (It.init spike 300).C 1 s1 T (spike.H T) (spike.C T)
        (T - (It.init spike 300).T) = .conv T := by
      unfold finish
      rw [if_neg (by intro h; rw [h] at hHT; norm_num at hHT)]
      simp only
      rw [if_pos]
      right
      rw [hT']
      norm_num [It.init, abs_of_pos]
    rw [this, hT']
  · norm_num [spike]
  · norm_num [spike]

/-! ## Cold states -/

/-- If the minimum temperature of the phase is zero (or below 0.1 K) and the first Newton step
would lead below it, the check of the minimum itself fails by setting a temperature which is not
positive: an error, although the later limit to a third of the temperature would have been safe. -/
theorem hp_cold_throws (q : Ph) (tgt p rtol T0 : ℝ) (uv : Bool) (hp : 1 / 10 ^ 300 ≤ p)
    (hC : 0 < q.C T0) (hm : q.minTemp ≤ 0.1) (h1 : q.minTemp - 0.1 ≤ T0) (h2 : T0 ≤ q.maxTemp + 0.1)
    (hle : tgt ≤ q.H T0)
    (h3 : T0 + max (-100) ((tgt - q.H T0) / q.C T0) < q.minTemp - 0.1) :
    hpMain q tgt p rtol uv T0 = .threw T0 := by
  have hs : start q T0 = T0 := start_eq _ _ h1 h2
  unfold hpMain
  simp only [hs, not_lt.2 hp, if_false, ne_eq, not_true_eq_false, if_true]
  rw [show (500 : ℕ) = 499 + 1 from rfl]
  unfold run
  have hn : newton (tgt - (It.init q T0).H) (It.init q T0).C =
      max (-100) ((tgt - q.H T0) / q.C T0) := by
    show newton (tgt - q.H T0) (q.C T0) = _
    have : (tgt - q.H T0) / q.C T0 ≤ 0 := div_nonpos_of_nonpos_of_nonneg (by linarith) hC.le
    rw [newton_pos _ _ hC, min_eq_right (by linarith)]
  have hneg : max (-100) ((tgt - q.H T0) / q.C T0) ≤ 0 :=
    max_le (by norm_num) (div_nonpos_of_nonpos_of_nonneg (by linarith) hC.le)
  have hl : limitH tgt (It.init q T0) false (max (-100) ((tgt - q.H T0) / q.C T0)) =
      max (-100) ((tgt - q.H T0) / q.C T0) := by
    unfold limitH
    rw [if_pos (Or.inr ⟨hneg, by simp⟩), if_neg]
    rintro ⟨k, -⟩
    exact not_lt.2 hle k
  have hun : ((It.init q T0).unst || decide ((It.init q T0).C < 0)) = false := by
    show (false || decide (q.C T0 < 0)) = false
    simp [hC.le]
  have hstep : hpStep q tgt rtol (It.init q T0) = .threw T0 := by
    unfold hpStep
    simp only
    rw [hun, hn, hl]
    have a1 : ¬ (q.maxTemp + 0.1 < (It.init q T0).T + max (-100) ((tgt - q.H T0) / q.C T0) ∧
        ¬ ((It.init q T0).ign = true)) := by
      rintro ⟨k, -⟩
      have : q.maxTemp + 0.1 < T0 + max (-100) ((tgt - q.H T0) / q.C T0) := k
      linarith
    rw [if_neg a1]
    have b1 : (It.init q T0).T + max (-100) ((tgt - q.H T0) / q.C T0) < q.minTemp - 0.1 ∧
        ¬ ((It.init q T0).ign = true) := ⟨h3, by simp [It.init]⟩
    simp only [not_true_eq_false, if_false]
    rw [if_pos b1, set_neg q _ _ (by linarith)]
    simp [It.init]
  rw [hstep]

/-- A phase with minimum temperature zero, whose target enthalpy is that at 10 K. -/
noncomputable def cold : Ph :=
  ⟨fun T => if T ≤ 40 then 10 * T else 400 + (T - 40), fun T => if T ≤ 40 then 10 else 1,
    fun _ => True, 0, 3000⟩

theorem hp_cold_witness :
    hpMain cold 100 101325 (1 / 10 ^ 9) false 60 = .threw 60 ∧ cold.H 10 = 100 := by
  refine ⟨?_, by norm_num [cold]⟩
  apply hp_cold_throws
  · linarith [tiny_le_one]
  all_goals norm_num [cold]

/-- Constant heat capacity, entropy `c ln T`. -/
noncomputable def entropyPh (c minT maxT : ℝ) : Ph :=
  ⟨fun T => c * Real.log T, fun _ => c, fun _ => True, minT, maxT⟩

/-- `setState_SP` has no lower limit of the step: from at most 100 K, for constant heat capacity,
every target temperature below `T0 / e` fails with a temperature which is not positive. -/
theorem sp_cold_throws (c minT maxT p rtol T0 Tt : ℝ) (hc : 0 < c) (h0 : 0 < T0) (h100 : T0 ≤ 100)
    (hp : 1 / 10 ^ 300 ≤ p) (h1 : minT - 0.1 ≤ T0) (h2 : T0 ≤ maxT + 0.1)
    (_ht : 0 < Tt) (h3 : Real.log Tt ≤ Real.log T0 - 1) :
    ∃ T, spMain (entropyPh c minT maxT) (c * Real.log Tt) p rtol T0 = .threw T := by
  have hs : start (entropyPh c minT maxT) T0 = T0 := start_eq _ _ h1 h2
  unfold spMain
  simp only [hs, not_lt.2 hp, if_false, ne_eq, not_true_eq_false, if_true]
  rw [show (500 : ℕ) = 499 + 1 from rfl]
  unfold run
  set q := entropyPh c minT maxT with hq
  set s := It.init q T0 with hsdef
  set d := newton ((c * Real.log Tt - s.H) * s.T) s.C with hd
  have hdle : d ≤ -T0 := by
    rw [hd]
    show newton ((c * Real.log Tt - c * Real.log T0) * T0) c ≤ -T0
    rw [newton_pos _ _ hc]
    refine max_le (by linarith) (min_le_of_right_le ?_)
    rw [div_le_iff₀ hc]
    nlinarith [mul_pos hc h0]
  have hl : limitS (c * Real.log Tt) s false d = d := by
    unfold limitS
    rw [if_pos (Or.inr ⟨by linarith, by simp⟩), if_neg]
    rintro ⟨k, -⟩
    have k' : c * Real.log T0 < c * Real.log Tt := k
    have := lt_of_mul_lt_mul_left k' hc.le
    linarith
  have hun : (s.unst || decide (s.C < 0)) = false := by
    show (false || decide (c < 0)) = false
    simp [hc.le]
  rcases spStep_cases q (c * Real.log Tt) rtol s with ⟨T, h⟩ | ⟨s1, cur, T, h, cc, dd, e1, -⟩
  · exact ⟨T, by rw [h]⟩
  · exfalso
    rw [hun, hl] at e1
    unfold innerS at e1
    simp only at e1
    rw [set_neg q cur _ (by show T0 + d ≤ 0; linarith)] at e1
    simp at e1

/-- Instance: constant heat capacity, from 100 K to 20 K. -/
theorem sp_cold_witness (c : ℝ) (hc : 0 < c) :
    ∃ T, spMain (entropyPh c 10 3000) (c * Real.log 20) 101325 (1 / 10 ^ 9) 100 = .threw T := by
  refine sp_cold_throws c 10 3000 101325 (1 / 10 ^ 9) 100 20 hc (by norm_num) (by norm_num)
    (by linarith [tiny_le_one]) (by norm_num) (by norm_num) (by norm_num) ?_
  · have h5 : Real.log 100 - Real.log 20 = Real.log 5 := by
      rw [← Real.log_div (by norm_num) (by norm_num)]; norm_num
    have : (1 : ℝ) ≤ Real.log 5 := by
      rw [Real.le_log_iff_exp_le (by norm_num)]
      linarith [Real.exp_one_lt_d9]
    linarith

/-! ## Temperature and pressure -/

/-- `setState_TP`: success sets both; failure restores temperature and density. -/
theorem setTP_spec (comp : Bool) (dens : ℝ → ℝ → Option ℝ) (T0 ρ0 T p : ℝ) :
    (∀ ρ, 0 < T → dens T p = some ρ → setTP comp dens T0 ρ0 T p = (true, T, ρ, true)) ∧
    ((T ≤ 0 ∨ dens T p = none) → setTP comp dens T0 ρ0 T p = (false, T0, ρ0, comp)) := by
  constructor
  · intro ρ h k; simp [setTP, not_le.2 h, k]
  · intro h
    by_cases hT : T ≤ 0
    · simp [setTP, hT]
    · simp [setTP, hT, h.resolve_left hT]

/-- The error which the caller of an incompressible phase sees is not the original one. -/
theorem setTP_masks (dens : ℝ → ℝ → Option ℝ) (T0 ρ0 p : ℝ) :
    (setTP false dens T0 ρ0 (-1) p).2.2.2 = false := by simp [setTP]

example : setTP true (fun _ _ => none) 300 1 400 5 = (false, 300, 1, true) := by
  rw [(setTP_spec _ _ _ _ _ _).2 (Or.inr rfl)]

/-! ## Properties by name -/

/-- Temperature and pressure have precedence over everything else, whatever other keys there
are (in any order), unless a vapor fraction is given too. -/
theorem dispatch_TP (ks : List String) (hT : "T" ∈ ks) (hP : "P" ∈ ks) :
    dispatch ks = if "Q" ∈ ks then .TPQ else .TP := by
  have : ks ≠ [] := by rintro rfl; simp at hT
  simp [dispatch, this, hT, hP]

/-- The setters for pairs of properties, when no other property is given. -/
theorem dispatch_pairs (ks : List String) (a b : String) (hne : ks ≠ [])
    (hk : ∀ k ∈ ["T", "P", "D", "V", "H", "U", "S", "Q"], k ∈ ks ↔ k = a ∨ k = b) :
    ∀ x ∈ [("T", "P", Act.TP), ("T", "D", .TD), ("T", "V", .TV), ("H", "P", .HP), ("U", "V", .UV),
      ("S", "P", .SP), ("S", "V", .SV), ("S", "T", .ST), ("P", "V", .PV), ("U", "P", .UP),
      ("V", "H", .VH), ("T", "H", .TH), ("S", "H", .SH), ("D", "P", .DP), ("P", "Q", .Psat),
      ("T", "Q", .Tsat)],
      (a, b) = (x.1, x.2.1) → dispatch ks = x.2.2 := by
  simp only [List.mem_cons, List.not_mem_nil, or_false, forall_eq_or_imp, forall_eq] at hk
  obtain ⟨h1, h2, h3, h4, h5, h6, h7, h8⟩ := hk
  intro x hx
  simp only [List.mem_cons, List.not_mem_nil, or_false] at hx
  rcases hx with rfl | rfl | rfl | rfl | rfl | rfl | rfl | rfl | rfl | rfl | rfl | rfl | rfl | rfl |
    rfl | rfl <;>
  · intro e
    simp only [Prod.mk.injEq] at e
    obtain ⟨rfl, rfl⟩ := e
    simp at h1 h2 h3 h4 h5 h6 h7 h8
    simp [dispatch, hne, h1, h2, h3, h4, h5, h6, h7, h8]

example : dispatch ["U", "V"] = .UV :=
  dispatch_pairs ["U", "V"] "U" "V" (by simp) (by simp) ("U", "V", .UV) (by simp) rfl

/-- Other pairs are not recognized: density or internal energy or vapor fraction with enthalpy or
entropy. -/
theorem dispatch_err (ks : List String) (hne : ks ≠ []) (hT : "T" ∉ ks) (hP : "P" ∉ ks)
    (hV : "V" ∉ ks) (h : "S" ∉ ks ∨ "H" ∉ ks) : dispatch ks = .err := by
  rcases h with h | h <;> simp [dispatch, hne, hT, hP, hV, h]

example : dispatch ["D", "H"] = .err := dispatch_err _ (by simp) (by simp) (by simp) (by simp)
  (by simp)

/-- Temperature with internal energy: the internal energy is ignored, and the pressure becomes
one atmosphere. -/
theorem dispatch_TU_ignored : dispatch ["T", "U"] = .Tonly := by simp [dispatch]

/-- A single property: temperature or pressure, with the default of the other; anything else is an
error. -/
theorem dispatch_single (a : String) :
    dispatch [a] = if a = "T" then .Tonly else if a = "P" then .Ponly else .err := by
  by_cases h1 : a = "T"
  · subst h1; simp [dispatch]
  · by_cases h2 : a = "P"
    · subst h2; simp [dispatch]
    · have h1' := Ne.symm h1
      have h2' := Ne.symm h2
      by_cases h3 : "S" = a
      · subst h3; simp [dispatch]
      · by_cases h4 : "V" = a
        · subst h4; simp [dispatch]
        · simp [dispatch, h1, h2, h1', h2', h3, h4]

/-- No property, or a composition only: the default state. -/
theorem setState_composition_only :
    setState [] = (none, .dflt) ∧ setState ["X"] = (some "X", .dflt) ∧
    setState ["mass-fractions"] = (some "Y", .dflt) := by
  refine ⟨?_, ?_, ?_⟩ <;> decide

/-- Both compositions: the mole fractions are set, the mass fractions stay as an unknown key, and
without further keys the call then fails, with the composition changed. -/
theorem setState_XY : setState ["X", "Y"] = (some "X", .err) ∧
    setState ["X", "Y", "T", "P"] = (some "X", .TP) := by
  constructor <;> decide

theorem mem_addKey (a b k : String) (ks : List String) :
    k ∈ addKey a b ks ↔ k ∈ ks ∨ (a ∈ ks ∧ k = b) := by
  unfold addKey
  by_cases h : a ∈ ks
  · rw [if_pos h]
    by_cases hk : k = b <;> simp [h, hk]
  · simp [h]

theorem mem_moveKey (a b k : String) (ks : List String) :
    k ∈ moveKey a b ks ↔ (k ∈ ks ∧ ¬ (k = a ∧ a ≠ b)) ∨ (a ∈ ks ∧ k = b) := by
  unfold moveKey
  by_cases h : a ∈ ks
  · rw [if_pos h]
    by_cases hk : k = b
    · simp [h, hk]
    · by_cases hka : k = a
      · subst hka; simp [hk]
      · simp [hk, hka]
  · rw [if_neg h]
    constructor
    · intro hk
      left
      exact ⟨hk, fun e => h (by rw [← e.1]; exact hk)⟩
    · rintro (⟨hk, -⟩ | ⟨hk, -⟩)
      · exact hk
      · exact absurd hk h

/-- The short name of a property is present after the substitution exactly if it or its synonym
was given. -/
theorem remap_props (ks : List String) :
    ∀ x ∈ [("T", "temperature"), ("P", "pressure"), ("H", "enthalpy"), ("V", "specific-volume"),
      ("S", "entropy"), ("D", "density"), ("Q", "vapor-fraction"), ("X", "mole-fractions"),
      ("Y", "mass-fractions")], x.1 ∈ remap ks ↔ x.1 ∈ ks ∨ x.2 ∈ ks := by
  intro x hx
  simp only [List.mem_cons, List.not_mem_nil, or_false] at hx
  rcases hx with rfl | rfl | rfl | rfl | rfl | rfl | rfl | rfl | rfl <;>
    simp [remap, mem_addKey, mem_moveKey]

theorem remap_U (ks : List String) :
    "U" ∈ remap ks ↔ "U" ∈ ks ∨ "int-energy" ∈ ks ∨ "internal-energy" ∈ ks := by
  simp [remap, mem_addKey, mem_moveKey, or_assoc]

/-- Full names give the same setter as short names. -/
theorem setState_synonyms :
    setState ["temperature", "pressure", "mole-fractions"] = (some "X", .TP) ∧
    setState ["internal-energy", "specific-volume"] = (none, .UV) := by
  constructor <;> decide

/-- A composition in any order of the keys: mole fractions if given, otherwise mass fractions. -/
theorem setState_comp (ks : List String) :
    (setState ks).1 = if "X" ∈ ks ∨ "mole-fractions" ∈ ks then some "X"
      else if "Y" ∈ ks ∨ "mass-fractions" ∈ ks then some "Y" else none := by
  have hX := remap_props ks ("X", "mole-fractions") (by simp)
  have hY := remap_props ks ("Y", "mass-fractions") (by simp)
  simp only at hX hY
  unfold setState composition
  simp only [hX, hY]
  split_ifs <;> rfl

end Verif.SetState
