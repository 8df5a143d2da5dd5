import Verif.Thermo.TpxFluidsProps5
import Verif.Thermo.TpxProps

/-!
# Pure fluids: saturation correlations, selection by name
-/

namespace Verif.TpxFluids

open Verif Finset

/-- Largest temperature accepted by the correlations for saturation. -/
noncomputable def satMax (k : Kind) : ℝ := if k = .hfc134a then 374.18 else (eos k).Tc

theorem range_iff {T a b x : ℝ} : (if T < a ∨ T > b then none else some x : Option ℝ).isSome ↔ a ≤ T ∧ T ≤ b := by
  split_ifs with h
  · simp only [Option.isSome_none, Bool.false_eq_true, false_iff, not_and_or, not_le]
    exact h
  · simp only [Option.isSome_some, true_iff]
    push Not at h
    exact h

/-- The correlations for pressure and liquid density at saturation accept the same temperatures.  They reach the critical
temperature of the class for every fluid except HFC-134a. -/
theorem sat_range (k : Kind) (T : ℝ) :
    (((eos k).Psat T).isSome ↔ (eos k).Tmin ≤ T ∧ T ≤ satMax k) ∧
    (((eos k).ldens T).isSome ↔ (eos k).Tmin ≤ T ∧ T ≤ satMax k) := by
  cases k <;> simp only [satMax, eos, reduceCtorEq, if_true, if_false] <;> exact ⟨range_iff, range_iff⟩

theorem hfc_satMax : satMax .hfc134a = 374.18 ∧ satMax .hfc134a < (eos .hfc134a).Tc := by
  simp only [satMax, eos, if_true, hfc134a]
  norm_num

theorem satMax_of_ne {k : Kind} (h : k ≠ .hfc134a) : satMax k = (eos k).Tc := if_neg h

/-- Pressures from the correlation are positive. -/
theorem Psat_pos (k : Kind) {T p : ℝ} (h : (eos k).Psat T = some p) : 0 < p := by
  cases k <;> simp only [eos, water, nitrogen, methane, hydrogen, oxygen, hfc134a, carbonDioxide, heptane, watPsat, dPsat,
    tPsat, pPsat, hfcPsat] at h <;> split_ifs at h <;> rw [Option.some.injEq] at h <;> rw [← h] <;> positivity

/-- At the upper limit the correlation gives the critical pressure for water, carbon dioxide and heptane, and a pressure
below the critical pressure for HFC-134a. -/
theorem Psat_critical : (eos .water).Psat 647.286 = some 22.089e6 ∧
    (eos .carbonDioxide).Psat 304.21 = some 7.3835e6 ∧ (eos .heptane).Psat 537.68 = some 2.6199e6 ∧
    (eos .hfc134a).Psat 374.18 = some 4056290 := by
  refine ⟨?_, ?_, ?_, ?_⟩
  · simp only [eos, water, watPsat]
    rw [if_neg (by norm_num)]
    norm_num
  · simp only [eos, carbonDioxide, pPsat]
    rw [if_neg (by norm_num)]
    norm_num
  · simp only [eos, heptane, pPsat]
    rw [if_neg (by norm_num)]
    norm_num
  · simp only [eos, hfc134a, hfcPsat]
    rw [if_neg (by norm_num)]
    norm_num

/-- At the triple point the correlation gives the pressure of the triple point for methane and hydrogen. -/
theorem Psat_triple : (eos .methane).Psat 90.68 = some 11743.5675 ∧ (eos .hydrogen).Psat 13.8 = some 7042.09 := by
  constructor
  · simp only [eos, methane, tPsat]
    rw [if_neg (by norm_num)]
    norm_num
  · simp only [eos, hydrogen, tPsat]
    rw [if_neg (by norm_num)]
    norm_num

/-- The saturation pressure of HFC-134a from the correlation never reaches the critical pressure of the class. -/
theorem hfc_Psat_lt {T p : ℝ} (h : (eos .hfc134a).Psat T = some p) : p ≤ 4056290 ∧ p < (eos .hfc134a).Pc := by
  have hp : p ≤ 4056290 := by
    simp only [eos, hfc134a, hfcPsat] at h
    split_ifs at h with hr
    push Not at hr
    obtain ⟨h1, h2⟩ := hr
    rw [Option.some.injEq] at h
    rw [← h]
    have hx1 : 0 < T / 374.18 := by positivity
    have hx : 0 ≤ 1 - T / 374.18 := by
      rw [sub_nonneg, div_le_one (by norm_num)]; exact h2
    have hx' : 1 - T / 374.18 ≤ 1 := by linarith
    generalize T / 374.18 = x1 at *
    have hpow : (1 - x1) ^ (1.5 : ℝ) ≤ 1 - x1 := by
      rcases hx.eq_or_lt with h0 | h0
      · rw [← h0, Real.zero_rpow (by norm_num)]
      · calc (1 - x1) ^ (1.5 : ℝ) ≤ (1 - x1) ^ (1 : ℝ) := Real.rpow_le_rpow_of_exponent_ge h0 hx' (by norm_num)
          _ = 1 - x1 := Real.rpow_one _
    have hf : -7.686556 * (1 - x1) + 2.311791 * (1 - x1) ^ (1.5 : ℝ) - 2.039554 * (1 - x1) * (1 - x1)
        - 3.583758 * (1 - x1) ^ 4 ≤ 0 := by
      have : 0 ≤ (1 - x1) ^ 4 := by positivity
      have : 0 ≤ (1 - x1) * (1 - x1) := by positivity
      nlinarith
    have := Real.exp_le_one_iff.2 (div_nonpos_of_nonpos_of_nonneg hf hx1.le)
    linarith
  refine ⟨hp, lt_of_le_of_lt hp ?_⟩
  simp only [eos, hfc134a]
  norm_num

/-- Between 374.18 K and 374.21 K, the critical temperature of the class, the pressure and the quality of HFC-134a cannot be
computed: the saturation correlation throws. -/
theorem hfc_gap {s : Tpx.St} (h1 : 374.18 < s.T) (h2 : s.T < 374.21) (h : s.T ≠ s.Tslast) :
    (Tpx.P (eos .hfc134a) s).2 = none ∧ (Tpx.quality (eos .hfc134a) s).2 = none ∧
    (Tpx.Ps (eos .hfc134a) s).2 = none := by
  have hP : (eos .hfc134a).Psat s.T = none := by
    have := (sat_range .hfc134a s.T).1
    rw [hfc_satMax.1] at this
    rw [← Option.not_isSome_iff_eq_none, this]
    intro h; linarith [h.2]
  have hU : Tpx.updateSat (eos .hfc134a) s = (s, none) := by
    rw [Tpx.updateSat, if_neg h, hP]
  have hTc : ¬ (eos .hfc134a).Tc ≤ s.T := by
    simp only [eos, hfc134a]; linarith
  have hR : ¬ (s.T < (eos .hfc134a).Tmin ∨ s.T > (eos .hfc134a).Tc) := by
    simp only [eos, hfc134a]
    push Not
    constructor <;> linarith
  refine ⟨?_, ?_, ?_⟩
  · rw [Tpx.P, Tpx.bind_eq, Tpx.twoPhase, Tpx.bind_eq]
    dsimp only [Tpx.get_eq]
    rw [if_neg hTc, Tpx.bind_eq, hU]
  · rw [Tpx.quality, Tpx.bind_eq]
    dsimp only [Tpx.get_eq]
    rw [if_neg hTc, Tpx.bind_eq, hU]
  · rw [Tpx.Ps, Tpx.bind_eq]
    dsimp only [Tpx.get_eq]
    rw [if_neg hR, Tpx.bind_eq, hU]

example : (Tpx.P (eos .hfc134a) ⟨374.2, 500, 300, 0, 0, 0, 0, 0⟩).2 = none :=
  (hfc_gap (by norm_num) (by norm_num) (by norm_num)).1

/-- Names that select a fluid, and the fluid. -/
theorem newSubstance_spec (name : String) (k : Kind) : newSubstance name = some k ↔
    (name.toLower = "water" ∧ k = .water) ∨ (name.toLower = "nitrogen" ∧ k = .nitrogen) ∨
    (name.toLower = "methane" ∧ k = .methane) ∨ (name.toLower = "hydrogen" ∧ k = .hydrogen) ∨
    (name.toLower = "oxygen" ∧ k = .oxygen) ∨
    ((name.toLower = "hfc-134a" ∨ name.toLower = "hfc134a") ∧ k = .hfc134a) ∨
    ((name.toLower = "carbon-dioxide" ∨ name.toLower = "carbondioxide") ∧ k = .carbonDioxide) ∨
    (name.toLower = "heptane" ∧ k = .heptane) := by
  unfold newSubstance
  generalize name.toLower = n
  dsimp only
  constructor
  · intro h
    split_ifs at h with h1 h2 h3 h4 h5 h6 h7 h8
    · exact Or.inl ⟨h1, (Option.some.inj h).symm⟩
    · exact Or.inr (Or.inl ⟨h2, (Option.some.inj h).symm⟩)
    · exact Or.inr (Or.inr (Or.inl ⟨h3, (Option.some.inj h).symm⟩))
    · exact Or.inr (Or.inr (Or.inr (Or.inl ⟨h4, (Option.some.inj h).symm⟩)))
    · exact Or.inr (Or.inr (Or.inr (Or.inr (Or.inl ⟨h5, (Option.some.inj h).symm⟩))))
    · exact Or.inr (Or.inr (Or.inr (Or.inr (Or.inr (Or.inl ⟨h6, (Option.some.inj h).symm⟩)))))
    · exact Or.inr (Or.inr (Or.inr (Or.inr (Or.inr (Or.inr (Or.inl ⟨h7, (Option.some.inj h).symm⟩))))))
    · exact Or.inr (Or.inr (Or.inr (Or.inr (Or.inr (Or.inr (Or.inr ⟨h8, (Option.some.inj h).symm⟩))))))
  · rintro (⟨rfl, rfl⟩ | ⟨rfl, rfl⟩ | ⟨rfl, rfl⟩ | ⟨rfl, rfl⟩ | ⟨rfl, rfl⟩ | ⟨rfl | rfl, rfl⟩ | ⟨rfl | rfl, rfl⟩ |
      ⟨rfl, rfl⟩) <;> simp

/-- Two constants of the classes: each fluid keeps its own molecular weight and limits of temperature. -/
theorem constants (k : Kind) : ((eos k).mw, (eos k).Tmin, (eos k).Tmax) = match k with
    | .water => (18.016, 273.16, 1600)
    | .nitrogen => (28.01348, 63.15, 2000)
    | .methane => (16.04996, 90.68, 1700)
    | .hydrogen => (2.0159, 13.8, 5000)
    | .oxygen => (31.9994, 54.34, 2000)
    | .hfc134a => (102.032, 170, 455)
    | .carbonDioxide => (44.01, 216.54, 1500)
    | .heptane => (100.2, 182.56, 1000) := by
  cases k <;> simp only [eos, water, nitrogen, methane, hydrogen, oxygen, hfc134a, carbonDioxide, heptane]
  norm_num

/-- Critical constants. -/
theorem critical (k : Kind) : ((eos k).Tc, (eos k).Pc, 1 / (eos k).Vc) = match k with
    | .water => (647.286, 22089000, 317)
    | .nitrogen => (126.2, 3400000, 314.03)
    | .methane => (190.555, 4598800, 160.43)
    | .hydrogen => (32.938, 1283800, 31.36)
    | .oxygen => (154.581, 5042900, 436.15)
    | .hfc134a => (374.21, 4059280, 511.95)
    | .carbonDioxide => (304.21, 7383500, 464)
    | .heptane => (537.68, 2619900, 197.6) := by
  cases k <;> simp only [eos, water, nitrogen, methane, hydrogen, oxygen, hfc134a, carbonDioxide, heptane] <;> norm_num

/-- Below the minimum temperature is below the critical temperature is below the maximum temperature. -/
theorem limits_ordered (k : Kind) : 0 < (eos k).Tmin ∧ (eos k).Tmin < satMax k ∧ satMax k ≤ (eos k).Tc ∧
    (eos k).Tc < (eos k).Tmax := by
  cases k <;> simp only [satMax, eos, reduceCtorEq, if_true, if_false, water, nitrogen, methane, hydrogen, oxygen, hfc134a,
    carbonDioxide, heptane] <;> norm_num

end Verif.TpxFluids
