import Verif.Thermo.TpxFluidsProps7

/-!
# Pure fluids: saturation correlations written out, limit of small density
-/

namespace Verif.TpxFluids

open Verif Finset Filter Topology

/-! ## Saturation correlations -/

/-- Vapour pressure of nitrogen. -/
theorem nitrogen_Psat {T : ℝ} (h1 : 63.15 ≤ T) (h2 : T ≤ 126.2) : nitrogen.Psat T
    = some (Real.exp (8.3944094440e3 / T
      + (-1.8785191705e3)
      + (-7.2822291650) * T
      + 1.0228509660e-2 * (126.2 - T) ^ (1.95 : ℝ)
      + 5.5560638250e-4 * T ^ 3
      + (-5.9445446620e-6) * T ^ 4
      + 2.7154339320e-8 * T ^ 5
      + (-4.8795359040e-11) * T ^ 6
      + 5.0953608240e2 * Real.log T)) := by
  have hT : T ≠ 0 := by intro h; rw [h] at h1; norm_num at h1
  have hr : ¬(T < 63.15 ∨ T > 126.200) := by push Not; exact ⟨h1, by norm_num at h2 ⊢; linarith⟩
  simp only [nitrogen, dPsat]
  rw [if_neg hr]
  congr 2
  simp [sum_range_succ, Fnn]
  norm_num
  try field_simp
  try ring

/-- Vapour pressure of oxygen. -/
theorem oxygen_Psat {T : ℝ} (h1 : 54.34 ≤ T) (h2 : T ≤ 154.581) : oxygen.Psat T
    = some (Real.exp ((-5.581932039e2) / T
      + (-1.0966262185e2)
      + (-8.3456211630e-2) * T
      + 2.6603644330e-3 * (154.581 - T) ^ (1.91576 : ℝ)
      + 1.6875023830e-5 * T ^ 3
      + (-2.1262477120e-7) * T ^ 4
      + 9.5741096780e-10 * T ^ 5
      + (-1.6617640450e-12) * T ^ 6
      + 2.7545605710e1 * Real.log T)) := by
  have hT : T ≠ 0 := by intro h; rw [h] at h1; norm_num at h1
  have hr : ¬(T < 54.34 ∨ T > 154.581) := by push Not; exact ⟨h1, by norm_num at h2 ⊢; linarith⟩
  simp only [oxygen, dPsat]
  rw [if_neg hr]
  congr 2
  simp [sum_range_succ, Foxy]
  norm_num
  try field_simp
  try ring

/-- Density of liquid nitrogen. -/
theorem nitrogen_ldens {T d : ℝ} (h : nitrogen.ldens T = some d) :
    ∃ y, 0 ≤ y ∧ y ^ 3 = 1 - T / 126.2 ∧ d = 3.1402991e2 + 4.4111015e2 * y + 9.4622994e2 * y ^ 2 + (-2.9067111e3) * y ^ 3 + 4.4785979e3 * y ^ 4 + (-2.2746914e3) * y ^ 5 := by
  obtain ⟨y, h0, -, h3, hd⟩ := dLdens_formula (by norm_num) h
  refine ⟨y, h0, by rw [h3]; norm_num, ?_⟩
  rw [hd]
  simp [Dnn]
  try norm_num

/-- Density of liquid oxygen. -/
theorem oxygen_ldens {T d : ℝ} (h : oxygen.ldens T = some d) :
    ∃ y, 0 ≤ y ∧ y ^ 3 = 1 - T / 154.581 ∧ d = 4.3615175e2 + 7.5897189e2 * y + (-4.2576866e2) * y ^ 2 + 2.3487106e3 * y ^ 3 + (-3.0474660e3) * y ^ 4 + 1.4850169e3 * y ^ 5 := by
  obtain ⟨y, h0, -, h3, hd⟩ := dLdens_formula (by norm_num) h
  refine ⟨y, h0, h3, ?_⟩
  rw [hd]
  simp [Doxy]
  try norm_num

/-- Density of liquid carbonDioxide. -/
theorem carbonDioxide_ldens {T d : ℝ} (h : carbonDioxide.ldens T = some d) :
    ∃ y, 0 ≤ y ∧ y ^ 3 = 1 - T / 304.21 ∧ d = 4.6400009e2 + 6.7938129e2 * y + 1.4776836e3 * y ^ 2 + (-3.1267676e3) * y ^ 3 + 3.6397656e3 * y ^ 4 + (-1.3437098e3) * y ^ 5 := by
  obtain ⟨y, h0, -, h3, hd⟩ := dLdens_formula (by norm_num) h
  refine ⟨y, h0, h3, ?_⟩
  rw [hd]
  simp [Dco2]
  try norm_num

/-- Density of liquid heptane. -/
theorem heptane_ldens {T d : ℝ} (h : heptane.ldens T = some d) :
    ∃ y, 0 ≤ y ∧ y ^ 3 = 1 - T / 537.68 ∧ d = 1.9760405e2 + 8.9451237e2 * y + (-1.1462908e3) * y ^ 2 + 1.7996947e3 * y ^ 3 + (-1.7250843e3) * y ^ 4 + 9.7088329e2 * y ^ 5 := by
  obtain ⟨y, h0, -, h3, hd⟩ := dLdens_formula (by norm_num) h
  refine ⟨y, h0, h3, ?_⟩
  rw [hd]
  simp [Dhept]
  try norm_num

/-- Vapour pressure of carbonDioxide. -/
theorem carbonDioxide_Psat {T x : ℝ} (h1 : 216.54 ≤ T) (h2 : T ≤ 304.21) (hx : x = T / 250 - 1) : carbonDioxide.Psat T
    = some (7.38350e6 * Real.exp ((304.21 / T - 1) * ((-6.5412610) + (-2.7914636e-1) * x + (-3.4716202) * x ^ 2 + (-3.4989637) * x ^ 3 + (-1.9770948e1) * x ^ 4 + 1.3922839e2 * x ^ 5 + (-2.7670389e2) * x ^ 6 + (-7.0510251e3) * x ^ 7))) := by
  have hr : ¬(T < 216.54 ∨ T > 304.21) := by push Not; exact ⟨h1, h2⟩
  simp only [carbonDioxide, pPsat]
  rw [if_neg hr, ← hx, show Icc 1 8 = ({1, 2, 3, 4, 5, 6, 7, 8} : Finset ℕ) from rfl]
  rw [mul_comm (Real.exp _)]
  congr 4
  simp [Fco2]
  try ring

/-- Vapour pressure of heptane. -/
theorem heptane_Psat {T x : ℝ} (h1 : 182.56 ≤ T) (h2 : T ≤ 537.68) (hx : x = T / 400 - 1) : heptane.Psat T
    = some (2.6199e6 * Real.exp ((537.68 / T - 1) * ((-7.2298764) + 3.8607475e-1 * x + (-3.4216472) * x ^ 2 + 4.6274432e-1 * x ^ 3 + (-9.7926124) * x ^ 4 + (-4.2058094e1) * x ^ 5 + 7.5468678e1 * x ^ 6 + 3.1758992e2 * x ^ 7))) := by
  have hr : ¬(T < 182.56 ∨ T > 537.68) := by push Not; exact ⟨h1, h2⟩
  simp only [heptane, pPsat]
  rw [if_neg hr, ← hx, show Icc 1 8 = ({1, 2, 3, 4, 5, 6, 7, 8} : Finset ℕ) from rfl]
  rw [mul_comm (Real.exp _)]
  congr 4
  simp [Fhept]
  try ring

/-- Vapour pressure of water. -/
theorem water_Psat {T x : ℝ} (h1 : 273.16 ≤ T) (h2 : T ≤ 647.286) (hx : x = 0.01 * (T - 338.15)) : water.Psat T
    = some (22.089e6 * Real.exp ((647.286 / T - 1) * ((-7.4192420) + 2.9721e-1 * x + (-1.155286e-1) * x ^ 2 + 8.685635e-3 * x ^ 3 + 1.0940980e-3 * x ^ 4 + (-4.39993e-3) * x ^ 5 + 2.5206580e-3 * x ^ 6 + (-5.2186840e-4) * x ^ 7))) := by
  have hr : ¬(T < 273.16 ∨ T > 647.286) := by push Not; exact ⟨h1, h2⟩
  simp only [water, watPsat]
  rw [if_neg hr, ← hx, show Icc 1 8 = ({1, 2, 3, 4, 5, 6, 7, 8} : Finset ℕ) from rfl]
  rw [mul_comm (Real.exp _)]
  congr 4
  simp [Fwat]
  try ring

/-- Density of liquid water. -/
theorem water_ldens {T d : ℝ} (h : water.ldens T = some d) :
    ∃ y, 0 ≤ y ∧ y ^ 3 = 1 - T / 647.286 ∧ d = 317 * (1 + 3.6711257 * y ^ 1 + (-2.8512396e1) * y ^ 2 + 2.2265240e2 * y ^ 3 + (-8.8243852e2) * y ^ 4 + 2.0002765e3 * y ^ 5 + (-2.6122557e3) * y ^ 6 + 1.8297674e3 * y ^ 7 + (-5.3350520e2) * y ^ 8) := by
  simp only [water, watLdens] at h
  split_ifs at h with hr
  push Not at hr
  rw [Option.some.injEq] at h
  have hx : 0 ≤ 1 - T / 647.286 := by rw [sub_nonneg, div_le_one (by norm_num)]; exact hr.2
  refine ⟨(1 - T / 647.286) ^ ((1 : ℝ) / 3), Real.rpow_nonneg hx _, by rw [← cube_root hx 3]; norm_num, ?_⟩
  rw [← h]
  generalize 1 - T / 647.286 = x at *
  have e : ∀ i ∈ range 8, Dwat i * x ^ (((i : ℝ) + 1) / 3) = Dwat i * (x ^ ((1 : ℝ) / 3)) ^ (i + 1) := by
    intro i _
    rw [← cube_root hx]
    push_cast
    rfl
  rw [sum_congr rfl e]
  generalize x ^ ((1 : ℝ) / 3) = y at *
  simp only [sum_range_succ, range_zero, sum_empty, Dwat, List.getD_cons_zero, List.getD_cons_succ]
  norm_num
  ring

/-- Vapour pressure of methane. -/
theorem methane_Psat {T x : ℝ} (h1 : 90.68 ≤ T) (h2 : T ≤ 190.555)
    (hx : x = (1 - 90.68 / T) / (1 - 90.68 / 190.555)) : methane.Psat T
    = some (11743.5675 * Real.exp (4.77748580 * x + 1.76065363 * x ^ 2 + (-5.67888940e-1) * x ^ 3 + 1.32786231 * x * (1 - x) ^ (1.5 : ℝ))) := by
  have hr : ¬(T < 90.68 ∨ T > 190.555) := by push Not; exact ⟨h1, h2⟩
  simp only [methane, tPsat]
  rw [if_neg hr, ← hx, mul_comm (Real.exp _)]
  congr 3
  simp [Fmeth]
  try ring

/-- Vapour pressure of hydrogen. -/
theorem hydrogen_Psat {T x : ℝ} (h1 : 13.8 ≤ T) (h2 : T ≤ 32.938)
    (hx : x = (1 - 13.8 / T) / (1 - 13.8 / 32.938)) : hydrogen.Psat T
    = some (7042.09 * Real.exp (3.05300134164 * x + 2.80810925813 * x ^ 2 + (-6.55461216567e-1) * x ^ 3 + 1.59514439374 * x * (1 - x) ^ (1.5814454428 : ℝ))) := by
  have hr : ¬(T < 13.8 ∨ T > 32.938) := by push Not; exact ⟨h1, h2⟩
  simp only [hydrogen, tPsat]
  rw [if_neg hr, ← hx, mul_comm (Real.exp _)]
  congr 3
  simp [Fhydro]
  try ring

/-- Density of liquid methane. -/
theorem methane_ldens {T w : ℝ} (h1 : 90.68 ≤ T) (h2 : T ≤ 190.555) (hw : w = (190.555 - T) / (190.555 - 90.68)) : methane.ldens T
    = some (160.43 + (451.562 - 160.43) * w ^ (0.36 : ℝ) * Real.exp ((-1.78860165e-1) * (1 - w ^ ((2 : ℝ) / 3)) + 4.83847500e-2 * (1 - w ^ ((4 : ℝ) / 3)) + (-1.84898700e-2) * (1 - w ^ 2))) := by
  have hr : ¬(T < 90.68 ∨ T > 190.555) := by push Not; exact ⟨h1, h2⟩
  simp only [methane, methLdens]
  rw [if_neg hr, ← hw]
  congr 1
  simp [Dmeth]
  ring

/-- Density of liquid hydrogen. -/
theorem hydrogen_ldens {T d : ℝ} (h : hydrogen.ldens T = some d) :
    ∃ y, 0 ≤ y ∧ y ^ 3 = 1 - T / 32.938 ∧ d = 31.36 + 4.8645813003e1 * (1 - T / 32.938) ^ (0.3479 : ℝ) + (-3.4779278180e1) * y ^ 3 + 4.0776538192e2 * y ^ 4 + (-1.1719787304e3) * y ^ 5 + 1.6213924400e3 * y ^ 6 + (-1.1531096683e3) * y ^ 7 + 3.3825492039e2 * y ^ 8 := by
  simp only [hydrogen, hydLdens] at h
  split_ifs at h with hr
  push Not at hr
  rw [Option.some.injEq] at h
  have hx : 0 ≤ 1 - T / 32.938 := by rw [sub_nonneg, div_le_one (by norm_num)]; exact hr.2
  refine ⟨(1 - T / 32.938) ^ ((1 : ℝ) / 3), Real.rpow_nonneg hx _, by rw [← cube_root hx 3]; norm_num, ?_⟩
  rw [← h]
  generalize 1 - T / 32.938 = x at *
  have e : ∀ i ∈ Icc 1 6, Dhydro i * x ^ (1 + ((i : ℝ) - 1) / 3) = Dhydro i * (x ^ ((1 : ℝ) / 3)) ^ (i + 2) := by
    intro i _
    rw [← cube_root hx]
    congr 2
    push_cast
    ring
  rw [sum_congr rfl e, show Icc 1 6 = ({1, 2, 3, 4, 5, 6} : Finset ℕ) from rfl]
  generalize x ^ ((1 : ℝ) / 3) = y at *
  simp [Dhydro]
  try ring

/-- Vapour pressure and liquid density of HFC-134a. -/
theorem hfc_formulas {T x : ℝ} (h1 : 170 ≤ T) (h2 : T ≤ 374.18) (hx : x = 1 - T / 374.18) :
    hfc134a.Psat T = some (4056290 * Real.exp ((-7.686556 * x + 2.311791 * x ^ (1.5 : ℝ) - 2.039554 * x ^ 2 - 3.583758 * x ^ 4) * (374.18 / T))) ∧
    hfc134a.ldens T = some (518.2 + 884.13 * x ^ ((1 : ℝ) / 3) + 485.84 * x ^ ((2 : ℝ) / 3) + 193.29 * x ^ ((10 : ℝ) / 3)) := by
  have hr : ¬(T < 170 ∨ T > 374.18) := by push Not; exact ⟨h1, h2⟩
  simp only [hfc134a, hfcPsat, hfcLdens]
  rw [if_neg hr, if_neg hr, ← hx]
  refine ⟨?_, rfl⟩
  congr 3
  rw [div_div_eq_mul_div, mul_div_assoc]
  ring

example : ∃ d, water.ldens 300 = some d := by
  simp only [water, watLdens]
  rw [if_neg (by norm_num)]
  exact ⟨_, rfl⟩

/-! ## Small density -/

/-- Pressures of the form `ρ K + Σ cᵢ ρ² qᵢ(ρ)` approach `ρ K`. -/
theorem ideal_of_sum {s : Finset ℕ} {c : ℕ → ℝ} {q : ℕ → ℝ → ℝ} {K : ℝ} {P : ℝ → ℝ}
    (hP : ∀ ρ, 0 < ρ → P ρ = ρ * K + ∑ i ∈ s, c i * (ρ ^ 2 * q i ρ)) (hq : ∀ i ∈ s, Continuous (q i)) :
    Tendsto (fun ρ => P ρ / ρ) (𝓝[>] 0) (𝓝 K) := by
  have hc : Continuous fun ρ : ℝ => K + ∑ i ∈ s, c i * (ρ * q i ρ) := by
    refine continuous_const.add (continuous_finsetSum _ fun i hi => ?_)
    exact continuous_const.mul (continuous_id.mul (hq i hi))
  have h0 := (hc.tendsto 0).mono_left (nhdsWithin_le_nhds (s := Set.Ioi 0))
  simp only [zero_mul, mul_zero, sum_const_zero, add_zero] at h0
  refine h0.congr' ?_
  filter_upwards [self_mem_nhdsWithin] with ρ hρ
  have hρ' : (0 : ℝ) < ρ := hρ
  rw [hP ρ hρ', eq_div_iff hρ'.ne', add_mul, sum_mul]
  congr 1
  · ring
  · exact sum_congr rfl fun i _ => by ring

theorem mbwr_ideal (A : ℕ → ℝ) (R Γ T : ℝ) : Tendsto (fun ρ => mPp A R Γ T ρ / ρ) (𝓝[>] 0) (𝓝 (R * T)) := by
  refine ideal_of_sum (s := range 14) (c := mC A T (1 / T) (1 / T * (1 / T)))
    (q := fun i ρ => if i < 8 then ρ ^ i else ρ ^ (2 * i - 15) * Real.exp (-Γ * ρ * ρ)) (fun ρ _ => ?_) fun i _ => ?_
  · simp only [mPp]
    congr 1
    · ring
    · refine sum_congr rfl fun i _ => ?_
      rw [mH]
      split_ifs with h
      · ring
      · rw [show 2 * i - 13 = 2 + (2 * i - 15) by omega, pow_add]; ring
  · by_cases h : i < 8
    · simp only [h, if_true]; fun_prop
    · simp only [h, if_false]; fun_prop

/-- The gas constants of the fluids, J/kg/K. -/
noncomputable def gasR : Kind → ℝ
  | .water => 461.51
  | .nitrogen => 296.790515164171
  | .methane => 518.253475866
  | .hydrogen => 4124.299539
  | .oxygen => 259.820853437877
  | .hfc134a => 81.48885644
  | .carbonDioxide => 188.918
  | .heptane => 82.99504

/-- Every fluid becomes an ideal gas at small density. -/
theorem ideal_gas (k : Kind) (T : ℝ) : Tendsto (fun ρ => (eos k).Pp T ρ / ρ) (𝓝[>] 0) (𝓝 (gasR k * T)) := by
  cases k with
  | water =>
    refine ideal_of_sum (s := range 7) (c := watC 461.51 1.544912 T)
      (q := fun j ρ => horner (fun i => Awat i j + ρ * ((i : ℝ) + 1) * Awat (i + 1) j) (ρ - (if j = 0 then 634 else 1000)) 6 0
        + (Awat 0 j + ρ * Awat 1 j)
        + Real.exp (-4.8e-3 * ρ) * ((1 - ρ * 4.8e-3) * Awat 8 j + ρ * (2 - ρ * 4.8e-3) * Awat 9 j)
        + Awat 7 j * (ρ - (if j = 0 then 634 else 1000)) ^ 7) (fun ρ _ => ?_) fun j _ => ?_
    · simp only [eos, water, watP, gasR, watH]
      congr 1
      · ring
      · exact sum_congr rfl fun i _ => by ring
    · simp only [horner_six]
      generalize (if j = 0 then (634 : ℝ) else 1000) = c
      fun_prop
  | nitrogen =>
    have := mbwr_ideal Ann 296.790515164171 7.13602531283233e-6 T
    simp only [eos, nitrogen, gasR]
    norm_num at this ⊢
    exact this
  | methane =>
    have := mbwr_ideal Ameth 518.253475866 3.72992471469e-5 T
    simp only [eos, methane, gasR]
    norm_num at this ⊢
    exact this
  | hydrogen => exact mbwr_ideal Ahydro 4124.299539 1.008854772e-3 T
  | oxygen =>
    have := mbwr_ideal Aoxy 259.820853437877 5.46895508389297e-6 T
    simp only [eos, oxygen, gasR]
    norm_num at this ⊢
    exact this
  | hfc134a =>
    refine ideal_of_sum (s := range 21) (c := fun i => hC i T)
      (q := fun i r => 1 / 508 * (((d134 i : ℝ) - hk i * (if hk i = 0 then 0 else (r / 508) ^ hk i))
        * (r / 508) ^ (d134 i - 1) * (if hk i = 0 then 1 else Real.exp (-(r / 508) ^ hk i)))) (fun ρ hρ => ?_) fun i _ => ?_
    · show hfcP T ρ = _
      rw [hfcP_eq T ρ hρ, gasR]
      congr 1
      · ring
      · exact sum_congr rfl fun i _ => by rw [hH]; ring
    · by_cases h : hk i = 0
      · simp only [h, if_true]; fun_prop
      · simp only [h, if_false]; fun_prop
  | carbonDioxide =>
    refine ideal_of_sum (s := range 7)
      (c := co2C Aco2 T (T ^ (-1 : ℤ)) (T ^ (-2 : ℤ)) (T ^ (-3 : ℤ)) (T ^ (-4 : ℤ)))
      (q := fun i ρ => if i < 5 then ρ ^ i else if i = 5 then ρ * Real.exp (-5.0e-6 * ρ * ρ)
        else if i = 6 then ρ ^ 3 * Real.exp (-5.0e-6 * ρ * ρ) else 0) (fun ρ _ => ?_) fun i _ => ?_
    · simp only [eos, carbonDioxide, co2P, gasR]
      congr 1
      · ring
      · refine sum_congr rfl fun i _ => ?_
        rw [co2H]
        split_ifs <;> ring
    · split_ifs <;> fun_prop
  | heptane =>
    refine ideal_of_sum (s := range 4)
      (c := heptC Ahept 82.99504 T (T ^ (-1 : ℤ)) (T ^ (-2 : ℤ)) (T ^ (-3 : ℤ)) (T ^ (-4 : ℤ)))
      (q := fun i ρ => if i < 2 then ρ ^ i else if i = 2 then ρ ^ 4
        else if i = 3 then ρ * (1 + 9.611604e-6 * ρ * ρ) * Real.exp (-9.611604e-6 * ρ * ρ) else 0) (fun ρ _ => ?_) fun i _ => ?_
    · simp only [eos, heptane, heptP, gasR]
      congr 1
      · ring
      · refine sum_congr rfl fun i _ => ?_
        rw [heptH]
        split_ifs <;> ring
    · split_ifs <;> fun_prop

/-- Molar mass times gas constant is the universal gas constant within 4 J/kmol/K; for methane and
heptane the error is above 1.5 J/kmol/K. -/
theorem gas_constant (k : Kind) : |(eos k).mw * gasR k - 8314.462618| < 4 ∧
    (k = .methane ∨ k = .heptane → 1.5 < |(eos k).mw * gasR k - 8314.462618|) := by
  cases k <;> simp [eos, water, nitrogen, methane, hydrogen, oxygen, hfc134a, carbonDioxide, heptane, gasR, abs_lt, lt_abs] <;> norm_num

example : Tendsto (fun ρ => (eos .water).Pp 300 ρ / ρ) (𝓝[>] 0) (𝓝 (461.51 * 300)) := ideal_gas .water 300

end Verif.TpxFluids
