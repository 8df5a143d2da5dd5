import Verif.Thermo.TpxFluidsProps4

/-!
# Pure fluids: explicit formulas
-/

namespace Verif.TpxFluids

open Verif Finset Filter Topology

/-- The pressure of the 32-coefficient equation. -/
theorem mPp_formula (A : ℕ → ℝ) (R Γ T ρ : ℝ) : mPp A R Γ T ρ = ρ * R * T
    + ρ ^ 2 * (A 0 * T + A 1 * √T + A 2 + A 3 / T + A 4 / T ^ 2)
    + ρ ^ 3 * (A 5 * T + A 6 + A 7 / T + A 8 / T ^ 2) + ρ ^ 4 * (A 9 * T + A 10 + A 11 / T) + ρ ^ 5 * A 12
    + ρ ^ 6 * (A 13 / T + A 14 / T ^ 2) + ρ ^ 7 * (A 15 / T) + ρ ^ 8 * (A 16 / T + A 17 / T ^ 2)
    + ρ ^ 9 * (A 18 / T ^ 2)
    + Real.exp (-(Γ * ρ ^ 2)) * (ρ ^ 3 * (A 19 / T ^ 2 + A 20 / T ^ 3) + ρ ^ 5 * (A 21 / T ^ 2 + A 22 / T ^ 4)
      + ρ ^ 7 * (A 23 / T ^ 2 + A 24 / T ^ 3) + ρ ^ 9 * (A 25 / T ^ 2 + A 26 / T ^ 4)
      + ρ ^ 11 * (A 27 / T ^ 2 + A 28 / T ^ 3) + ρ ^ 13 * (A 29 / T ^ 2 + A 30 / T ^ 3 + A 31 / T ^ 4)) := by
  have e : -Γ * ρ * ρ = -(Γ * ρ ^ 2) := by ring
  simp only [mPp, sum_range_succ, range_zero, sum_empty, mC, mH, e]
  norm_num
  generalize Real.exp (-(Γ * ρ ^ 2)) = E
  ring

/-- The coefficients of the pressure of nitrogen, oxygen, methane and hydrogen. -/
theorem mbwr_coefficients :
    (List.range 32).map Ann =
      [1.75889959256970e-1, 1.38197604384933e1, -3.14918412133921e2, 4.40300150239380e3,
       -5.45358971644916e5, 4.84413320182919e-4, -5.18964416491365e-2, 6.57265859197103e-4,
       8.51299771713314e4, 1.33459405162578e-8, 3.83381319826746e-4, -8.35421151028455e-2,
       2.84874912286101e-7, -2.38296116270360e-7, -1.48321912935764e-4, 5.62605853190540e-10,
       -2.98201050924595e-13, 9.85319087685241e-11, -1.92002176056468e-14, -7.82250103373122e4,
       -5.51801778744598e5, -5.72781957607352e-1, 3.25760529488327e2, -1.34659309828737e-6,
       -1.92036423064911e-5, -3.94564337674524e-12, -2.44388245328965e-9, -1.50970602460077e-18,
       1.25854885346038e-16, -8.34271144923969e-24, -1.17299202018417e-22, 9.06544823455730e-22] ∧
    (List.range 32).map Aoxy =
      [-4.26396872798684e-1, 3.48334938784107e1, -5.77516910418738e2, 2.40961751553325e4,
       -1.23332307855543e6, 3.73585286319658e-4, -1.70178244046465e-1, -3.33226903068473e-4,
       8.61334799901291e3, -6.80394661057309e-7, 7.09583347162704e-4, -5.73905688255053e-2,
       -1.92123080811409e-7, 3.11764722329504e-8, -8.09463854745591e-6, -2.22562296356501e-11,
       9.18401045361994e-15, 5.75758417511114e-12, -2.10752269644774e-15, 3.62884761272184e3,
       -1.23317754317110e6, -5.03800414800672e-2, 3.30686173177055e2, -5.26259633964252e-8,
       5.53075442383100e-6, -2.71042853363688e-13, -1.65732450675251e-9, -5.82711196409204e-20,
       4.42953322148281e-17, -2.95529679136244e-25, -1.92361786708846e-23, 9.43758410350413e-23] ∧
    (List.range 32).map Ameth =
      [-7.25929210183, 4.13766054566e2, -6.32167316855e3, 3.34015577724e5, -1.68253379982e7,
       1.87884851902e-2, -1.18673201223e1, 2.09062618015e3, -4.07532656958e5, -5.73917603241e-5,
       4.37711441593e-2, -4.38766500673, 1.13524630779e-5, -5.07028240949e-5, 2.28002199522e-2,
       9.25611329590e-9, 1.33865662546e-10, -1.65439044196e-7, 1.81030980110e-10, 5.45753645958e5,
       -3.63192281933e7, 4.81463473761, 1.56633022620e5, 7.89977010972e-5, 1.39993881210e-2,
       -1.70656092212e-11, -4.55256623445e-5, -2.29314170748e-14, 8.31548197665e-12, 6.84673626259e-20,
       -4.70845544152e-17, 5.21465091383e-16] ∧
    (List.range 32).map Ahydro =
      [1.150470519352900e1, 1.055427998826072e3, -1.270685949968568e4, 7.287844527295619e4,
       -7.448780703363973e5, 2.328994151810363e-1, -1.635308393739296e1, 3.730678064960389e3,
       6.299667723184813e5, 1.210920358305697e-3, 1.753651095884817, -1.367022988058101e2,
       -6.869936641299885e-3, 3.644494201750974e-2, -2.559784772600182, -4.038855202905836e-4,
       1.485396303520942e-6, 4.243613981060742e-4, -2.307910113586888e-6, -6.082192173879582e5,
       -1.961080967486886e6, -5.786932854076408e2, 2.799129504191752e4, -2.381566558300913e-1,
       8.918796032452872e-1, -6.985739539036644e-5, -7.339554179182899e-3, -5.597033440289980e-9,
       8.842130160884514e-8, -2.655507264539047e-12, -4.544474518140164e-12, 9.818775257001922e-11] := by
  refine ⟨?_, ?_, ?_, ?_⟩ <;>
    simp only [List.range_succ, List.range_zero, List.nil_append, List.cons_append, List.map_cons, List.map_nil, Ann,
      Aoxy, Ameth, Ahydro, List.getD_cons_zero, List.getD_cons_succ]

/-- The densities and constants of the four equations. -/
theorem mbwr_pressure (T ρ : ℝ) : nitrogen.Pp T ρ = mPp Ann 296.790515164171 0.00000713602531283233 T ρ ∧
    oxygen.Pp T ρ = mPp Aoxy 259.820853437877 0.00000546895508389297 T ρ ∧
    methane.Pp T ρ = mPp Ameth 518.253475866 0.0000372992471469 T ρ ∧
    hydrogen.Pp T ρ = mPp Ahydro 4124.299539 0.001008854772 T ρ := by
  simp only [nitrogen, oxygen, methane, hydrogen]
  norm_num

/-- Ideal gas energy and entropy of nitrogen and oxygen. -/
theorem dU_formula (T : ℝ) :
    dU Gnn 3353.40610 150877.551 T = (-1.05922170493616e-9) / 4 * T ^ 4 + 5.18347156760489e-6 / 3 * T ^ 3 + (-5.14605623546025e-3) / 2 * T ^ 2 + 7.43175999190430e2 * T
      + (-1.65504721657240e2) * Real.log T - 1.01573580096247e4 / T - (-2.18203473713518e5) / 2 / T ^ 2 + 2.98389393363817e2 * 3353.4061 / (Real.exp (3353.4061 / T) - 1) + 150877.551 ∧
    dU Goxy 2239.18105 198884.2435 T = 4.21065222886885e-9 / 4 * T ^ 4 + 3.4981070244228e-6 / 3 * T ^ 3 + (-1.13131252131570e-2) / 2 * T ^ 2 + 6.55236176900400e2 * T
      + (-8.97850772730944e2) * Real.log T - 5.98231747005341e4 / T - (-1.29442711174062e6) / 2 / T ^ 2 + 2.67997030050139e2 * 2239.18105 / (Real.exp (2239.18105 / T) - 1) + 198884.2435 := by
  have e1 : (3353.40610 : ℝ) * (1 / T) = 3353.4061 / T := by ring
  have e2 : (2239.18105 : ℝ) * (1 / T) = 2239.18105 / T := by ring
  constructor
  · simp only [dU, Gnn, List.getD_cons_zero, List.getD_cons_succ, e1]
    ring
  · simp only [dU, Goxy, List.getD_cons_zero, List.getD_cons_succ, e2]
    ring

theorem dS_formula (T : ℝ) :
    dS Gnn 3353.40610 214.9352518 T = 214.9352518 + (-1.05922170493616e-9) / 3 * T ^ 3 + 5.18347156760489e-6 / 2 * T ^ 2 + (-5.14605623546025e-3) * T + 7.43175999190430e2 * Real.log T
      - (-1.65504721657240e2) / T - 1.01573580096247e4 / 2 / T ^ 2 - (-2.18203473713518e5) / 3 / T ^ 3
      + 2.98389393363817e2 * (3353.4061 / T + 3353.4061 / T / (Real.exp (3353.4061 / T) - 1) - Real.log (Real.exp (3353.4061 / T) - 1)) ∧
    dS Goxy 2239.18105 668.542976 T = 668.542976 + 4.21065222886885e-9 / 3 * T ^ 3 + 3.4981070244228e-6 / 2 * T ^ 2 + (-1.13131252131570e-2) * T + 6.55236176900400e2 * Real.log T
      - (-8.97850772730944e2) / T - 5.98231747005341e4 / 2 / T ^ 2 - (-1.29442711174062e6) / 3 / T ^ 3
      + 2.67997030050139e2 * (2239.18105 / T + 2239.18105 / T / (Real.exp (2239.18105 / T) - 1) - Real.log (Real.exp (2239.18105 / T) - 1)) := by
  have e1 : (3353.40610 : ℝ) * (1 / T) = 3353.4061 / T := by ring
  have e2 : (2239.18105 : ℝ) * (1 / T) = 2239.18105 / T := by ring
  constructor
  · simp only [dS, Gnn, List.getD_cons_zero, List.getD_cons_succ, e1]
    ring
  · simp only [dS, Goxy, List.getD_cons_zero, List.getD_cons_succ, e2]
    ring

/-- Ideal gas energy and entropy of methane. -/
theorem methU_formula {T : ℝ} (hT : 0 < T) :
    methU Gmeth 2009.152 357696.0858 T = 1.34740610e3 * T + 3 / 4 * 1.35512060e2 * T ^ ((4 : ℝ) / 3)
      + 3 / 5 * (-2.93910458e1) * T ^ ((5 : ℝ) / 3) + 2.12774600 / 2 * T ^ 2
      + 2.44656600e3 * 2009.152 / (Real.exp (2009.152 / T) - 1) + 357696.0858 ∧
    methS Gmeth 2009.152 (-1918.035071) T = -1918.035071 + 1.34740610e3 * Real.log T
      + 3 * 1.35512060e2 * T ^ ((1 : ℝ) / 3) + 3 / 2 * (-2.93910458e1) * T ^ ((2 : ℝ) / 3) + 2.12774600 * T
      + 2.44656600e3 * (2009.152 / T + 2009.152 / T / (Real.exp (2009.152 / T) - 1)
        - Real.log (Real.exp (2009.152 / T) - 1)) := by
  have e1 : (2009.152 : ℝ) * (1 / T) = 2009.152 / T := by ring
  have r4 : T ^ ((4 : ℝ) / 3) = T * T ^ ((1 : ℝ) / 3) := by
    conv_rhs => rw [← Real.rpow_one T]
    rw [Real.rpow_one, ← Real.rpow_one_add' hT.le (by norm_num)]; norm_num
  have r2 : T ^ ((2 : ℝ) / 3) = T ^ ((1 : ℝ) / 3) * T ^ ((1 : ℝ) / 3) := by
    rw [← Real.rpow_add hT]; norm_num
  have r5 : T ^ ((5 : ℝ) / 3) = T * (T ^ ((1 : ℝ) / 3) * T ^ ((1 : ℝ) / 3)) := by
    rw [← r2, ← Real.rpow_one_add' hT.le (by norm_num)]; norm_num
  rw [r4, r5, r2]
  constructor
  · simp only [methU, Gmeth, List.getD_cons_zero, List.getD_cons_succ, e1]
    ring
  · simp only [methS, Gmeth, List.getD_cons_zero, List.getD_cons_succ, e1]
    ring

/-- Coefficients of the ideal gas heat capacity of hydrogen. -/
theorem hydrogen_coefficients :
    (List.range 17).map Ghydro =
      [6.1934792e3, 2.9490437e2, -1.5401979e3, -4.9176101e3, 6.8957165e4, -2.2282185e5, 3.7990059e5,
       -3.7094216e5, 2.1326792e5, -7.1519411e4, 1.2971743e4, -9.8533014e2, 1.0434776e4, -3.9144179e2,
       5.8277696e2, 6.5409163e2, -1.8728847e2] := by
  simp only [List.range_succ, List.range_zero, List.nil_append, List.cons_append, List.map_cons, List.map_nil, Ghydro,
    List.getD_cons_zero, List.getD_cons_succ]

/-- The pressure of carbon dioxide. -/
theorem co2P_formula (T ρ : ℝ) : carbonDioxide.Pp T ρ = 188.918 * ρ * T
    + ρ ^ 2 * (2.2488558e-1 * T + (-1.3717965e2) + (-1.4430214e4) / T + (-2.9630491e6) / T ^ 2 + (-2.0606039e8) / T ^ 3)
    + ρ ^ 3 * (4.5554393e-5 * T + 7.7042840e-2 + 4.0602371e1 / T) + ρ ^ 4 * (4.0029509e-7 * T + (-3.9436077e-4))
    + ρ ^ 5 * (1.2115286e-10 * T + 1.0783386e-7) + ρ ^ 6 * 4.3962336e-11
    + Real.exp (-(0.000005 * ρ ^ 2)) * (ρ ^ 3 * ((-3.6505545e4) / T ^ 2 + 1.9490511e7 / T ^ 3 + (-2.9186718e9) / T ^ 4)
      + ρ ^ 5 * (2.4358627e-2 / T ^ 2 + (-3.7546530e1) / T ^ 3 + 1.1898141e4 / T ^ 4)) := by
  have e : -(5.0e-6 : ℝ) * ρ * ρ = -(0.000005 * ρ ^ 2) := by norm_num; ring
  simp only [carbonDioxide, co2P, e, z1, z2, z3, z4]
  generalize Real.exp (-(0.000005 * ρ ^ 2)) = E
  simp only [sum_range_succ, range_zero, sum_empty, co2C, co2H, Aco2, List.getD_cons_zero, List.getD_cons_succ]
  norm_num
  ring

/-- The pressure of heptane. -/
theorem heptP_formula (T ρ : ℝ) : heptane.Pp T ρ = 82.99504 * ρ * T
    + ρ ^ 2 * (2.246032e-3 * 82.99504 * T - 2.082990e2 - 5.085746e7 / T ^ 2 + 3.566396e9 / T ^ 3 - 1.622168e9 / T ^ 4)
    + ρ ^ 3 * (1.065237e-5 * 82.99504 * T - 5.987922e-1 - 7.736602 / T) + ρ ^ 6 * 5.291379e-9 * (5.987922e-1 + 7.736602 / T)
    + ρ ^ 3 * 1.929386e5 / T ^ 2 * (1 + 9.611604e-6 * ρ ^ 2) * Real.exp (-(9.611604e-6 * ρ ^ 2)) := by
  have e : -(9.611604e-6 : ℝ) * ρ * ρ = -(9.611604e-6 * ρ ^ 2) := by ring
  simp only [heptane, heptP, e, z1, z2, z3, z4]
  generalize Real.exp (-(9.611604e-6 * ρ ^ 2)) = E
  simp only [sum_range_succ, range_zero, sum_empty, heptC, heptH, Ahept, List.getD_cons_zero, List.getD_cons_succ]
  norm_num
  ring

/-- Ideal gas energy and entropy of carbon dioxide. -/
theorem Gco2_formula (T : ℝ) :
    pU Gco2 216.54 3.2174105e5 T = 8.726361e3 * Real.log (T / 216.54) + 1.840040e2 * (T - 216.54) + 1.914025 / 2 * (T ^ 2 - 216.54 ^ 2)
      + (-1.667825e-3) / 3 * (T ^ 3 - 216.54 ^ 3) + 7.305950e-7 / 4 * (T ^ 4 - 216.54 ^ 4) + (-1.255290e-10) / 5 * (T ^ 5 - 216.54 ^ 5) + 3.2174105e5 ∧
    pS Gco2 216.54 2.1396056e3 T = 2.1396056e3 + 1.840040e2 * Real.log (T / 216.54) - 8.726361e3 * (1 / T - 1 / 216.54) + 1.914025 * (T - 216.54)
      + (-1.667825e-3) / 2 * (T ^ 2 - 216.54 ^ 2) + 7.305950e-7 / 3 * (T ^ 3 - 216.54 ^ 3) + (-1.255290e-10) / 4 * (T ^ 4 - 216.54 ^ 4) := by
  constructor
  · rw [pU, show Icc 1 5 = ({1, 2, 3, 4, 5} : Finset ℕ) from rfl]
    simp [Gco2]
    ring
  · rw [pS, show Icc 2 5 = ({2, 3, 4, 5} : Finset ℕ) from rfl]
    simp [Gco2]
    ring

/-- Ideal gas energy and entropy of heptane. -/
theorem Ghept_formula (T : ℝ) :
    pU Ghept 300 3.4058439e5 T = 1.1925213e5 * Real.log (T / 300) + (-7.7231363e2) * (T - 300) + 7.4463527 / 2 * (T ^ 2 - 300 ^ 2)
      + (-3.0888167e-3) / 3 * (T ^ 3 - 300 ^ 3) + 0 / 4 * (T ^ 4 - 300 ^ 4) + 0 / 5 * (T ^ 5 - 300 ^ 5) + 3.4058439e5 ∧
    pS Ghept 300 1.1080254e3 T = 1.1080254e3 + (-7.7231363e2) * Real.log (T / 300) - 1.1925213e5 * (1 / T - 1 / 300) + 7.4463527 * (T - 300)
      + (-3.0888167e-3) / 2 * (T ^ 2 - 300 ^ 2) + 0 / 3 * (T ^ 3 - 300 ^ 3) + 0 / 4 * (T ^ 4 - 300 ^ 4) := by
  constructor
  · rw [pU, show Icc 1 5 = ({1, 2, 3, 4, 5} : Finset ℕ) from rfl]
    simp [Ghept]
    ring
  · rw [pS, show Icc 2 5 = ({2, 3, 4, 5} : Finset ℕ) from rfl]
    simp [Ghept]
    ring

/-- Ideal gas energy and entropy of water. -/
theorem Gwat_formula (T : ℝ) :
    pU Gwat 273.16 2375470.875 T = 4.6e4 * Real.log (T / 273.16) + 1.011249e3 * (T - 273.16) + 8.3893e-1 / 2 * (T ^ 2 - 273.16 ^ 2)
      + (-2.19989e-4) / 3 * (T ^ 3 - 273.16 ^ 3) + 2.466619e-7 / 4 * (T ^ 4 - 273.16 ^ 4) + (-9.704700e-11) / 5 * (T ^ 5 - 273.16 ^ 5) + 2375470.875 ∧
    pS Gwat 273.16 6697.356635 T = 6697.356635 + 1.011249e3 * Real.log (T / 273.16) - 4.6e4 * (1 / T - 1 / 273.16) + 8.3893e-1 * (T - 273.16)
      + (-2.19989e-4) / 2 * (T ^ 2 - 273.16 ^ 2) + 2.466619e-7 / 3 * (T ^ 3 - 273.16 ^ 3) + (-9.704700e-11) / 4 * (T ^ 4 - 273.16 ^ 4) := by
  constructor
  · rw [pU, show Icc 1 5 = ({1, 2, 3, 4, 5} : Finset ℕ) from rfl]
    simp [Gwat]
    ring
  · rw [pS, show Icc 2 5 = ({2, 3, 4, 5} : Finset ℕ) from rfl]
    simp [Gwat]
    ring

/-- The integrals over density for water; their derivatives give the pressure. -/
theorem watI_formula (ρ : ℝ) :
    watI 4.8e-3 ρ 0 = ρ * (2.9492937e-2 + (-1.3213917e-4) * (ρ - 634) + 2.7464632e-7 * (ρ - 634) ^ 2 + (-3.6093828e-10) * (ρ - 634) ^ 3
      + 3.4218431e-13 * (ρ - 634) ^ 4
      + (-2.4450042e-16) * (ρ - 634) ^ 5
      + 1.5518535e-19 * (ρ - 634) ^ 6
      + 5.9728487e-24 * (ρ - 634) ^ 7
      + Real.exp (-(0.0048 * ρ)) * ((-4.1030848e-1) + (-4.1605860e-4) * ρ)) ∧
    watI 4.8e-3 ρ 1 = ρ * ((-5.1985860e-3) + 7.7779182e-6 * (ρ - 1000) + (-3.3301902e-8) * (ρ - 1000) ^ 2 + (-1.6254622e-11) * (ρ - 1000) ^ 3
      + (-1.7731074e-13) * (ρ - 1000) ^ 4
      + 1.2748742e-16 * (ρ - 1000) ^ 5
      + 1.3746153e-19 * (ρ - 1000) ^ 6
      + 1.5597836e-22 * (ρ - 1000) ^ 7
      + Real.exp (-(0.0048 * ρ)) * (3.3731180e-1 + (-2.0988866e-4) * ρ)) ∧
    watI 4.8e-3 ρ 2 = ρ * (6.8335354e-3 + (-2.6149751e-5) * (ρ - 1000) + 6.5326396e-8 * (ρ - 1000) ^ 2 + (-2.6181978e-11) * (ρ - 1000) ^ 3
      + Real.exp (-(0.0048 * ρ)) * ((-1.3746678e-1) + (-7.3396848e-4) * ρ)) ∧
    watI 4.8e-3 ρ 3 = ρ * ((-1.5641040e-4) + (-7.2546108e-7) * (ρ - 1000) + (-9.2734289e-9) * (ρ - 1000) ^ 2 + 4.3125840e-12 * (ρ - 1000) ^ 3
      + Real.exp (-(0.0048 * ρ)) * (6.7874983e-3 + 1.0401717e-5 * ρ)) ∧
    watI 4.8e-3 ρ 4 = ρ * ((-6.3972405e-3) + 2.6409282e-5 * (ρ - 1000) + (-4.7740374e-8) * (ρ - 1000) ^ 2 + 5.6323130e-11 * (ρ - 1000) ^ 3
      + Real.exp (-(0.0048 * ρ)) * (1.3687317e-1 + 6.4581880e-4 * ρ)) ∧
    watI 4.8e-3 ρ 5 = ρ * ((-3.9661401e-3) + 1.5453061e-5 * (ρ - 1000) + (-2.9142470e-8) * (ρ - 1000) ^ 2 + 2.9568796e-11 * (ρ - 1000) ^ 3
      + Real.exp (-(0.0048 * ρ)) * (7.984797e-2 + 3.9917570e-4 * ρ)) ∧
    watI 4.8e-3 ρ 6 = ρ * ((-6.9048554e-4) + 2.7407416e-6 * (ρ - 1000) + (-5.1028070e-9) * (ρ - 1000) ^ 2 + 3.9636085e-12 * (ρ - 1000) ^ 3
      + Real.exp (-(0.0048 * ρ)) * (1.3041253e-2 + 7.1531353e-5 * ρ)) := by
  have e : -(4.8e-3 : ℝ) * ρ = -(0.0048 * ρ) := by norm_num
  simp only [watI, horner_seven, e]
  generalize Real.exp (-(0.0048 * ρ)) = E
  refine ⟨?_, ?_, ?_, ?_, ?_, ?_, ?_⟩ <;>
    simp only [Awat, List.getD_cons_zero, List.getD_cons_succ, if_true, OfNat.ofNat_ne_zero, one_ne_zero, if_false] <;> ring

/-- The functions of temperature for water. -/
theorem watC_formula (T : ℝ) : watC 461.51 1.544912 T 0 = 461.51 * T ∧
    ∀ i ∈ Icc 1 6, watC 461.51 1.544912 T i = 461.51 * T * (1000 / T - 1.544912) * (1000 / T - 2.5) ^ (i - 1) := by
  refine ⟨by simp [watC], fun i hi => ?_⟩
  rw [mem_Icc] at hi
  obtain ⟨h1, h2⟩ := hi
  interval_cases i <;> simp [watC, tauaw]

/-- The Helmholtz energy of HFC-134a. -/
theorem hfcF_formula (T ρ tau delta : ℝ) (h1 : tau = 374.18 / T) (h2 : delta = ρ / 508) :
    hfcF T ρ = 81.48885644 * T * ((-1.019535) + 9.047135 * tau + (-1.629789) * Real.log tau + Real.log delta
      + (-9.723916) / √tau + (-3.927170) * tau ^ (-0.75 : ℝ)
      + (0.5586817e-1 * tau ^ (-0.5 : ℝ) * delta ^ 2
        + 0.4982230 * tau ^ (0 : ℝ) * delta ^ 1
        + 0.2458698e-1 * tau ^ (0 : ℝ) * delta ^ 3
        + 0.8570145e-3 * tau ^ (0 : ℝ) * delta ^ 6
        + 0.4788584e-3 * tau ^ (1.5 : ℝ) * delta ^ 6
        + (-0.1800808e1) * tau ^ (1.5 : ℝ) * delta ^ 1
        + 0.2671641 * tau ^ (2.0 : ℝ) * delta ^ 1
        + (-0.4781652e-1) * tau ^ (2.0 : ℝ) * delta ^ 2)
      + Real.exp (-delta) * (0.1423987e-1 * tau ^ (1.0 : ℝ) * delta ^ 5
        + 0.3324062 * tau ^ (3.0 : ℝ) * delta ^ 2
        + (-0.7485907e-2) * tau ^ (5.0 : ℝ) * delta ^ 2)
      + Real.exp (-delta ^ 2) * (0.1017263e-3 * tau ^ (1.0 : ℝ) * delta ^ 4
        + (-0.5184567) * tau ^ (5.0 : ℝ) * delta ^ 1
        + (-0.8692288e-1) * tau ^ (5.0 : ℝ) * delta ^ 4
        + 0.2057144 * tau ^ (6.0 : ℝ) * delta ^ 1
        + (-0.5000457e-2) * tau ^ (10.0 : ℝ) * delta ^ 2
        + 0.4603262e-3 * tau ^ (10.0 : ℝ) * delta ^ 4)
      + Real.exp (-delta ^ 3) * ((-0.3497836e-2) * tau ^ (10.0 : ℝ) * delta ^ 1
        + 0.6995038e-2 * tau ^ (18.0 : ℝ) * delta ^ 5
        + (-0.1452184e-1) * tau ^ (22.0 : ℝ) * delta ^ 3)
      + Real.exp (-delta ^ 4) * ((-0.1285458e-3) * tau ^ (50.0 : ℝ) * delta ^ 10)) := by
  have e2 : -delta * delta = -delta ^ 2 := by ring
  have e3 : -delta ^ 2 * delta = -delta ^ 3 := by ring
  have e4 : -delta ^ 3 * delta = -delta ^ 4 := by ring
  simp only [hfcF, ← h1, ← h2, e2, e3, e4]
  simp only [hSum, show Ico 0 8 = ({0, 1, 2, 3, 4, 5, 6, 7} : Finset ℕ) from rfl,
    show Ico 8 11 = ({8, 9, 10} : Finset ℕ) from rfl, show Ico 11 17 = ({11, 12, 13, 14, 15, 16} : Finset ℕ) from rfl,
    show Ico 17 20 = ({17, 18, 19} : Finset ℕ) from rfl, show Ico 20 21 = ({20} : Finset ℕ) from rfl]
  simp [-mul_eq_mul_left_iff, a134, t134, d134, b134]
  ring

end Verif.TpxFluids
