import Verif.Thermo.Tpx
import Mathlib.Analysis.SpecialFunctions.Pow.Real

/-!
# Pure fluids: the eight equations of state

Model of `src/tpx/{Nitrogen,Oxygen,Methane,Hydrogen,CarbonDioxide,Heptane,HFC134a,Water}.cpp` and `src/tpx/utils.cpp`.
The members `T` and `Rho` are arguments.  The offsets of energy and entropy are added by `Tpx.up` and `Tpx.sp`, not here.
A loop that accumulates a sum is a sum over its indices.  `C`, `Cprime`, `W`, `H` and `I` of nitrogen, oxygen, methane
and hydrogen are the same text up to the name of the coefficient array, so they are modelled once.
-/

namespace Verif.TpxFluids

open Verif Finset

/-! ## The 32-coefficient equation of nitrogen, oxygen, methane and hydrogen -/

/-- `C`, `Nitrogen.cpp:59-94`, `Oxygen.cpp:56-90`, `Methane.cpp:52-86`, `Hydrogen.cpp:58-92`. -/
noncomputable def mC (A : ℕ → ℝ) (T rt rt2 : ℝ) : ℕ → ℝ
  | 0 => A 0 * T + A 1 * √T + A 2 + (A 3 + A 4 * rt) * rt
  | 1 => A 5 * T + A 6 + rt * (A 7 + A 8 * rt)
  | 2 => A 9 * T + A 10 + A 11 * rt
  | 3 => A 12
  | 4 => rt * (A 13 + A 14 * rt)
  | 5 => A 15 * rt
  | 6 => rt * (A 16 + A 17 * rt)
  | 7 => A 18 * rt2
  | 8 => rt2 * (A 19 + A 20 * rt)
  | 9 => rt2 * (A 21 + A 22 * rt2)
  | 10 => rt2 * (A 23 + A 24 * rt)
  | 11 => rt2 * (A 25 + A 26 * rt2)
  | 12 => rt2 * (A 27 + A 28 * rt)
  | 13 => rt2 * (A 29 + A 30 * rt + A 31 * rt2)
  | _ => 0

/-- `Cprime`, `Nitrogen.cpp:96-130`, `Oxygen.cpp:92-126`, `Methane.cpp:88-122`, `Hydrogen.cpp:94-128`. -/
noncomputable def mCprime (A : ℕ → ℝ) (T rt rt2 rt3 : ℝ) : ℕ → ℝ
  | 0 => A 0 + 0.5 * A 1 / √T - (A 3 + 2 * A 4 * rt) * rt2
  | 1 => A 5 - rt2 * (A 7 + 2 * A 8 * rt)
  | 2 => A 9 - A 11 * rt2
  | 3 => 0
  | 4 => -rt2 * (A 13 + 2 * A 14 * rt)
  | 5 => -A 15 * rt2
  | 6 => -rt2 * (A 16 + 2 * A 17 * rt)
  | 7 => -2 * A 18 * rt3
  | 8 => -rt3 * (2 * A 19 + 3 * A 20 * rt)
  | 9 => -rt3 * (2 * A 21 + 4 * A 22 * rt2)
  | 10 => -rt3 * (2 * A 23 + 3 * A 24 * rt)
  | 11 => -rt3 * (2 * A 25 + 4 * A 26 * rt2)
  | 12 => -rt3 * (2 * A 27 + 3 * A 28 * rt)
  | 13 => -rt3 * (2 * A 29 + 3 * A 30 * rt + 4 * A 31 * rt2)
  | _ => 0

/-- `W`, `Nitrogen.cpp:132-136`, `Oxygen.cpp:128-132`, `Methane.cpp:124-128`, `Hydrogen.cpp:130-134`. -/
noncomputable def mW (Γ ρ egrho : ℝ) : ℕ → ℝ
  | 0 => (1 - egrho) / (2 * Γ)
  | n + 1 => (((n + 1 : ℕ) : ℝ) * mW Γ ρ egrho n - 0.5 * ρ ^ (2 * (n + 1)) * egrho) / Γ

/-- `H`, `Nitrogen.cpp:138-141`, `Oxygen.cpp:134-137`, `Methane.cpp:130-133`, `Hydrogen.cpp:136-139`. -/
noncomputable def mH (ρ egrho : ℝ) (i : ℕ) : ℝ :=
  if i < 8 then ρ ^ (i + 2) else ρ ^ (2 * i - 13) * egrho

/-- `I`, `Nitrogen.cpp:143-146`, `Oxygen.cpp:139-142`, `Methane.cpp:135-138`, `Hydrogen.cpp:141-144`. -/
noncomputable def mI (Γ ρ egrho : ℝ) (i : ℕ) : ℝ :=
  if i < 8 then ρ ^ (i + 1) / ((i + 1 : ℕ) : ℝ) else mW Γ ρ egrho (i - 8)

/-- Loop of `up`, `Nitrogen.cpp:150-158`, `Oxygen.cpp:146-154`, `Methane.cpp:142-151`, `Hydrogen.cpp:153-160`. -/
noncomputable def mUres (A : ℕ → ℝ) (Γ T ρ : ℝ) : ℝ :=
  let rt := 1 / T
  let rt2 := rt * rt
  let rt3 := rt * rt2
  let egrho := Real.exp (-Γ * ρ * ρ)
  ∑ i ∈ range 14, (mC A T rt rt2 i - T * mCprime A T rt rt2 rt3 i) * mI Γ ρ egrho i

/-- Loop of `sp`, `Nitrogen.cpp:169-178`, `Oxygen.cpp:162-171`, `Methane.cpp:159-168`, `Hydrogen.cpp:181-188`. -/
noncomputable def mSres (A : ℕ → ℝ) (R Γ T ρ : ℝ) : ℝ :=
  let rt := 1 / T
  let rt2 := rt * rt
  let rt3 := rt * rt2
  let egrho := Real.exp (-Γ * ρ * ρ)
  (-(R * Real.log ρ)) - ∑ i ∈ range 14, mCprime A T rt rt2 rt3 i * mI Γ ρ egrho i

/-- `Pp`, `Nitrogen.cpp:186-197`, `Oxygen.cpp:179-190`, `Methane.cpp:175-186`, `Hydrogen.cpp:207-218`. -/
noncomputable def mPp (A : ℕ → ℝ) (R Γ T ρ : ℝ) : ℝ :=
  let rt := 1 / T
  let rt2 := rt * rt
  let egrho := Real.exp (-Γ * ρ * ρ)
  ρ * R * T + ∑ i ∈ range 14, mC A T rt rt2 i * mH ρ egrho i

/-- Ideal gas part of the energy of nitrogen and oxygen, `Nitrogen.cpp:159-162`, `Oxygen.cpp:155-156`. -/
noncomputable def dU (G : ℕ → ℝ) (β u0 T : ℝ) : ℝ :=
  let rt := 1 / T
  (((0.25 * G 6 * T + G 5 / 3) * T + 0.5 * G 4) * T + G 3) * T + G 2 * Real.log T
    - (G 1 + 0.5 * G 0 * rt) * rt + G 7 * β / (Real.exp (β * rt) - 1) + u0

/-- Ideal gas part of the entropy of nitrogen and oxygen, `Nitrogen.cpp:175,179-182`, `Oxygen.cpp:168,172-175`. -/
noncomputable def dS (G : ℕ → ℝ) (β s0 T : ℝ) : ℝ :=
  let rt := 1 / T
  s0 + ((((G 6 / 3) * T + 0.5 * G 5) * T + G 4) * T + G 3 * Real.log T
    - ((G 0 * rt / 3 + 0.5 * G 1) * rt + G 2) * rt
    + G 7 * (β * rt + β * rt / (Real.exp (β * rt) - 1) - Real.log (Real.exp (β * rt) - 1)))

/-- `Psat` of nitrogen and oxygen, `Nitrogen.cpp:199-216`, `Oxygen.cpp:192-209`. -/
noncomputable def dPsat (F : ℕ → ℝ) (Tmn Tc α T : ℝ) : Option ℝ :=
  if T < Tmn ∨ T > Tc then none
  else some (Real.exp ((∑ i ∈ range 8, if i = 3 then F i * (Tc - T) ^ α else F i * T ^ ((i : ℤ) - 1))
    + F 8 * Real.log T))

/-- `ldens` of nitrogen and oxygen, `Nitrogen.cpp:218-229`, `Oxygen.cpp:211-222`; also of carbon dioxide and heptane,
whose loops run one higher and subtract one, `CarbonDioxide.cpp:264-275`, `Heptane.cpp:221-233`. -/
noncomputable def dLdens (D : ℕ → ℝ) (Tmn Tc T : ℝ) : Option ℝ :=
  let xx := 1 - T / Tc
  if T < Tmn ∨ T > Tc then none else some (∑ i ∈ range 6, D i * xx ^ ((i : ℝ) / 3))

/-! ## Nitrogen -/

/-- `Nitrogen.cpp:26-39`. -/
noncomputable def Ann (i : ℕ) : ℝ :=
  [1.75889959256970e-1, 1.38197604384933e1, -3.14918412133921e2, 4.40300150239380e3,
    -5.45358971644916e5, 4.84413320182919e-4, -5.18964416491365e-2, 6.57265859197103e-4,
    8.51299771713314e4, 1.33459405162578e-8, 3.83381319826746e-4, -8.35421151028455e-2,
    2.84874912286101e-7, -2.38296116270360e-7, -1.48321912935764e-4, 5.62605853190540e-10,
    -2.98201050924595e-13, 9.85319087685241e-11, -1.92002176056468e-14, -7.82250103373122e4,
    -5.51801778744598e5, -5.72781957607352e-1, 3.25760529488327e2, -1.34659309828737e-6,
    -1.92036423064911e-5, -3.94564337674524e-12, -2.44388245328965e-9, -1.50970602460077e-18,
    1.25854885346038e-16, -8.34271144923969e-24, -1.17299202018417e-22, 9.06544823455730e-22].getD i 0

/-- `Nitrogen.cpp:41-46`. -/
noncomputable def Fnn (i : ℕ) : ℝ :=
  [8.3944094440e3, -1.8785191705e3, -7.2822291650, 1.0228509660e-2, 5.5560638250e-4, -5.9445446620e-6,
    2.7154339320e-8, -4.8795359040e-11, 5.0953608240e2].getD i 0

/-- `Nitrogen.cpp:48-51`. -/
noncomputable def Dnn (i : ℕ) : ℝ :=
  [3.1402991e2, 4.4111015e2, 9.4622994e2, -2.9067111e3, 4.4785979e3, -2.2746914e3].getD i 0

/-- `Nitrogen.cpp:53-57`. -/
noncomputable def Gnn (i : ℕ) : ℝ :=
  [-2.18203473713518e5, 1.01573580096247e4, -1.65504721657240e2, 7.43175999190430e2,
    -5.14605623546025e-3, 5.18347156760489e-6, -1.05922170493616e-9, 2.98389393363817e2].getD i 0

/-- Constants `Nitrogen.cpp:13-24`, functions `Nitrogen.cpp:148-254`. -/
noncomputable def nitrogen : Tpx.Eos where
  mw := 28.01348
  Tc := 126.200
  Pc := 3.4e6
  Vc := 1 / 314.03
  Tmin := 63.15
  Tmax := 2000
  Pp := fun T ρ => mPp Ann 2.96790515164171e2 7.13602531283233e-6 T ρ
  up := fun T ρ => mUres Ann 7.13602531283233e-6 T ρ + dU Gnn 3353.40610 150877.551 T
  sp := fun T ρ => mSres Ann 2.96790515164171e2 7.13602531283233e-6 T ρ + dS Gnn 3353.40610 214.9352518 T
  ldens := dLdens Dnn 63.15 126.200
  Psat := dPsat Fnn 63.15 126.200 1.95

/-! ## Oxygen -/

/-- `Oxygen.cpp:27-39`. -/
noncomputable def Aoxy (i : ℕ) : ℝ :=
  [-4.26396872798684e-1, 3.48334938784107e1, -5.77516910418738e2, 2.40961751553325e4,
    -1.23332307855543e6, 3.73585286319658e-4, -1.70178244046465e-1, -3.33226903068473e-4,
    8.61334799901291e3, -6.80394661057309e-7, 7.09583347162704e-4, -5.73905688255053e-2,
    -1.92123080811409e-7, 3.11764722329504e-8, -8.09463854745591e-6, -2.22562296356501e-11,
    9.18401045361994e-15, 5.75758417511114e-12, -2.10752269644774e-15, 3.62884761272184e3,
    -1.23317754317110e6, -5.03800414800672e-2, 3.30686173177055e2, -5.26259633964252e-8,
    5.53075442383100e-6, -2.71042853363688e-13, -1.65732450675251e-9, -5.82711196409204e-20,
    4.42953322148281e-17, -2.95529679136244e-25, -1.92361786708846e-23, 9.43758410350413e-23].getD i 0

/-- `Oxygen.cpp:41-45`. -/
noncomputable def Foxy (i : ℕ) : ℝ :=
  [-5.581932039e2, -1.0966262185e2, -8.3456211630e-2, 2.6603644330e-3, 1.6875023830e-5,
    -2.1262477120e-7, 9.5741096780e-10, -1.6617640450e-12, 2.7545605710e1].getD i 0

/-- `Oxygen.cpp:47-48`. -/
noncomputable def Doxy (i : ℕ) : ℝ :=
  [4.3615175e2, 7.5897189e2, -4.2576866e2, 2.3487106e3, -3.0474660e3, 1.4850169e3].getD i 0

/-- `Oxygen.cpp:50-54`. -/
noncomputable def Goxy (i : ℕ) : ℝ :=
  [-1.29442711174062e6, 5.98231747005341e4, -8.97850772730944e2, 6.55236176900400e2,
    -1.13131252131570e-2, 3.4981070244228e-6, 4.21065222886885e-9, 2.67997030050139e2].getD i 0

/-- Constants `Oxygen.cpp:13-25`, functions `Oxygen.cpp:144-247`. -/
noncomputable def oxygen : Tpx.Eos where
  mw := 31.9994
  Tc := 154.581
  Pc := 5.0429e6
  Vc := 1 / 436.15
  Tmin := 54.34
  Tmax := 2000
  Pp := fun T ρ => mPp Aoxy 2.59820853437877e2 5.46895508389297e-6 T ρ
  up := fun T ρ => mUres Aoxy 5.46895508389297e-6 T ρ + dU Goxy 2239.18105 198884.2435 T
  sp := fun T ρ => mSres Aoxy 2.59820853437877e2 5.46895508389297e-6 T ρ + dS Goxy 2239.18105 668.542976 T
  ldens := dLdens Doxy 54.34 154.581
  Psat := dPsat Foxy 54.34 154.581 1.91576

/-! ## Methane -/

/-- `Methane.cpp:31-41`. -/
noncomputable def Ameth (i : ℕ) : ℝ :=
  [-7.25929210183, 4.13766054566e2, -6.32167316855e3, 3.34015577724e5, -1.68253379982e7,
    1.87884851902e-2, -1.18673201223e1, 2.09062618015e3, -4.07532656958e5, -5.73917603241e-5,
    4.37711441593e-2, -4.38766500673, 1.13524630779e-5, -5.07028240949e-5, 2.28002199522e-2,
    9.25611329590e-9, 1.33865662546e-10, -1.65439044196e-7, 1.81030980110e-10, 5.45753645958e5,
    -3.63192281933e7, 4.81463473761, 1.56633022620e5, 7.89977010972e-5, 1.39993881210e-2,
    -1.70656092212e-11, -4.55256623445e-5, -2.29314170748e-14, 8.31548197665e-12, 6.84673626259e-20,
    -4.70845544152e-17, 5.21465091383e-16].getD i 0

/-- `Methane.cpp:43-44`. -/
noncomputable def Dmeth (i : ℕ) : ℝ :=
  [-1.78860165e-1, 4.83847500e-2, -1.84898700e-2].getD i 0

/-- `Methane.cpp:46-47`. -/
noncomputable def Fmeth (i : ℕ) : ℝ :=
  [4.77748580, 1.76065363, -5.67888940e-1, 1.32786231].getD i 0

/-- `Methane.cpp:49-50`. -/
noncomputable def Gmeth (i : ℕ) : ℝ :=
  [1.34740610e3, 1.35512060e2, -2.93910458e1, 2.12774600, 2.44656600e3].getD i 0

/-- Ideal gas part of the energy, `Methane.cpp:144,146,152-153`. -/
noncomputable def methU (G : ℕ → ℝ) (β u0 T : ℝ) : ℝ :=
  let rt := 1 / T
  let t3 := T ^ ((1 : ℝ) / 3)
  T * (G 0 + 0.75 * G 1 * t3 + 0.6 * G 2 * t3 * t3 + 0.5 * G 3 * T) + G 4 * β / (Real.exp (β * rt) - 1) + u0

/-- Ideal gas part of the entropy, `Methane.cpp:159,163,165,169-171`. -/
noncomputable def methS (G : ℕ → ℝ) (β s0 T : ℝ) : ℝ :=
  let rt := 1 / T
  let t3 := T ^ ((1 : ℝ) / 3)
  s0 + (G 0 * Real.log T + 3 * G 1 * t3 + 1.5 * G 2 * t3 * t3 + G 3 * T
    + G 4 * (β * rt + β * rt / (Real.exp (β * rt) - 1) - Real.log (Real.exp (β * rt) - 1)))

/-- `Psat` of methane and hydrogen, `Methane.cpp:188-199`, `Hydrogen.cpp:235-246`. -/
noncomputable def tPsat (F : ℕ → ℝ) (Tmn Tc Tt Pt α T : ℝ) : Option ℝ :=
  let x := (1 - Tt / T) / (1 - Tt / Tc)
  if T < Tmn ∨ T > Tc then none
  else some (Real.exp (F 0 * x + F 1 * x * x + F 2 * x * x * x + F 3 * x * (1 - x) ^ α) * Pt)

/-- `ldens`, `Methane.cpp:201-217`. -/
noncomputable def methLdens (D : ℕ → ℝ) (Tmn Tc Tt Rot Roc α1 T : ℝ) : Option ℝ :=
  if T < Tmn ∨ T > Tc then none
  else
    let w := (Tc - T) / (Tc - Tt)
    let sum := D 0 * (1 - w ^ ((2 : ℝ) / 3)) + D 1 * (1 - w ^ ((4 : ℝ) / 3)) + D 2 * (1 - w ^ 2)
    some (w ^ α1 * Real.exp sum * (Rot - Roc) + Roc)

/-- Constants `Methane.cpp:13-29`, functions `Methane.cpp:140-242`. -/
noncomputable def methane : Tpx.Eos where
  mw := 16.04996
  Tc := 190.555
  Pc := 4.5988e6
  Vc := 1 / 160.43
  Tmin := 90.68
  Tmax := 1700
  Pp := fun T ρ => mPp Ameth 5.18253475866e2 3.72992471469e-5 T ρ
  up := fun T ρ => mUres Ameth 3.72992471469e-5 T ρ + methU Gmeth 2009.152 357696.0858 T
  sp := fun T ρ => mSres Ameth 5.18253475866e2 3.72992471469e-5 T ρ + methS Gmeth 2009.152 (-1918.035071) T
  ldens := methLdens Dmeth 90.68 190.555 90.68 451.562 160.43 0.36
  Psat := tPsat Fmeth 90.68 190.555 90.68 11743.5675 1.5

/-! ## Hydrogen -/

/-- `Hydrogen.cpp:32-44`. -/
noncomputable def Ahydro (i : ℕ) : ℝ :=
  [1.150470519352900e1, 1.055427998826072e3, -1.270685949968568e4, 7.287844527295619e4,
    -7.448780703363973e5, 2.328994151810363e-1, -1.635308393739296e1, 3.730678064960389e3,
    6.299667723184813e5, 1.210920358305697e-3, 1.753651095884817, -1.367022988058101e2,
    -6.869936641299885e-3, 3.644494201750974e-2, -2.559784772600182, -4.038855202905836e-4,
    1.485396303520942e-6, 4.243613981060742e-4, -2.307910113586888e-6, -6.082192173879582e5,
    -1.961080967486886e6, -5.786932854076408e2, 2.799129504191752e4, -2.381566558300913e-1,
    8.918796032452872e-1, -6.985739539036644e-5, -7.339554179182899e-3, -5.597033440289980e-9,
    8.842130160884514e-8, -2.655507264539047e-12, -4.544474518140164e-12, 9.818775257001922e-11].getD i 0

/-- `Hydrogen.cpp:45-48`. -/
noncomputable def Dhydro (i : ℕ) : ℝ :=
  [4.8645813003e1, -3.4779278180e1, 4.0776538192e2, -1.1719787304e3, 1.6213924400e3, -1.1531096683e3,
    3.3825492039e2].getD i 0

/-- `Hydrogen.cpp:49-50`. -/
noncomputable def Fhydro (i : ℕ) : ℝ :=
  [3.05300134164, 2.80810925813, -6.55461216567e-1, 1.59514439374].getD i 0

/-- `Hydrogen.cpp:51-56`. -/
noncomputable def Ghydro (i : ℕ) : ℝ :=
  [6.1934792e3, 2.9490437e2, -1.5401979e3, -4.9176101e3, 6.8957165e4, -2.2282185e5, 3.7990059e5,
    -3.7094216e5, 2.1326792e5, -7.1519411e4, 1.2971743e4, -9.8533014e2, 1.0434776e4, -3.9144179e2,
    5.8277696e2, 6.5409163e2, -1.8728847e2].getD i 0

/-- `icv`, `Hydrogen.cpp:146-149`. -/
noncomputable def icv (x xlg : ℝ) : ℕ → ℝ
  | 0 => x - 1
  | i + 1 => x * xlg ^ (i + 1) - ((i + 1 : ℕ) : ℝ) * icv x xlg i

open Classical in
/-- Ideal gas part of the energy, `Hydrogen.cpp:157,162-175`, with the constants of lines 20-28. -/
noncomputable def hydU (G : ℕ → ℝ) (T : ℝ) : ℝ :=
  3.9275114e5 + G 0 * (min T 35 - 13.8)
    + (if T > 35 then
        let x := min T 400 / 35
        ∑ i ∈ range 12, G i * 35 * icv x (Real.log x) i
      else 0)
    + (if T > 400 then
        let x := T / 400
        ∑ i ∈ range 5, G (i + 12) * 400 * icv x (Real.log x) i
      else 0)

open Classical in
/-- Ideal gas part of the entropy, `Hydrogen.cpp:185,190-203`. -/
noncomputable def hydS (G : ℕ → ℝ) (T : ℝ) : ℝ :=
  2.3900333e4 + G 0 * Real.log (min T 35 / 13.8)
    + (if T > 35 then
        let xlg := Real.log (min T 400 / 35)
        ∑ i ∈ range 12, G i / ((i + 1 : ℕ) : ℝ) * xlg ^ (i + 1)
      else 0)
    + (if T > 400 then
        let xlg := Real.log (T / 400)
        ∑ i ∈ range 5, G (i + 12) / ((i + 1 : ℕ) : ℝ) * xlg ^ (i + 1)
      else 0)

/-- `ldens`, `Hydrogen.cpp:220-233`. -/
noncomputable def hydLdens (D : ℕ → ℝ) (Tmn Tc Roc α1 T : ℝ) : Option ℝ :=
  if T < Tmn ∨ T > Tc then none
  else
    let x := 1 - T / Tc
    some ((∑ i ∈ Icc 1 6, D i * x ^ (1 + ((i : ℝ) - 1) / 3)) + Roc + D 0 * x ^ α1)

/-- Constants `Hydrogen.cpp:13-30`, functions `Hydrogen.cpp:151-271`. -/
noncomputable def hydrogen : Tpx.Eos where
  mw := 2.0159
  Tc := 32.938
  Pc := 1.2838e6
  Vc := 1 / 31.36
  Tmin := 13.8
  Tmax := 5000
  Pp := fun T ρ => mPp Ahydro 4124.299539 1.008854772e-3 T ρ
  up := fun T ρ => mUres Ahydro 1.008854772e-3 T ρ + hydU Ghydro T
  sp := fun T ρ => mSres Ahydro 4124.299539 1.008854772e-3 T ρ + hydS Ghydro T
  ldens := hydLdens Dhydro 13.8 32.938 31.36 0.3479
  Psat := tPsat Fhydro 13.8 32.938 13.8 7042.09 1.5814454428

/-! ## Carbon dioxide -/

/-- `CarbonDioxide.cpp:36-56`. -/
noncomputable def Aco2 (i : ℕ) : ℝ :=
  [2.2488558e-1, -1.3717965e2, -1.4430214e4, -2.9630491e6, -2.0606039e8, 4.5554393e-5, 7.7042840e-2,
    4.0602371e1, 4.0029509e-7, -3.9436077e-4, 1.2115286e-10, 1.0783386e-7, 4.3962336e-11, -3.6505545e4,
    1.9490511e7, -2.9186718e9, 2.4358627e-2, -3.7546530e1, 1.1898141e4].getD i 0

/-- `CarbonDioxide.cpp:59-68`. -/
noncomputable def Fco2 (i : ℕ) : ℝ :=
  [-6.5412610, -2.7914636e-1, -3.4716202, -3.4989637, -1.9770948e1, 1.3922839e2, -2.7670389e2,
    -7.0510251e3].getD i 0

/-- `CarbonDioxide.cpp:71-78`. -/
noncomputable def Dco2 (i : ℕ) : ℝ :=
  [4.6400009e2, 6.7938129e2, 1.4776836e3, -3.1267676e3, 3.6397656e3, -1.3437098e3].getD i 0

/-- `CarbonDioxide.cpp:81-88`. -/
noncomputable def Gco2 (i : ℕ) : ℝ :=
  [8.726361e3, 1.840040e2, 1.914025, -1.667825e-3, 7.305950e-7, -1.255290e-10].getD i 0

/-- `C`, `CarbonDioxide.cpp:90-120`. -/
noncomputable def co2C (A : ℕ → ℝ) (T T1 T2 T3 T4 : ℝ) : ℕ → ℝ
  | 0 => A 0 * T + A 1 + A 2 * T1 + A 3 * T2 + A 4 * T3
  | 1 => A 5 * T + A 6 + A 7 * T1
  | 2 => A 8 * T + A 9
  | 3 => A 10 * T + A 11
  | 4 => A 12
  | 5 => A 13 * T2 + A 14 * T3 + A 15 * T4
  | 6 => A 16 * T2 + A 17 * T3 + A 18 * T4
  | _ => 0

/-- `Cprime`, `CarbonDioxide.cpp:122-152`. -/
noncomputable def co2Cprime (A : ℕ → ℝ) (T T2 T3 T4 : ℝ) : ℕ → ℝ
  | 0 => A 0 + -A 2 * T2 + -2 * A 3 * T3 + -3 * A 4 * T4
  | 1 => A 5 - A 7 * T2
  | 2 => A 8
  | 3 => A 10
  | 4 => 0
  | 5 => -2 * A 13 * T3 + -3 * A 14 * T4 + -4 * A 15 * T ^ (-5 : ℤ)
  | 6 => -2 * A 16 * T3 + -3 * A 17 * T4 + -4 * A 18 * T ^ (-5 : ℤ)
  | _ => 0

/-- `I`, `CarbonDioxide.cpp:154-174`. -/
noncomputable def co2I (Γ ρ egrho : ℝ) : ℕ → ℝ
  | 0 => ρ
  | 1 => ρ ^ 2 / 2
  | 2 => ρ ^ 3 / 3
  | 3 => ρ ^ 4 / 4
  | 4 => ρ ^ 5 / 5
  | 5 => (1 - egrho) / (2 * Γ)
  | 6 => (1 - egrho * (Γ * ρ ^ 2 + 1)) / (2 * Γ * Γ)
  | _ => 0

/-- `H`, `CarbonDioxide.cpp:176-187`. -/
noncomputable def co2H (ρ egrho : ℝ) (i : ℕ) : ℝ :=
  if i < 5 then ρ ^ (i + 2) else if i = 5 then ρ ^ 3 * egrho else if i = 6 then ρ ^ 5 * egrho else 0

/-- Ideal gas part of the energy of carbon dioxide, heptane and water, `CarbonDioxide.cpp:199-203,208`,
`Heptane.cpp:160-163,167`, `Water.cpp:129-132`. -/
noncomputable def pU (G : ℕ → ℝ) (To u0 T : ℝ) : ℝ :=
  G 0 * Real.log (T / To) + ∑ i ∈ Icc 1 5, G i * (T ^ i - To ^ i) / (i : ℝ) + u0

/-- Ideal gas part of the entropy of carbon dioxide, heptane and water, `CarbonDioxide.cpp:220-224,228`,
`Heptane.cpp:179-183,187`, `Water.cpp:140-145`. -/
noncomputable def pS (G : ℕ → ℝ) (To s0 T : ℝ) : ℝ :=
  (∑ i ∈ Icc 2 5, G i * (T ^ (i - 1) - To ^ (i - 1)) / ((i - 1 : ℕ) : ℝ)) + G 1 * Real.log (T / To)
    - G 0 * (1 / T - 1 / To) + s0

/-- `Psat` of carbon dioxide and heptane, `CarbonDioxide.cpp:248-262`, `Heptane.cpp:206-219`. -/
noncomputable def pPsat (F : ℕ → ℝ) (Tmn Tc Tp Pc T : ℝ) : Option ℝ :=
  if T < Tmn ∨ T > Tc then none
  else some (Real.exp ((Tc / T - 1) * ∑ i ∈ Icc 1 8, F (i - 1) * (T / Tp - 1) ^ (i - 1)) * Pc)

/-- `up`, `CarbonDioxide.cpp:189-210`. -/
noncomputable def co2U (T ρ : ℝ) : ℝ :=
  let egrho := Real.exp (-5.0e-6 * ρ * ρ)
  pU Gco2 216.54 3.2174105e5 T + ∑ i ∈ range 7, co2I 5.0e-6 ρ egrho i *
    (co2C Aco2 T (1 / T) (T ^ (-2 : ℤ)) (T ^ (-3 : ℤ)) (T ^ (-4 : ℤ)) i
      - T * co2Cprime Aco2 T (T ^ (-2 : ℤ)) (T ^ (-3 : ℤ)) (T ^ (-4 : ℤ)) i)

/-- `sp`, `CarbonDioxide.cpp:212-230`. -/
noncomputable def co2S (T ρ : ℝ) : ℝ :=
  let egrho := Real.exp (-5.0e-6 * ρ * ρ)
  pS Gco2 216.54 2.1396056e3 T - 188.918 * Real.log ρ
    - ∑ i ∈ range 7, co2Cprime Aco2 T (T ^ (-2 : ℤ)) (T ^ (-3 : ℤ)) (T ^ (-4 : ℤ)) i * co2I 5.0e-6 ρ egrho i

/-- `Pp`, `CarbonDioxide.cpp:232-246`. -/
noncomputable def co2P (T ρ : ℝ) : ℝ :=
  let egrho := Real.exp (-5.0e-6 * ρ * ρ)
  ρ * 188.918 * T
    + ∑ i ∈ range 7, co2C Aco2 T (T ^ (-1 : ℤ)) (T ^ (-2 : ℤ)) (T ^ (-3 : ℤ)) (T ^ (-4 : ℤ)) i * co2H ρ egrho i

/-- Constants `CarbonDioxide.cpp:22-33`, functions `CarbonDioxide.cpp:189-303`. -/
noncomputable def carbonDioxide : Tpx.Eos where
  mw := 44.01
  Tc := 304.21
  Pc := 7.38350e6
  Vc := 1 / 464.00
  Tmin := 216.54
  Tmax := 1500
  Pp := co2P
  up := co2U
  sp := co2S
  ldens := dLdens Dco2 216.54 304.21
  Psat := pPsat Fco2 216.54 304.21 250 7.38350e6

/-! ## Heptane -/

/-- `Heptane.cpp:34-45`. -/
noncomputable def Ahept (i : ℕ) : ℝ :=
  [2.246032e-3, 2.082990e2, 5.085746e7, 3.566396e9, 1.622168e9, 1.065237e-5, 5.987922e-1, 7.736602,
    1.929386e5, 5.291379e-9].getD i 0

/-- `Heptane.cpp:48-57`. -/
noncomputable def Fhept (i : ℕ) : ℝ :=
  [-7.2298764, 3.8607475e-1, -3.4216472, 4.6274432e-1, -9.7926124, -4.2058094e1, 7.5468678e1,
    3.1758992e2].getD i 0

/-- `Heptane.cpp:60-67`. -/
noncomputable def Dhept (i : ℕ) : ℝ :=
  [1.9760405e2, 8.9451237e2, -1.1462908e3, 1.7996947e3, -1.7250843e3, 9.7088329e2].getD i 0

/-- `Heptane.cpp:70-77`. -/
noncomputable def Ghept (i : ℕ) : ℝ :=
  [1.1925213e5, -7.7231363e2, 7.4463527, -3.0888167e-3, 0, 0].getD i 0

/-- `C`, `Heptane.cpp:79-99`. -/
noncomputable def heptC (A : ℕ → ℝ) (R T T1 T2 T3 T4 : ℝ) : ℕ → ℝ
  | 0 => A 0 * R * T - A 1 - A 2 * T2 + A 3 * T3 - A 4 * T4
  | 1 => A 5 * R * T - A 6 - A 7 * T1
  | 2 => A 9 * (A 6 + A 7 * T1)
  | 3 => A 8 * T2
  | _ => 0

/-- `Cprime`, `Heptane.cpp:101-119`. -/
noncomputable def heptCprime (A : ℕ → ℝ) (R T T2 T3 T4 : ℝ) : ℕ → ℝ
  | 0 => A 0 * R - -2 * A 2 * T3 + -3 * A 3 * T4 - -4 * A 4 * T ^ (-5 : ℤ)
  | 1 => A 5 * R - -1 * A 7 * T2
  | 2 => A 9 * (-1 * A 7 * T2)
  | 3 => -2 * A 8 * T3
  | _ => 0

/-- `I`, `Heptane.cpp:121-135`. -/
noncomputable def heptI (Γ ρ egrho : ℝ) : ℕ → ℝ
  | 0 => ρ
  | 1 => ρ * ρ / 2
  | 2 => ρ ^ 5 / 5
  | 3 => 1 / Γ - (Γ * ρ * ρ + 2) * egrho / (2 * Γ)
  | _ => 0

/-- `H`, `Heptane.cpp:137-148`. -/
noncomputable def heptH (Γ ρ egrho : ℝ) (i : ℕ) : ℝ :=
  if i < 2 then ρ ^ (i + 2) else if i = 2 then ρ ^ 6
  else if i = 3 then ρ ^ 3 * (1 + Γ * ρ * ρ) * egrho else 0

/-- `up`, `Heptane.cpp:150-169`. -/
noncomputable def heptU (T ρ : ℝ) : ℝ :=
  let egrho := Real.exp (-9.611604e-6 * ρ * ρ)
  pU Ghept 300 3.4058439e5 T + ∑ i ∈ range 7,
    (heptC Ahept 82.99504 T (1 / T) (T ^ (-2 : ℤ)) (T ^ (-3 : ℤ)) (T ^ (-4 : ℤ)) i
      - T * heptCprime Ahept 82.99504 T (T ^ (-2 : ℤ)) (T ^ (-3 : ℤ)) (T ^ (-4 : ℤ)) i) * heptI 9.611604e-6 ρ egrho i

/-- `sp`, `Heptane.cpp:171-189`. -/
noncomputable def heptS (T ρ : ℝ) : ℝ :=
  let egrho := Real.exp (-9.611604e-6 * ρ * ρ)
  pS Ghept 300 1.1080254e3 T - 82.99504 * Real.log ρ - ∑ i ∈ range 7,
    heptCprime Ahept 82.99504 T (T ^ (-2 : ℤ)) (T ^ (-3 : ℤ)) (T ^ (-4 : ℤ)) i * heptI 9.611604e-6 ρ egrho i

/-- `Pp`, `Heptane.cpp:191-204`. -/
noncomputable def heptP (T ρ : ℝ) : ℝ :=
  let egrho := Real.exp (-9.611604e-6 * ρ * ρ)
  ρ * 82.99504 * T + ∑ i ∈ range 4,
    heptC Ahept 82.99504 T (T ^ (-1 : ℤ)) (T ^ (-2 : ℤ)) (T ^ (-3 : ℤ)) (T ^ (-4 : ℤ)) i * heptH 9.611604e-6 ρ egrho i

/-- Constants `Heptane.cpp:20-31`, functions `Heptane.cpp:150-261`. -/
noncomputable def heptane : Tpx.Eos where
  mw := 100.20
  Tc := 537.68
  Pc := 2.6199e6
  Vc := 1 / 197.60
  Tmin := 182.56
  Tmax := 1000
  Pp := heptP
  up := heptU
  sp := heptS
  ldens := dLdens Dhept 182.56 537.68
  Psat := pPsat Fhept 182.56 537.68 400 2.6199e6

/-! ## Water -/

/-- `Water.cpp:31-60`. -/
noncomputable def Awat (i j : ℕ) : ℝ :=
  [[2.9492937e-2, -5.1985860e-3, 6.8335354e-3, -1.5641040e-4, -6.3972405e-3, -3.9661401e-3, -6.9048554e-4],
    [-1.3213917e-4, 7.7779182e-6, -2.6149751e-5, -7.2546108e-7, 2.6409282e-5, 1.5453061e-5, 2.7407416e-6],
    [2.7464632e-7, -3.3301902e-8, 6.5326396e-8, -9.2734289e-9, -4.7740374e-8, -2.9142470e-8, -5.1028070e-9],
    [-3.6093828e-10, -1.6254622e-11, -2.6181978e-11, 4.3125840e-12, 5.6323130e-11, 2.9568796e-11, 3.9636085e-12],
    [3.4218431e-13, -1.7731074e-13, 0, 0, 0, 0, 0],
    [-2.4450042e-16, 1.2748742e-16, 0, 0, 0, 0, 0],
    [1.5518535e-19, 1.3746153e-19, 0, 0, 0, 0, 0],
    [5.9728487e-24, 1.5597836e-22, 0, 0, 0, 0, 0],
    [-4.1030848e-1, 3.3731180e-1, -1.3746678e-1, 6.7874983e-3, 1.3687317e-1, 7.984797e-2, 1.3041253e-2],
    [-4.1605860e-4, -2.0988866e-4, -7.3396848e-4, 1.0401717e-5, 6.4581880e-4, 3.9917570e-4, 7.1531353e-5]].getD i [] |>.getD j 0

/-- `Water.cpp:62-64`. -/
noncomputable def Fwat (i : ℕ) : ℝ :=
  [-7.4192420, 2.9721e-1, -1.155286e-1, 8.685635e-3, 1.0940980e-3, -4.39993e-3, 2.5206580e-3,
    -5.2186840e-4].getD i 0

/-- `Water.cpp:66-68`. -/
noncomputable def Dwat (i : ℕ) : ℝ :=
  [3.6711257, -2.8512396e1, 2.2265240e2, -8.8243852e2, 2.0002765e3, -2.6122557e3, 1.8297674e3,
    -5.3350520e2].getD i 0

/-- `Water.cpp:70-72`. -/
noncomputable def Gwat (i : ℕ) : ℝ :=
  [4.6e4, 1.011249e3, 8.3893e-1, -2.19989e-4, 2.466619e-7, -9.704700e-11].getD i 0

/-- `Water.cpp:74-74`. -/
noncomputable def tauaw (i : ℕ) : ℝ :=
  [1.544912, 2.5, 2.5, 2.5, 2.5, 2.5, 2.5].getD i 0

/-- `C`, `Water.cpp:76-80`.  The exponent `i - 1` is only used for positive `i`. -/
noncomputable def watC (R tauc T : ℝ) (i : ℕ) : ℝ :=
  let tau := 1000 / T
  if i = 0 then R * T else R * T * (tau - tauc) * (tau - tauaw i) ^ (i - 1)

/-- `Cprime`, `Water.cpp:82-88`. -/
noncomputable def watCprime (R tauc T : ℝ) (i : ℕ) : ℝ :=
  let tau := 1000 / T
  if i = 0 then R else if i = 1 then -R * tauc
  else -R * (tau - tauaw i) ^ (i - 2) * (tauc * (tau - tauaw i) + ((i : ℝ) - 1) * tau * (tau - tauc))

/-- Loop `for (i = n; i > 0; i--) { sum += a(i); sum *= factor; }`. -/
noncomputable def horner (a : ℕ → ℝ) (factor : ℝ) : ℕ → ℝ → ℝ
  | 0, sum => sum
  | n + 1, sum => horner a factor n ((sum + a (n + 1)) * factor)

/-- `I`, `Water.cpp:90-103`. -/
noncomputable def watI (E ρ : ℝ) (j : ℕ) : ℝ :=
  let factor := ρ - (if j = 0 then 634 else 1000)
  ρ * (horner (fun i => Awat i j) factor 7 0 + Awat 0 j + Real.exp (-E * ρ) * (Awat 8 j + Awat 9 j * ρ))

/-- `H`, `Water.cpp:105-120`. -/
noncomputable def watH (E ρ : ℝ) (j : ℕ) : ℝ :=
  let factor := ρ - (if j = 0 then 634 else 1000)
  ρ * ρ * (horner (fun i => Awat i j + ρ * ((i : ℝ) + 1) * Awat (i + 1) j) factor 6 0 + (Awat 0 j + ρ * Awat 1 j)
    + Real.exp (-E * ρ) * ((1 - ρ * E) * Awat 8 j + ρ * (2 - ρ * E) * Awat 9 j) + Awat 7 j * factor ^ 7)

/-- `up`, `Water.cpp:122-134`. -/
noncomputable def watU (T ρ : ℝ) : ℝ :=
  (∑ i ∈ range 7, (watC 461.51 1.544912 T i - T * watCprime 461.51 1.544912 T i) * watI 4.8e-3 ρ i)
    + pU Gwat 273.16 2375470.875 T

/-- `sp`, `Water.cpp:136-150`. -/
noncomputable def watS (T ρ : ℝ) : ℝ :=
  pS Gwat 273.16 6697.356635 T - 461.51 * Real.log ρ
    - ∑ i ∈ range 7, watCprime 461.51 1.544912 T i * watI 4.8e-3 ρ i

/-- `Pp`, `Water.cpp:152-159`. -/
noncomputable def watP (T ρ : ℝ) : ℝ :=
  ρ * 461.51 * T + ∑ i ∈ range 7, watC 461.51 1.544912 T i * watH 4.8e-3 ρ i

/-- `Psat`, `Water.cpp:161-173`. -/
noncomputable def watPsat (T : ℝ) : Option ℝ :=
  if T < 273.16 ∨ T > 647.286 then none
  else some (Real.exp ((647.286 / T - 1) * ∑ i ∈ Icc 1 8, Fwat (i - 1) * (0.01 * (T - 338.15)) ^ (i - 1)) * 22.089e6)

/-- `ldens`, `Water.cpp:175-187`. -/
noncomputable def watLdens (T : ℝ) : Option ℝ :=
  if T < 273.16 ∨ T > 647.286 then none
  else some (317 * (1 + ∑ i ∈ range 8, Dwat i * (1 - T / 647.286) ^ (((i : ℝ) + 1) / 3)))

/-- Constants `Water.cpp:13-29`, functions `Water.cpp:122-212`. -/
noncomputable def water : Tpx.Eos where
  mw := 18.016
  Tc := 647.286
  Pc := 22.089e6
  Vc := 1 / 317
  Tmin := 273.16
  Tmax := 1600
  Pp := watP
  up := watU
  sp := watS
  ldens := watLdens
  Psat := watPsat

/-! ## HFC-134a -/

/-- `HFC134a.cpp:23-45`. -/
noncomputable def a134 (i : ℕ) : ℝ :=
  [0.5586817e-1, 0.4982230, 0.2458698e-1, 0.8570145e-3, 0.4788584e-3, -0.1800808e1, 0.2671641, -0.4781652e-1, 0.1423987e-1, 0.3324062, -0.7485907e-2,
    0.1017263e-3, -0.5184567, -0.8692288e-1, 0.2057144, -0.5000457e-2, 0.4603262e-3, -0.3497836e-2, 0.6995038e-2, -0.1452184e-1, -0.1285458e-3].getD i 0

/-- `HFC134a.cpp:47-50`. -/
noncomputable def t134 (i : ℕ) : ℝ :=
  [-0.5, 0, 0, 0, 1.5, 1.5, 2.0, 2.0, 1.0, 3.0, 5.0,
    1.0, 5.0, 5.0, 6.0, 10.0, 10.0, 10.0, 18.0, 22.0, 50.0].getD i 0

/-- `HFC134a.cpp:52-55`. -/
def d134 (i : ℕ) : ℕ :=
  [2, 1, 3, 6, 6, 1, 1, 2, 5, 2, 2,
    4, 1, 4, 1, 2, 4, 1, 5, 3, 10].getD i 0

/-- `HFC134a.cpp:57-63`. -/
noncomputable def b134 (i : ℕ) : ℝ :=
  [-1.019535, 9.047135, -1.629789, -9.723916, -3.927170].getD i 0

/-- Sum of the terms `lo ≤ i < hi` in `fp`, `HFC134a.cpp:75-87`. -/
noncomputable def hSum (lo hi : ℕ) (tau delta : ℝ) : ℝ :=
  ∑ i ∈ Ico lo hi, a134 i * tau ^ t134 i * delta ^ d134 i

/-- Sum of the terms in `up`, `HFC134a.cpp:104-116`. -/
noncomputable def hSumT (lo hi : ℕ) (tau delta : ℝ) : ℝ :=
  ∑ i ∈ Ico lo hi, a134 i * t134 i * tau ^ t134 i * delta ^ d134 i

/-- Sum of the terms in `Pp`, with `k * dk` subtracted from the exponent of the density, `HFC134a.cpp:132-150`. -/
noncomputable def hSumD (lo hi : ℕ) (kdk tau delta : ℝ) : ℝ :=
  ∑ i ∈ Ico lo hi, a134 i * tau ^ t134 i * ((d134 i : ℝ) - kdk) * delta ^ (d134 i - 1)

/-- `fp`, `HFC134a.cpp:65-92`. -/
noncomputable def hfcF (T ρ : ℝ) : ℝ :=
  let tau := 374.18 / T
  let delta := ρ / 508
  let phi0 := b134 0 + b134 1 * tau + b134 2 * Real.log tau + Real.log delta + b134 3 / √tau
    + b134 4 * tau ^ (-0.75 : ℝ)
  let phir := hSum 0 8 tau delta + Real.exp (-delta) * hSum 8 11 tau delta
    + Real.exp (-delta * delta) * hSum 11 17 tau delta + Real.exp (-delta * delta * delta) * hSum 17 20 tau delta
    + Real.exp (-delta * delta * delta * delta) * hSum 20 21 tau delta
  81.48885644 * T * (phir + phi0)

/-- `up`, `HFC134a.cpp:94-121`. -/
noncomputable def hfcU (T ρ : ℝ) : ℝ :=
  let tau := 374.18 / T
  let delta := ρ / 508
  let phi0t := b134 1 * tau + b134 2 - 0.5 * b134 3 * tau ^ (-0.5 : ℝ) - 0.75 * b134 4 * tau ^ (-0.75 : ℝ)
  let phirt := hSumT 0 8 tau delta + Real.exp (-delta) * hSumT 8 11 tau delta
    + Real.exp (-delta * delta) * hSumT 11 17 tau delta + Real.exp (-delta * delta * delta) * hSumT 17 20 tau delta
    + Real.exp (-delta * delta * delta * delta) * hSumT 20 21 tau delta
  81.48885644 * T * (phirt + phi0t)

/-- `Pp`, `HFC134a.cpp:123-154`. -/
noncomputable def hfcP (T ρ : ℝ) : ℝ :=
  let tau := 374.18 / T
  let delta := ρ / 508
  let phi0d := 1 / delta
  let dk2 := delta * delta
  let dk3 := dk2 * delta
  let dk4 := dk3 * delta
  let phird := hSumD 0 8 0 tau delta + hSumD 8 11 delta tau delta * Real.exp (-delta)
    + hSumD 11 17 (2 * dk2) tau delta * Real.exp (-dk2) + hSumD 17 20 (3 * dk3) tau delta * Real.exp (-dk3)
    + hSumD 20 21 (4 * dk4) tau delta * Real.exp (-dk4)
  81.48885644 * T * delta * delta * 508 * (phird + phi0d)

/-- `Psat`, `HFC134a.cpp:156-167`. -/
noncomputable def hfcPsat (T : ℝ) : Option ℝ :=
  if T < 170 ∨ T > 374.18 then none
  else
    let x1 := T / 374.18
    let x2 := 1 - x1
    let f := -7.686556 * x2 + 2.311791 * x2 ^ (1.5 : ℝ) - 2.039554 * x2 * x2 - 3.583758 * x2 ^ 4
    some (4056290 * Real.exp (f / x1))

/-- `ldens`, `HFC134a.cpp:169-179`. -/
noncomputable def hfcLdens (T : ℝ) : Option ℝ :=
  if T < 170 ∨ T > 374.18 then none
  else
    let x1 := T / 374.18
    let x2 := 1 - x1
    some (518.2 + 884.13 * x2 ^ ((1 : ℝ) / 3) + 485.84 * x2 ^ ((2 : ℝ) / 3) + 193.29 * x2 ^ ((10 : ℝ) / 3))

/-- Constants `HFC134a.cpp:14-21` and `HFC134a.cpp:181-204`; `sp` is `HFC134a.h:35-37`. -/
noncomputable def hfc134a : Tpx.Eos where
  mw := 102.032
  Tc := 374.21
  Pc := 4059280
  Vc := 1 / 511.95
  Tmin := 170
  Tmax := 455
  Pp := hfcP
  up := hfcU
  sp := fun T ρ => (hfcU T ρ - hfcF T ρ) / T
  ldens := hfcLdens
  Psat := hfcPsat

/-! ## Selection by name -/

/-- The classes. -/
inductive Kind
  | water | nitrogen | methane | hydrogen | oxygen | hfc134a | carbonDioxide | heptane
  deriving DecidableEq

/-- Virtual functions of each class. -/
noncomputable def eos : Kind → Tpx.Eos
  | .water => water
  | .nitrogen => nitrogen
  | .methane => methane
  | .hydrogen => hydrogen
  | .oxygen => oxygen
  | .hfc134a => hfc134a
  | .carbonDioxide => carbonDioxide
  | .heptane => heptane

/-- `newSubstance`, `utils.cpp:21-44`.  `none` is the exception. -/
def newSubstance (name : String) : Option Kind :=
  let lcname := name.toLower
  if lcname = "water" then some .water
  else if lcname = "nitrogen" then some .nitrogen
  else if lcname = "methane" then some .methane
  else if lcname = "hydrogen" then some .hydrogen
  else if lcname = "oxygen" then some .oxygen
  else if lcname = "hfc-134a" ∨ lcname = "hfc134a" then some .hfc134a
  else if lcname = "carbon-dioxide" ∨ lcname = "carbondioxide" then some .carbonDioxide
  else if lcname = "heptane" then some .heptane
  else none

end Verif.TpxFluids
