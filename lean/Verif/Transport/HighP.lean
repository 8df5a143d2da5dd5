import Verif.Basic
import Mathlib.Analysis.Real.Sqrt
import Mathlib.Analysis.SpecialFunctions.Pow.Real
import Mathlib.Analysis.SpecialFunctions.Exp
import Mathlib.Algebra.BigOperators.Field

/-!
# Transport in dense gases

Model of `src/transport/HighPressureGasTransport.cpp` (used for C105): the correction of Takahashi, the diffusion
coefficients, the critical properties, the viscosity of Lucas and the mixture rules and viscosity of Chung.  The low
pressure binary coefficients `m_bdiff`, mole fractions `m_molefracs` and thermodynamic properties are parameters.  The
thermal conductivities (350-553, 812-898) and the data base of acentric factors (98-128) are not modelled.  `pow` is the
real power, used with positive base.
-/

namespace Verif.HighP

open Finset

/-! ## Correction of Takahashi -/

/-- One column of the tables (lines 37-50). -/
structure Row where
  Pr : ℝ
  DP : ℝ
  A : ℝ
  B : ℝ
  C : ℝ
  E : ℝ

/-- Lines 37-50. -/
noncomputable def rows : List Row := [
  ⟨0.1, 1.01, 0.038042, 1.52267, 0, 1⟩,
  ⟨0.2, 1.01, 0.067433, 2.16794, 0, 1⟩,
  ⟨0.3, 1.01, 0.098317, 2.42910, 0, 1⟩,
  ⟨0.4, 1.01, 0.137610, 2.77605, 0, 1⟩,
  ⟨0.5, 1.01, 0.175081, 2.98256, 0, 1⟩,
  ⟨0.6, 1.01, 0.216376, 3.11384, 0, 1⟩,
  ⟨0.8, 1.01, 0.314051, 3.50264, 0, 1⟩,
  ⟨1.0, 1.02, 0.385736, 3.07773, 0.141211, 13.45454⟩,
  ⟨1.2, 1.02, 0.514553, 3.54744, 0.278407, 14⟩,
  ⟨1.4, 1.02, 0.599184, 3.61216, 0.372683, 10.00900⟩,
  ⟨1.6, 1.02, 0.557725, 3.41882, 0.504894, 8.57519⟩,
  ⟨1.8, 1.03, 0.593007, 3.18415, 0.678469, 10.37483⟩,
  ⟨2.0, 1.03, 0.696001, 3.37660, 0.665702, 11.21674⟩,
  ⟨2.5, 1.04, 0.790770, 3.27984, 0, 1⟩,
  ⟨3.0, 1.05, 0.502100, 3.39031, 0.602907, 6.19043⟩,
  ⟨4.0, 1.06, 0.837452, 3.23513, 0, 1⟩,
  ⟨5.0, 1.07, 0.890390, 3.13001, 0, 1⟩]

/-- The last column. -/
noncomputable def lastRow : Row := ⟨5.0, 1.07, 0.890390, 3.13001, 0, 1⟩

/-- Lines 84, 92. -/
noncomputable def DPR (r : Row) (Tr : ℝ) : ℝ := r.DP * (1 - r.A * Tr ^ (-r.B)) * (1 - r.C * Tr ^ (-r.E))

open Classical in
/-- The loop of lines 59-67: the first column beyond `Pr` and the one before. -/
noncomputable def search (Pr : ℝ) : List Row → Option (Row × Row)
  | a :: b :: t => if b.Pr > Pr then some (a, b) else search Pr (b :: t)
  | _ => none

open Classical in
/-- `takahashiCorrectionFactor`, lines 28-96. -/
noncomputable def takahashi (Pr Tr : ℝ) : ℝ :=
  if Pr < 0.1 then 1
  else match search Pr rows with
    | some (a, b) =>
      let f := (Pr - a.Pr) / (b.Pr - a.Pr)
      DPR a Tr * (1 - f) + DPR b Tr * f
    | none => DPR lastRow Tr * (1 - 1) + DPR lastRow Tr * 1

/-! ## Diffusion coefficients -/

/-- State: number of species, temperature, pressure, mole fractions, weights, critical temperatures and pressures, and
low pressure binary coefficients. -/
structure Gas where
  n : ℕ
  T : ℝ
  p : ℝ
  mmw : ℝ
  x : ℕ → ℝ
  mw : ℕ → ℝ
  Tc : ℕ → ℝ
  Pc : ℕ → ℝ
  bd : ℕ → ℕ → ℝ

/-- `Tiny`, `ct_defs.h:173`. -/
noncomputable def tiny : ℝ := 1 / 10 ^ 20

open Classical in
/-- `updateCorrectionFactors`, lines 188-217. -/
noncomputable def corr (g : Gas) (i j : ℕ) : ℝ :=
  let xi := max tiny (g.x i) / (max tiny (g.x i) + max tiny (g.x j))
  let xj := max tiny (g.x j) / (max tiny (g.x i) + max tiny (g.x j))
  let c := takahashi (g.p / (xi * g.Pc i + xj * g.Pc j)) (g.T / (xi * g.Tc i + xj * g.Tc j))
  if c < 0 then tiny else c

/-- `getBinaryDiffCoeffs`, lines 219-242. -/
noncomputable def binary (ld : ℕ) (g : Gas) : Outcome (ℕ → ℕ → ℝ) :=
  if ld < g.n then .throw else .ok fun i j => corr g i j * (1 / g.p * g.bd i j)

/-- `sum2` of lines 261-266, 292-297. -/
noncomputable def sum2 (g : Gas) (i : ℕ) : ℝ :=
  ∑ j ∈ (range g.n).erase i, g.x j / (corr g i j * g.bd j i)

open Classical in
/-- `getMixDiffCoeffs`, lines 244-274. -/
noncomputable def mixDiff (g : Gas) (i : ℕ) : ℝ :=
  if g.n = 1 then corr g 0 0 * g.bd 0 0 / g.p
  else if sum2 g i ≤ 0 then corr g i i * g.bd i i / g.p
  else (g.mmw - g.x i * g.mw i) / (g.p * g.mmw * sum2 g i)

open Classical in
/-- `getMixDiffCoeffsMole`, lines 276-305. -/
noncomputable def mixDiffMole (g : Gas) (i : ℕ) : ℝ :=
  if g.n = 1 then corr g 0 0 * g.bd 0 0 / g.p
  else if sum2 g i ≤ 0 then corr g i i * g.bd i i / g.p
  else (1 - g.x i) / (g.p * sum2 g i)

/-- `getMixDiffCoeffsMass`, lines 307-339. -/
noncomputable def mixDiffMass (g : Gas) (i : ℕ) : ℝ :=
  if g.n = 1 then corr g 0 0 * g.bd 0 0 / g.p
  else
    1 / ((∑ j ∈ (range g.n).erase i, g.x j / (corr g i j * g.bd i j)) * g.p +
      (∑ j ∈ (range g.n).erase i, g.x j * g.mw j / (corr g i j * g.bd i j)) *
        (g.p * g.x i / (g.mmw - g.mw i * g.x i)))

/-! ## Critical properties -/

/-- The composition with species `i` only. -/
def unit (i : ℕ) : ℕ → ℝ := fun k => if k = i then 1 else 0

open Classical in
/-- The loop of lines 143-161 from species `i` on, `m` species left; `crit` gives the critical temperature of a
composition.  Result: composition of the phase, and the temperatures unless an exception is thrown. -/
noncomputable def critLoop (crit : (ℕ → ℝ) → ℝ) : ℕ → ℕ → (ℕ → ℝ) → (ℕ → ℝ) → (ℕ → ℝ) × Option (ℕ → ℝ)
  | 0, _, X, Tc => (X, some Tc)
  | m + 1, i, _, Tc =>
    if crit (unit i) > 10 ^ 4 then (unit i, none)
    else critLoop crit m (i + 1) (unit i) (Function.update Tc i (crit (unit i)))

/-- `initializeCriticalProperties`, lines 130-165, for the critical temperature. -/
noncomputable def initCrit (crit : (ℕ → ℝ) → ℝ) (n : ℕ) (X Tc : ℕ → ℝ) : (ℕ → ℝ) × Option (ℕ → ℝ) :=
  match critLoop crit n 0 X Tc with
  | (_, some t) => (X, some t)
  | (Y, none) => (Y, none)

/-! ## Lucas -/

open Classical in
/-- The search for the heaviest and lightest species (lines 590-621): weight and mole fraction of the heaviest, weight
of the lightest. -/
noncomputable def heavy (mw x : ℕ → ℝ) : ℕ → ℝ × ℝ × ℝ
  | 0 => (mw 0, x 0, mw 0)
  | n + 1 =>
    let r := heavy mw x n
    if mw n > r.1 then (mw n, x n, r.2.2)
    else if mw n < r.2.2 then (r.1, r.2.1, mw n) else r

open Classical in
/-- The factor `A` (lines 658-662). -/
noncomputable def factorA (mw x : ℕ → ℝ) (n : ℕ) : ℝ :=
  let r := heavy mw x n
  if r.1 / r.2.2 > 9 ∧ r.2.1 > 0.05 ∧ r.2.1 < 0.7 then 1 - 0.01 * (r.1 / r.2.2) ^ (0.87 : ℝ) else 1

/-- `Tc_mix` and `Pc_mix` (lines 607-612, 653). -/
noncomputable def lucasTc (n : ℕ) (x Tc : ℕ → ℝ) : ℝ := ∑ i ∈ range n, Tc i * x i
/-- Lines 609-612, 653. -/
noncomputable def lucasPc (R : ℝ) (n : ℕ) (x Tc Zc Vc : ℕ → ℝ) : ℝ :=
  R * lucasTc n x Tc * (∑ i ∈ range n, x i * Zc i) / (∑ i ∈ range n, x i * Vc i)

open Classical in
/-- `polarityCorrectionFactor`, lines 760-771. -/
noncomputable def polarity (mu Tr Zc : ℝ) : ℝ :=
  if mu < 0.022 then 1
  else if mu < 0.075 then 1 + 30.55 * (max (0.292 - Zc) 0) ^ (1.72 : ℝ)
  else 1 + 30.55 * (max (0.292 - Zc) 0) ^ (1.72 : ℝ) * |0.96 + 0.1 * (Tr - 0.7)|

/-- `lowPressureNondimensionalViscosity`, lines 675-681. -/
noncomputable def lowNd (Tr FP FQ : ℝ) : ℝ :=
  ((0.807 * Tr ^ (0.618 : ℝ) - 0.357 * Real.exp (-0.449 * Tr)) + (0.340 * Real.exp (-4.058 * Tr) + 0.018)) * FP * FQ

/-- `a` of line 708. -/
noncomputable def la (Tr : ℝ) : ℝ := 1.245e-3 * Real.exp (5.1726 * Tr ^ (-0.3286 : ℝ)) / Tr
/-- `b` of line 712. -/
noncomputable def lb (Tr : ℝ) : ℝ := la Tr * (1.6553 * Tr - 1.2723)
/-- `c` of line 717. -/
noncomputable def lc (Tr : ℝ) : ℝ := 0.4489 * Real.exp (3.0578 * Tr ^ (-37.7332 : ℝ)) / Tr
/-- `d` of line 722. -/
noncomputable def ld (Tr : ℝ) : ℝ := 1.7368 * Real.exp (2.2310 * Tr ^ (-7.6351 : ℝ)) / Tr
/-- `f` of line 729. -/
noncomputable def lf (Tr : ℝ) : ℝ := 0.9425 * Real.exp (-0.1853 * Tr ^ (0.4489 : ℝ))

open Classical in
/-- `Z_2` (lines 689-743). -/
noncomputable def Z2 (Tr Pr Z1 Pvap Pcrit : ℝ) : Outcome ℝ :=
  if Tr ≤ 1 then
    if Pr < Pvap / Pcrit then
      .ok (0.6 + 0.76 * Pr ^ (3.262 + 14.98 * Pr ^ (5.508 : ℝ)) + (0.699 * Pr ^ (1.39 + 5.746 * Pr) - 0.6) * (1 - Tr))
    else .throw
  else if Tr < 40 then
    if 0 < Pr ∧ Pr ≤ 100 then
      .ok (Z1 * (1 + la Tr * Pr ^ (1.3088 : ℝ) / (lb Tr * Pr ^ lf Tr + (1 + lc Tr * Pr ^ ld Tr) ^ (-1 : ℝ))))
    else .throw
  else .throw

/-- Lines 745-750. -/
noncomputable def finish (z2 z1 FP FQ : ℝ) : ℝ :=
  z2 * ((1 + (FP - 1) * (z2 / z1) ^ (-3 : ℝ)) / FP) *
    ((1 + (FQ - 1) * (1 / (z2 / z1) - 0.007 * Real.log (z2 / z1) ^ (4 : ℕ))) / FQ)

/-- `highPressureNondimensionalViscosity`, lines 683-751. -/
noncomputable def highNd (Tr Pr FP FQ Pvap Pcrit : ℝ) : Outcome ℝ :=
  match Z2 Tr Pr (lowNd Tr FP FQ) Pvap Pcrit with
  | .ok z => .ok (finish z (lowNd Tr FP FQ) FP FQ)
  | .throw => .throw
  | .ub => .ub

/-- `viscosity`, lines 564-570, from the number of `highNd`. -/
noncomputable def lucasVisc (R NA Tc MW Pc nd : ℝ) : ℝ :=
  nd / (R * Tc * NA ^ (2 : ℕ) / (MW ^ (3 : ℕ) * Pc ^ (4 : ℕ))) ^ (1 / 6 : ℝ)

/-! ## Chung -/

/-- Parameters of the species (lines 793-809), dipoles in Debye. -/
structure Chung where
  n : ℕ
  x : ℕ → ℝ
  sig : ℕ → ℝ
  eps : ℕ → ℝ
  om : ℕ → ℝ
  mw : ℕ → ℝ
  dip : ℕ → ℝ

/-- `m_sigma_i`, `m_epsilon_over_k_i` (lines 795-800). -/
noncomputable def sigmaOf (Vc : ℝ) : ℝ := 0.809 * (Vc * 1000) ^ (1 / 3 : ℝ)
/-- Line 800. -/
noncomputable def epsOf (Tc : ℝ) : ℝ := Tc / 1.2593

variable (c : Chung)

/-- Lines 951. -/
noncomputable def Chung.sij (i j : ℕ) : ℝ := Real.sqrt (c.sig i * c.sig j)
/-- Line 956. -/
noncomputable def Chung.eij (i j : ℕ) : ℝ := Real.sqrt (c.eps i * c.eps j)
/-- A double sum over the species weighted with mole fractions (lines 949-994). -/
noncomputable def Chung.pair (f : ℕ → ℕ → ℝ) : ℝ :=
  ∑ i ∈ range c.n, ∑ j ∈ range c.n, c.x i * c.x j * f i j
/-- `m_sigma_mix` (lines 953, 999). -/
noncomputable def Chung.sigMix : ℝ := (c.pair fun i j => c.sij i j ^ (3 : ℕ)) ^ (1 / 3 : ℝ)
/-- `m_epsilon_over_k_mix` (lines 959-960, 1000). -/
noncomputable def Chung.epsMix : ℝ := (c.pair fun i j => c.eij i j * c.sij i j ^ (3 : ℕ)) / c.sigMix ^ (3 : ℕ)
/-- `m_MW_mix` (lines 966-970, 1003). -/
noncomputable def Chung.mwMix : ℝ :=
  ((c.pair fun i j => c.eij i j * c.sij i j ^ (2 : ℕ) * Real.sqrt (2 * c.mw i * c.mw j / (c.mw i + c.mw j))) /
    (c.epsMix * c.sigMix * c.sigMix)) ^ (2 : ℕ)
/-- `m_acentric_factor_mix` (lines 973-978, 1005). -/
noncomputable def Chung.omMix : ℝ :=
  (c.pair fun i j => 0.5 * (c.om i + c.om j) * c.sij i j ^ (3 : ℕ)) / c.sigMix ^ (3 : ℕ)
/-- `m_mu_mix` (lines 987-988, 1008). -/
noncomputable def Chung.muMix : ℝ :=
  (c.sigMix ^ (3 : ℕ) * c.pair fun i j => (c.dip i * c.dip j) ^ (2 : ℕ) / c.sij i j ^ (3 : ℕ)) ^ (1 / 4 : ℝ)
/-- `m_Tc_mix` (line 1011). -/
noncomputable def Chung.TcMix : ℝ := 1.2593 * c.epsMix
/-- `m_Vc_mix` (line 1014). -/
noncomputable def Chung.VcMix : ℝ := (c.sigMix / 0.809) ^ (3 : ℕ)
/-- `m_mu_r_mix` (line 1017). -/
noncomputable def Chung.muR : ℝ := 131.3 * c.muMix / Real.sqrt (c.VcMix * c.TcMix)

/-- The molar density in mol/cm³ given to the correlations (lines 824-825, 912-913). -/
noncomputable def Chung.molarDensity (rho : ℝ) : ℝ := rho * (1 / c.mwMix * (1 / 1000))

/-- `neufeldCollisionIntegral`, lines 1027-1037. -/
noncomputable def neufeld (t : ℝ) : ℝ :=
  1.16145 / t ^ (0.14874 : ℝ) + 0.52487 / Real.exp (0.77320 * t) + 2.16178 / Real.exp (2.43787 * t)

/-- `Fc` (lines 1045, 1098), with `kappa` zero (line 804). -/
noncomputable def Fc (om mu : ℝ) : ℝ := 1 - 0.2756 * om + 0.059035 * mu ^ (4 : ℕ)

/-- `lowPressureViscosity`, lines 1039-1054. -/
noncomputable def chungLow (T ts MW om mu sigma : ℝ) : ℝ :=
  1 / 10 ^ 7 * (Fc om mu * (26.69 * Real.sqrt (MW * T) / (sigma * sigma * neufeld ts)))

/-- The coefficients `E_1` to `E_10` (lines 1062-1082). -/
noncomputable def coef (k : ℕ) (om mu : ℝ) : ℝ :=
  [6.324, 1.210e-3, 5.283, 6.623, 19.745, -1.900, 24.275, 0.7972, -0.2382, 0.06863].getD k 0 +
  [50.412, -1.154e-3, 254.209, 38.096, 7.630, -12.537, 3.450, 1.117, 0.06770, 0.3479].getD k 0 * om +
  [-51.680, -6.257e-3, -168.48, -8.464, -14.354, 4.958, -11.291, 0.01235, -0.8163, 0.5926].getD k 0 * mu ^ (4 : ℕ)

/-- `G_1` (line 1086). -/
noncomputable def G1 (y : ℝ) : ℝ := (1 - 0.5 * y) / (1 - y) ^ (3 : ℕ)
/-- `G_2` (lines 1089-1090). -/
noncomputable def G2 (e1 e2 e3 e4 e5 y : ℝ) : ℝ :=
  (e1 * ((1 - Real.exp (-e4 * y)) / y) + e2 * G1 y * Real.exp (e5 * y) + e3 * G1 y) / (e1 * e4 + e2 + e3)

/-- `highPressureViscosity`, lines 1056-1108, in micropoise. -/
noncomputable def chungHigh (ts MW rho Vc Tc om mu : ℝ) : ℝ :=
  let y := rho * Vc / 6
  let g := G2 (coef 0 om mu) (coef 1 om mu) (coef 2 om mu) (coef 3 om mu) (coef 4 om mu) y
  let eta2 := coef 6 om mu * y * y * g * Real.exp (coef 7 om mu + coef 8 om mu / ts + coef 9 om mu / (ts * ts))
  (Real.sqrt ts / neufeld ts * (Fc om mu * (1 / g + coef 5 om mu * y)) + eta2) * 36.344 * Real.sqrt (MW * Tc) /
    Vc ^ (2 / 3 : ℝ)

end Verif.HighP
