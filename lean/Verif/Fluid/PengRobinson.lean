import Verif.Basic
import Mathlib.Analysis.SpecialFunctions.Log.Basic
import Mathlib.Analysis.SpecialFunctions.Pow.Real
import Mathlib.Algebra.BigOperators.Group.Finset.Basic

/-!
# C66: Peng-Robinson mixtures

Source: src/thermo/PengRobinson.cpp and src/thermo/MixtureFugacityTP.cpp (lines cited below), cited as PR and MF.

Simplifications: `R` is the gas constant, `Sqrt2` (ct_defs.h 71) the square root of two; the state is `T`, the molar
volume `v` and the mole fractions `X` (`moleFractions_`); a loop that accumulates a sum from zero is a finite sum.
`m_alpha`, `m_aAlpha_binary`, `m_b` and `m_aAlpha_mix` are those that `updateMixingExpressions` leaves for `T` and
`X`, since `setTemperature` and `compositionChanged` call it (MF 178-185, 251-256).
-/

namespace Verif.Fluid.PR

/-- Coefficient tables (`m_a_coeffs`, `m_b_coeffs`, `m_kappa`), the constants `omega_a` and `omega_b`, molecular
weights, `SmallNumber` and reference state functions of the species. -/
structure Par where
  kk : ℕ
  R : ℝ
  P0 : ℝ
  small : ℝ
  oa : ℝ
  ob : ℝ
  W : ℕ → ℝ
  a : ℕ → ℕ → ℝ
  b : ℕ → ℝ
  kap : ℕ → ℝ
  h0 : ℝ → ℕ → ℝ
  s0 : ℝ → ℕ → ℝ
  cp0 : ℝ → ℕ → ℝ

/-- `Sqrt2`. -/
noncomputable def r2 : ℝ := Real.sqrt 2

variable (q : Par)

/-- `speciesCritTemperature` (PR 307-316). -/
noncomputable def critT (a b : ℝ) : ℝ :=
  if b ≤ 0 then 1000000 else if a ≤ 0 then 0 else a * q.ob / (b * q.oa * q.R)

/-- `m_alpha[j]` (PR 661-665). -/
noncomputable def alpha (T : ℝ) (j : ℕ) : ℝ :=
  let s := 1 + q.kap j * (1 - Real.sqrt (T / critT q (q.a j j) (q.b j)))
  s * s

/-- `m_aAlpha_binary(i, j)` (PR 668-672). -/
noncomputable def aAb (T : ℝ) (i j : ℕ) : ℝ := Real.sqrt (alpha q T i * alpha q T j) * q.a i j

/-- `m_b` (PR 678, 682). -/
noncomputable def bMix (X : ℕ → ℝ) : ℝ := ∑ i ∈ Finset.range q.kk, X i * q.b i

/-- `m_aAlpha_mix` (PR 680, 685). -/
noncomputable def aMix (T : ℝ) (X : ℕ → ℝ) : ℝ :=
  ∑ i ∈ Finset.range q.kk, ∑ j ∈ Finset.range q.kk, aAb q T i j * X i * X j

/-- `m_dalphadT[i]` (PR 693-701; the same in PR 715-724). -/
noncomputable def dalpha (T : ℝ) (i : ℕ) : ℝ :=
  let Tc := critT q (q.a i i) (q.b i)
  let sqtTr := Real.sqrt (T / Tc)
  let coeff1 := 1 / (Tc * sqtTr)
  let coeff2 := sqtTr - 1
  let k := q.kap i
  coeff1 * (k * k * coeff2 - k)

/-- `m_d2alphadT2[i]` (PR 716-725). -/
noncomputable def d2alpha (T : ℝ) (i : ℕ) : ℝ :=
  let Tc := critT q (q.a i i) (q.b i)
  let sqtTr := Real.sqrt (T / Tc)
  let coeff1 := 1 / (Tc * sqtTr)
  let k := q.kap i
  (k * k + k) * coeff1 / (2 * sqtTr * sqtTr * Tc)

/-- `daAlpha_dT` (PR 703-710). -/
noncomputable def daMix (T : ℝ) (X : ℕ → ℝ) : ℝ :=
  ∑ i ∈ Finset.range q.kk, ∑ j ∈ Finset.range q.kk, X i * X j * 0.5 * aAb q T i j *
    (dalpha q T i / alpha q T i + dalpha q T j / alpha q T j)

/-- `d2aAlpha_dT2` (PR 728-741). -/
noncomputable def d2aMix (T : ℝ) (X : ℕ → ℝ) : ℝ :=
  ∑ i ∈ Finset.range q.kk, ∑ j ∈ Finset.range q.kk,
    let alphaij := alpha q T i * alpha q T j
    let term1 := d2alpha q T i / alpha q T i + d2alpha q T j / alpha q T j
    let term2 := 2 * dalpha q T i * dalpha q T j / alphaij
    let term3 := dalpha q T i / alpha q T i + dalpha q T j / alpha q T j
    0.5 * X i * X j * aAb q T i j * (term1 + term2 - 0.5 * term3 * term3)

/-- `mean_X` (Phase.cpp 616-624): `m_mmw` times the sum of `m_ym`, which is the mole fraction over `m_mmw`. -/
noncomputable def meanX (Q X : ℕ → ℝ) : ℝ := ∑ i ∈ Finset.range q.kk, X i * Q i

/-- `meanMolecularWeight()`. -/
noncomputable def mmw (X : ℕ → ℝ) : ℝ := ∑ i ∈ Finset.range q.kk, X i * q.W i

/-- `sum_xlogx` (Phase.cpp 626-633); `m_ym[k]` is `X k / m_mmw`. -/
noncomputable def sumXlogX (X : ℕ → ℝ) : ℝ :=
  mmw q X * ∑ k ∈ Finset.range q.kk, X k / mmw q X * Real.log (max (X k / mmw q X) q.small) + Real.log (mmw q X)

/-- `pressure` (PR 120-128). -/
noncomputable def pressure (T v : ℝ) (X : ℕ → ℝ) : ℝ :=
  let denom := v * v + 2 * v * bMix q X - bMix q X * bMix q X
  q.R * T / (v - bMix q X) - aMix q T X / denom

/-- `z` (MF 267-270). -/
noncomputable def z (T v : ℝ) (X : ℕ → ℝ) : ℝ := pressure q T v X * v / (q.R * T)

/-- `sresid` (PR 459-470). -/
noncomputable def sresid (T v : ℝ) (X : ℕ → ℝ) : ℝ :=
  let hh := bMix q X / v
  let vpb := v + (1 + r2) * bMix q X
  let vmb := v + (1 - r2) * bMix q X
  let fac := daMix q T X / (2 * r2 * bMix q X)
  q.R * (Real.log (z q T v X * (1 - hh)) + fac * Real.log (vpb / vmb) / q.R)

/-- `hresid` (PR 472-483). -/
noncomputable def hresid (T v : ℝ) (X : ℕ → ℝ) : ℝ :=
  let vpb := v + (1 + r2) * bMix q X
  let vmb := v + (1 - r2) * bMix q X
  let fac := 1 / (2 * r2 * bMix q X)
  q.R * T * (z q T v X - 1) + fac * Real.log (vpb / vmb) * (T * daMix q T X - aMix q T X)

/-- `enthalpy_mole` (MF 42-47). -/
noncomputable def enthalpy (T v : ℝ) (X : ℕ → ℝ) : ℝ := q.R * T * meanX q (q.h0 T) X + hresid q T v X

/-- `entropy_mole` (MF 50-56). -/
noncomputable def entropy (T v : ℝ) (X : ℕ → ℝ) : ℝ :=
  q.R * (meanX q (q.s0 T) X - sumXlogX q X - Real.log (pressure q T v X / q.P0)) + sresid q T v X

/-- `dpdVCalc` (PR 618-624), returned value; the reference argument `presCalc` is not assigned. -/
noncomputable def dpdV (T v : ℝ) (X : ℕ → ℝ) : ℝ :=
  let denom := v * v + 2 * v * bMix q X - bMix q X * bMix q X
  let vpb := v + bMix q X
  let vmb := v - bMix q X;
  -q.R * T / (vmb * vmb) + 2 * aMix q T X * vpb / (denom * denom)

/-- `m_dpdT` of `calculatePressureDerivatives` (PR 644-654). -/
noncomputable def dpdT (T v : ℝ) (X : ℕ → ℝ) : ℝ :=
  let vmb := v - bMix q X
  let denom := v * v + 2 * v * bMix q X - bMix q X * bMix q X
  q.R / vmb - daMix q T X / denom

/-- `cp_mole` (PR 98-110). -/
noncomputable def cpMole (T v : ℝ) (X : ℕ → ℝ) : ℝ :=
  let vpb := v + (1 + r2) * bMix q X
  let vmb := v + (1 - r2) * bMix q X
  let cpref := q.R * meanX q (q.cp0 T) X
  let dHdT := cpref + v * dpdT q T v X - q.R +
    1 / (2 * r2 * bMix q X) * Real.log (vpb / vmb) * T * d2aMix q T X
  dHdT - (v + T * dpdT q T v X / dpdV q T v X) * dpdT q T v X

/-- `cv_mole` (PR 112-118). -/
noncomputable def cvMole (T v : ℝ) (X : ℕ → ℝ) : ℝ :=
  cpMole q T v X + T * dpdT q T v X * dpdT q T v X / dpdV q T v X

/-- `m_pp[k]` (PR 144-149, 184-189, 219-227, 283-288). -/
noncomputable def pp (T : ℝ) (X : ℕ → ℝ) (k : ℕ) : ℝ := ∑ i ∈ Finset.range q.kk, X i * aAb q T k i

/-- The logarithm of the fugacity coefficient times `RT` (PR 150-161, repeated in PR 192-202). -/
noncomputable def lnPhiRT (T v : ℝ) (X : ℕ → ℝ) (k : ℕ) : ℝ :=
  let vpb2 := v + (1 + r2) * bMix q X
  let vmb2 := v + (1 - r2) * bMix q X
  let vmb := v - bMix q X
  let denom := 2 * r2 * bMix q X * bMix q X
  let denom2 := bMix q X * (v * v + 2 * v * bMix q X - bMix q X * bMix q X)
  let num := 2 * bMix q X * pp q T X k - aMix q T X * q.b k;
  -(q.R * T) * Real.log (pressure q T v X * v / (q.R * T)) + q.R * T * Real.log (v / vmb) + q.R * T * q.b k / vmb -
    num / denom * Real.log (vpb2 / vmb2) - aMix q T X * q.b k * v / denom2

/-- `getActivityCoefficients` (PR 136-165). -/
noncomputable def actCoeff (T v : ℝ) (X : ℕ → ℝ) (k : ℕ) : ℝ := Real.exp (lnPhiRT q T v X k / (q.R * T))

/-- `m_g0_RT[k]` (MF 733). -/
noncomputable def g0 (T : ℝ) (k : ℕ) : ℝ := q.h0 T k - q.s0 T k

/-- `getChemPotentials` (PR 169-203). -/
noncomputable def chemPot (T v : ℝ) (X : ℕ → ℝ) (k : ℕ) : ℝ :=
  g0 q T k * (q.R * T) + q.R * T * Real.log (max q.small (X k)) +
    (q.R * T * Real.log (pressure q T v X / q.P0) + lnPhiRT q T v X k)

/-- `getStandardChemPotentials` (MF 60-67). -/
noncomputable def stdChemPot (T v : ℝ) (X : ℕ → ℝ) (k : ℕ) : ℝ :=
  q.R * T * (g0 q T k + Real.log (pressure q T v X / q.P0))

/-- `m_dpdni[k]` (PR 229-235). -/
noncomputable def dpdni (T v : ℝ) (X : ℕ → ℝ) (k : ℕ) : ℝ :=
  let vmb := v - bMix q X
  let denom := v * v + 2 * v * bMix q X - bMix q X * bMix q X
  let denom2 := denom * denom
  q.R * T / vmb + q.R * T * q.b k / (vmb * vmb) - 2 * pp q T X k / denom +
    2 * vmb * aMix q T X * q.b k / denom2

/-- `getPartialMolarEnthalpies` (PR 204-252). -/
noncomputable def pmH (T v : ℝ) (X : ℕ → ℝ) (k : ℕ) : ℝ :=
  let bm := bMix q X
  let vpb2 := v + (1 + r2) * bm
  let vmb2 := v + (1 - r2) * bm
  let denom := v * v + 2 * v * bm - bm * bm
  let tmp := ∑ i ∈ Finset.range q.kk, X i * aAb q T k i *
    (dalpha q T i / alpha q T i + dalpha q T k / alpha q T k)
  let fac := T * daMix q T X - aMix q T X
  let fac2 := v + T * dpdT q T v X / dpdV q T v X
  let fac3 := 2 * r2 * bm * bm
  let fac4 := T * tmp - 2 * pp q T X k
  let hE := v * dpdni q T v X k - q.R * T - q.b k / fac3 * Real.log (vpb2 / vmb2) * fac +
    v * q.b k / (bm * denom) * fac + 1 / (2 * r2 * bm) * Real.log (vpb2 / vmb2) * fac4
  q.h0 T k * (q.R * T) + hE - fac2 * dpdni q T v X k

/-- `getPartialMolarEntropies` (PR 254-263). -/
noncomputable def pmS (T v : ℝ) (X : ℕ → ℝ) (k : ℕ) : ℝ := (pmH q T v X k - chemPot q T v X k) / T

/-- `getPartialMolarVolumes` (PR 281-305). -/
noncomputable def pmV (T v : ℝ) (X : ℕ → ℝ) (k : ℕ) : ℝ :=
  let bm := bMix q X
  let vmb := v - bm
  let vpb := v + bm
  let fac := v * v + 2 * v * bm - bm * bm
  let fac2 := fac * fac
  let num := q.R * T + q.R * T * bm / vmb + q.R * T * q.b k / vmb + q.R * T * bm * q.b k / (vmb * vmb) -
    2 * v * pp q T X k / fac + 2 * v * vmb * aMix q T X * q.b k / fac2
  let denom := pressure q T v X + q.R * T * bm / (vmb * vmb) + aMix q T X / fac - 2 * v * vpb * aMix q T X / fac2
  num / denom

/-- `getPartialMolarIntEnergies` (PR 265-274). -/
noncomputable def pmU (T v : ℝ) (X : ℕ → ℝ) (k : ℕ) : ℝ := pmH q T v X k - pressure q T v X * pmV q T v X k

/-- `isothermalCompressibility` (PR 626-630). -/
noncomputable def kappaT (T v : ℝ) (X : ℕ → ℝ) : ℝ := -1 / (v * dpdV q T v X)

/-- `thermalExpansionCoeff` (PR 632-636). -/
noncomputable def beta (T v : ℝ) (X : ℕ → ℝ) : ℝ := -dpdT q T v X / (v * dpdV q T v X)

/-- `soundSpeed` (PR 638-642). -/
noncomputable def sound (T v : ℝ) (X : ℕ → ℝ) : ℝ :=
  v * Real.sqrt (-cpMole q T v X / cvMole q T v X * dpdV q T v X / mmw q X)

end Verif.Fluid.PR
