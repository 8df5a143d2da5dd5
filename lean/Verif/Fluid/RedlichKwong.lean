import Verif.Basic
import Mathlib.Analysis.SpecialFunctions.Log.Basic
import Mathlib.Analysis.SpecialFunctions.Pow.Real
import Mathlib.Algebra.BigOperators.Group.Finset.Basic

/-!
# C65: Redlich-Kwong mixtures

Source: src/thermo/RedlichKwongMFTP.cpp and src/thermo/MixtureFugacityTP.cpp (lines cited below), cited as RK and MF.

Simplifications: `R` is the gas constant; the state is `T`, the molar volume `v` (`meanMolecularWeight()/density()`)
and the mole fractions `X` (`moleFractions_`, set from the composition by `compositionChanged`, MF 251-256); a loop
that accumulates a sum from zero is a finite sum. `m_a_current` and `m_b_current` are those that
`updateMixingExpressions` leaves for `T` and `X`, since `setTemperature` and `compositionChanged` call it (MF 178-185,
251-256).
-/

namespace Verif.Fluid.RK

/-- Coefficient tables (`a_coeff_vec` rows 0 and 1 indexed by `counter`, `b_vec_Curr_`, `m_formTempParam`), molecular
weights, `SmallNumber` and reference state functions of the species. -/
structure Par where
  kk : ℕ
  R : ℝ
  P0 : ℝ
  small : ℝ
  W : ℕ → ℝ
  a0 : ℕ → ℝ
  a1 : ℕ → ℝ
  b : ℕ → ℝ
  tp : Bool
  h0 : ℝ → ℕ → ℝ
  s0 : ℝ → ℕ → ℝ
  cp0 : ℝ → ℕ → ℝ

variable (q : Par)

/-- `a_vec_Curr_[counter]` (RK 731-738; without temperature dependence row 0, as left by RK 68 and 95). -/
def aVec (T : ℝ) (c : ℕ) : ℝ := if q.tp then q.a0 c + q.a1 c * T else q.a0 c

/-- `m_b_current` (RK 740, 743). -/
noncomputable def bCur (X : ℕ → ℝ) : ℝ := ∑ i ∈ Finset.range q.kk, X i * q.b i

/-- `m_a_current` (RK 741, 744-746). -/
noncomputable def aCur (T : ℝ) (X : ℕ → ℝ) : ℝ :=
  ∑ i ∈ Finset.range q.kk, ∑ j ∈ Finset.range q.kk, aVec q T (i * q.kk + j) * X i * X j

/-- `da_dt` (RK 790-802). -/
noncomputable def dadt (X : ℕ → ℝ) : ℝ :=
  if q.tp then ∑ i ∈ Finset.range q.kk, ∑ j ∈ Finset.range q.kk, q.a1 (i * q.kk + j) * X i * X j else 0

/-- `mean_X` (Phase.cpp 616-624): `m_mmw` times the sum of `m_ym`, which is the mole fraction over `m_mmw`. -/
noncomputable def meanX (Q X : ℕ → ℝ) : ℝ := ∑ i ∈ Finset.range q.kk, X i * Q i

/-- `meanMolecularWeight()`. -/
noncomputable def mmw (X : ℕ → ℝ) : ℝ := ∑ i ∈ Finset.range q.kk, X i * q.W i

/-- `sum_xlogx` (Phase.cpp 626-633); `m_ym[k]` is `X k / m_mmw`. -/
noncomputable def sumXlogX (X : ℕ → ℝ) : ℝ :=
  mmw q X * ∑ k ∈ Finset.range q.kk, X k / mmw q X * Real.log (max (X k / mmw q X) q.small) + Real.log (mmw q X)

/-- `pressure` (RK 130-139). -/
noncomputable def pressure (T v : ℝ) (X : ℕ → ℝ) : ℝ :=
  q.R * T / (v - bCur q X) - aCur q T X / (Real.sqrt T * v * (v + bCur q X))

/-- `z` (MF 267-270). -/
noncomputable def z (T v : ℝ) (X : ℕ → ℝ) : ℝ := pressure q T v X * v / (q.R * T)

/-- `sresid` (RK 520-534). -/
noncomputable def sresid (T v : ℝ) (X : ℕ → ℝ) : ℝ :=
  let hh := bCur q X / v
  let fac := dadt q X - aCur q T X / (2 * T)
  q.R * (Real.log (z q T v X * (1 - hh)) + Real.log (1 + hh) * fac / (Real.sqrt T * q.R * bCur q X))

/-- `hresid` (RK 536-549). -/
noncomputable def hresid (T v : ℝ) (X : ℕ → ℝ) : ℝ :=
  let hh := bCur q X / v
  let fac := T * dadt q X - 3 * aCur q T X / 2
  q.R * T * (z q T v X - 1) + fac * Real.log (1 + hh) / (Real.sqrt T * bCur q X)

/-- `enthalpy_mole` (MF 42-47). -/
noncomputable def enthalpy (T v : ℝ) (X : ℕ → ℝ) : ℝ := q.R * T * meanX q (q.h0 T) X + hresid q T v X

/-- `entropy_mole` (MF 50-56). -/
noncomputable def entropy (T v : ℝ) (X : ℕ → ℝ) : ℝ :=
  q.R * (meanX q (q.s0 T) X - sumXlogX q X - Real.log (pressure q T v X / q.P0)) + sresid q T v X

/-- `dpdVCalc` (RK 682-693), returned value. -/
noncomputable def dpdV (T v : ℝ) (X : ℕ → ℝ) : ℝ :=
  let vpb := v + bCur q X
  let vmb := v - bCur q X;
  -q.R * T / (vmb * vmb) + aCur q T X * (2 * v + bCur q X) / (Real.sqrt T * v * v * vpb * vpb)

/-- `dpdVCalc` (RK 682-693), reference argument `presCalc`. -/
noncomputable def dpdVpres (T v : ℝ) (X : ℕ → ℝ) : ℝ :=
  q.R * T / (v - bCur q X) - aCur q T X / (Real.sqrt T * v * (v + bCur q X))

/-- `dpdT_` of `pressureDerivatives` (RK 713-726). -/
noncomputable def dpdT (T v : ℝ) (X : ℕ → ℝ) : ℝ :=
  let vpb := v + bCur q X
  let vmb := v - bCur q X
  let fac := dadt q X - aCur q T X / (2 * T)
  q.R / vmb - fac / (Real.sqrt T * v * vpb)

/-- `cp_mole` (RK 100-114). -/
noncomputable def cpMole (T v : ℝ) (X : ℕ → ℝ) : ℝ :=
  let sqt := Real.sqrt T
  let vpb := v + bCur q X
  let cpref := q.R * meanX q (q.cp0 T) X
  let da := dadt q X
  let fac := T * da - 3 * aCur q T X / 2
  let dHdT := cpref + v * dpdT q T v X - q.R - 1 / (2 * bCur q X * T * sqt) * Real.log (vpb / v) * fac +
    1 / (bCur q X * sqt) * Real.log (vpb / v) * (-0.5 * da)
  dHdT - (v + T * dpdT q T v X / dpdV q T v X) * dpdT q T v X

/-- `cv_mole` (RK 116-128). -/
noncomputable def cvMole (T v : ℝ) (X : ℕ → ℝ) : ℝ :=
  let sqt := Real.sqrt T
  let vpb := v + bCur q X
  let cvref := q.R * (meanX q (q.cp0 T) X - 1)
  let da := dadt q X
  let fac := T * da - 3 * aCur q T X / 2
  cvref - 1 / (2 * bCur q X * T * sqt) * Real.log (vpb / v) * fac +
    1 / (bCur q X * sqt) * Real.log (vpb / v) * (-0.5 * da)

/-- `m_pp[k]` (RK 154-160, 190-196, 225-231, 271-277, 322-328). -/
noncomputable def pp (T : ℝ) (X : ℕ → ℝ) (k : ℕ) : ℝ := ∑ i ∈ Finset.range q.kk, X i * aVec q T (k + q.kk * i)

/-- The logarithm of the fugacity coefficient times `RT` (RK 164-171, repeated in RK 201-208). -/
noncomputable def lnPhiRT (T v : ℝ) (X : ℕ → ℝ) (k : ℕ) : ℝ :=
  let sqt := Real.sqrt T
  let vpb := v + bCur q X
  let vmb := v - bCur q X
  let bc := bCur q X
  let a := aCur q T X;
  -(q.R * T) * Real.log (pressure q T v X * v / (q.R * T)) + q.R * T * Real.log (v / vmb) + q.R * T * q.b k / vmb -
    2 * pp q T X k / (bc * sqt) * Real.log (vpb / v) + a * q.b k / (bc * bc * sqt) * Real.log (vpb / v) -
    a / (bc * sqt) * (q.b k / vpb)

/-- `getActivityCoefficients` (RK 147-175). -/
noncomputable def actCoeff (T v : ℝ) (X : ℕ → ℝ) (k : ℕ) : ℝ := Real.exp (lnPhiRT q T v X k / (q.R * T))

/-- `m_g0_RT[k]` (MF 733). -/
noncomputable def g0 (T : ℝ) (k : ℕ) : ℝ := q.h0 T k - q.s0 T k

/-- `getChemPotentials` (RK 179-211). -/
noncomputable def chemPot (T v : ℝ) (X : ℕ → ℝ) (k : ℕ) : ℝ :=
  g0 q T k * (q.R * T) + q.R * T * Real.log (max q.small (X k)) +
    (q.R * T * Real.log (pressure q T v X / q.P0) + lnPhiRT q T v X k)

/-- `getStandardChemPotentials` (MF 60-67). -/
noncomputable def stdChemPot (T v : ℝ) (X : ℕ → ℝ) (k : ℕ) : ℝ :=
  q.R * T * (g0 q T k + Real.log (pressure q T v X / q.P0))

/-- `dpdni_[k]` (RK 232-235). -/
noncomputable def dpdni (T v : ℝ) (X : ℕ → ℝ) (k : ℕ) : ℝ :=
  let sqt := Real.sqrt T
  let vpb := v + bCur q X
  let vmb := v - bCur q X
  q.R * T / vmb + q.R * T * q.b k / (vmb * vmb) - 2 * pp q T X k / (sqt * v * vpb) +
    aCur q T X * q.b k / (sqt * v * vpb * vpb)

/-- `getPartialMolarEnthalpies` (RK 213-256). -/
noncomputable def pmH (T v : ℝ) (X : ℕ → ℝ) (k : ℕ) : ℝ :=
  let sqt := Real.sqrt T
  let vpb := v + bCur q X
  let bc := bCur q X
  let fac := T * dadt q X - 3 * aCur q T X / 2
  let w := ∑ i ∈ Finset.range q.kk,
    (2 * X i * T * q.a1 (k + q.kk * i) - 3 * X i * aVec q T (k + q.kk * i))
  let fac2 := v + T * dpdT q T v X / dpdV q T v X
  let hE := v * dpdni q T v X k - q.R * T - q.b k / (bc * bc * sqt) * Real.log (vpb / v) * fac +
    1 / (bc * sqt) * Real.log (vpb / v) * w + q.b k / vpb / (bc * sqt) * fac
  q.h0 T k * (q.R * T) + hE - fac2 * dpdni q T v X k

/-- `getPartialMolarVolumes` (RK 320-352). -/
noncomputable def pmV (T v : ℝ) (X : ℕ → ℝ) (k : ℕ) : ℝ :=
  let sqt := Real.sqrt T
  let vpb := v + bCur q X
  let vmb := v - bCur q X
  let bc := bCur q X
  let num := q.R * T + q.R * T * bc / vmb + q.R * T * q.b k / vmb + q.R * T * bc * q.b k / (vmb * vmb) -
    2 * pp q T X k / (sqt * vpb) + aCur q T X * q.b k / (sqt * vpb * vpb)
  let denom := pressure q T v X + q.R * T * bc / (vmb * vmb) - aCur q T X / (sqt * vpb * vpb)
  num / denom

/-- `getPartialMolarEntropies` (RK 258-307). -/
noncomputable def pmS (T v : ℝ) (X : ℕ → ℝ) (k : ℕ) : ℝ :=
  let sqt := Real.sqrt T
  let vpb := v + bCur q X
  let vmb := v - bCur q X
  let bc := bCur q X
  let w := ∑ i ∈ Finset.range q.kk, X i * q.a1 (k + q.kk * i)
  let fac := dadt q X - aCur q T X / (2 * T)
  q.s0 T k * q.R + q.R * -Real.log (max q.small (X k)) -
    (q.R * Real.log (q.R * T / (q.P0 * v)) + q.R + q.R * Real.log (v / vmb) + q.R * q.b k / vmb +
      pp q T X k / (bc * T * sqt) * Real.log (vpb / v) - 2 * w / (bc * sqt) * Real.log (vpb / v) +
      q.b k / (bc * bc * sqt) * Real.log (vpb / v) * fac - 1 / (bc * sqt) * q.b k / vpb * fac) -
    -pmV q T v X k * dpdT q T v X

/-- `getPartialMolarIntEnergies` (RK 309-318). -/
noncomputable def pmU (T v : ℝ) (X : ℕ → ℝ) (k : ℕ) : ℝ := pmH q T v X k - pressure q T v X * pmV q T v X k

/-- `isothermalCompressibility` (RK 695-699). -/
noncomputable def kappaT (T v : ℝ) (X : ℕ → ℝ) : ℝ := -1 / (v * dpdV q T v X)

/-- `thermalExpansionCoeff` (RK 701-705). -/
noncomputable def beta (T v : ℝ) (X : ℕ → ℝ) : ℝ := -dpdT q T v X / (v * dpdV q T v X)

/-- `soundSpeed` (RK 707-711). -/
noncomputable def sound (T v : ℝ) (X : ℕ → ℝ) : ℝ :=
  v * Real.sqrt (-cpMole q T v X / cvMole q T v X * dpdV q T v X / mmw q X)

end Verif.Fluid.RK
