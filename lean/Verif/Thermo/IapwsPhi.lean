import Mathlib.Analysis.SpecialFunctions.Pow.Real
import Mathlib.Analysis.SpecialFunctions.Log.Basic
import Mathlib.Algebra.BigOperators.Group.Finset.Basic

/-!
# The IAPWS-95 Helmholtz function of water and its derivatives

Model of `src/thermo/WaterPropsIAPWSphi.cpp`.  `τ = T_c/T`, `δ = ρ/ρ_c`.  The coefficient
arrays of the file (lines 19-348) are fields of `Coef`, so that the theorems hold for any
values; the integer arrays and the exponents of the critical terms (which decide where the
expressions are defined) are transcribed in `water`.

A function that divides by zero or raises zero to a negative power (the C++ result is a NaN)
returns `none`.  The code repeats the auxiliary quantities of the critical terms in each of
its functions with identical text; here they are shared definitions.
-/

namespace Verif.Iapws

open Finset

/-- Coefficient arrays, `WaterPropsIAPWSphi.cpp:19-348` (`ni`, `ciR`, `diR`, `tiR`, `alphai`,
`betai`, `gammai`, `epsi`, `Ai`, `Bi`, `Ci`, `Di`, `ai`, `bi`, `Bbetai`, `ni0`, `gammi0`). -/
structure Coef where
  n : ℕ → ℝ
  c : ℕ → ℕ
  d : ℕ → ℕ
  t : ℕ → ℕ
  al : ℕ → ℝ
  be : ℕ → ℝ
  ga : ℕ → ℝ
  ep : ℕ → ℝ
  A : ℕ → ℝ
  B : ℕ → ℝ
  CC : ℕ → ℝ
  D : ℕ → ℝ
  a : ℕ → ℝ
  b : ℕ → ℝ
  bb : ℕ → ℝ
  n0 : ℕ → ℝ
  g0 : ℕ → ℝ

/-- `tdpolycalc`, `WaterPropsIAPWSphi.cpp:366-369` and `373-376`: `p[0] = 1`,
`p[i] = p[i-1]*x`. -/
noncomputable def powTab (x : ℝ) : ℕ → ℝ
  | 0 => 1
  | i + 1 => powTab x i * x

/-! ## Ideal part -/

/-- `phi0`, `WaterPropsIAPWSphi.cpp:380-392`. -/
noncomputable def phi0 (K : Coef) (τ δ : ℝ) : ℝ :=
  Real.log δ + K.n0 1 + K.n0 2 * τ + K.n0 3 * Real.log τ
    + K.n0 4 * Real.log (1 - Real.exp (-K.g0 4 * τ))
    + K.n0 5 * Real.log (1 - Real.exp (-K.g0 5 * τ))
    + K.n0 6 * Real.log (1 - Real.exp (-K.g0 6 * τ))
    + K.n0 7 * Real.log (1 - Real.exp (-K.g0 7 * τ))
    + K.n0 8 * Real.log (1 - Real.exp (-K.g0 8 * τ))

/-- `phi0_d`, `WaterPropsIAPWSphi.cpp:506-510`. -/
noncomputable def phi0_d (δ : ℝ) : ℝ := 1 / δ

/-- `phi0_dd`, `WaterPropsIAPWSphi.cpp:610-614`. -/
noncomputable def phi0_dd (δ : ℝ) : ℝ := -1 / (δ * δ)

/-- `phi0_t`, `WaterPropsIAPWSphi.cpp:640-650`. -/
noncomputable def phi0_t (K : Coef) (τ : ℝ) : ℝ :=
  K.n0 2 + K.n0 3 / τ
    + K.n0 4 * K.g0 4 * (1 / (1 - Real.exp (-K.g0 4 * τ)) - 1)
    + K.n0 5 * K.g0 5 * (1 / (1 - Real.exp (-K.g0 5 * τ)) - 1)
    + K.n0 6 * K.g0 6 * (1 / (1 - Real.exp (-K.g0 6 * τ)) - 1)
    + K.n0 7 * K.g0 7 * (1 / (1 - Real.exp (-K.g0 7 * τ)) - 1)
    + K.n0 8 * K.g0 8 * (1 / (1 - Real.exp (-K.g0 8 * τ)) - 1)

/-- `phi0_tt`, `WaterPropsIAPWSphi.cpp:710-721`. -/
noncomputable def phi0_tt (K : Coef) (τ : ℝ) : ℝ :=
  -K.n0 3 / (τ * τ) - ∑ i ∈ range 5,
    K.n0 (i + 4) * K.g0 (i + 4) * K.g0 (i + 4) * Real.exp (-K.g0 (i + 4) * τ)
      / ((1 - Real.exp (-K.g0 (i + 4) * τ)) * (1 - Real.exp (-K.g0 (i + 4) * τ)))

/-- `phi0_dt`, `WaterPropsIAPWSphi.cpp:791-794`. -/
def phi0_dt : ℝ := 0

/-! ## Residual part: the seven polynomial terms -/

/-- `pow(tau, 0.375)`, `WaterPropsIAPWSphi.cpp:401`. -/
noncomputable def T375 (τ : ℝ) : ℝ := τ ^ (0.375 : ℝ)

/-- `WaterPropsIAPWSphi.cpp:402-408`. -/
noncomputable def poly (K : Coef) (τ δ : ℝ) : ℝ :=
  K.n 1 * δ / Real.sqrt τ + K.n 2 * δ * Real.sqrt τ * T375 τ + K.n 3 * δ * τ
    + K.n 4 * powTab δ 2 * Real.sqrt τ + K.n 5 * powTab δ 2 * T375 τ * T375 τ
    + K.n 6 * powTab δ 3 * T375 τ + K.n 7 * powTab δ 4 * τ

/-- `WaterPropsIAPWSphi.cpp:456-462`. -/
noncomputable def poly_d (K : Coef) (τ δ : ℝ) : ℝ :=
  K.n 1 / Real.sqrt τ + K.n 2 * Real.sqrt τ * T375 τ + K.n 3 * τ
    + K.n 4 * 2 * δ * Real.sqrt τ + K.n 5 * 2 * δ * T375 τ * T375 τ
    + K.n 6 * 3 * powTab δ 2 * T375 τ + K.n 7 * 4 * powTab δ 3 * τ

/-- `WaterPropsIAPWSphi.cpp:536-539`. -/
noncomputable def poly_dd (K : Coef) (τ δ : ℝ) : ℝ :=
  K.n 4 * 2 * Real.sqrt τ + K.n 5 * 2 * T375 τ * T375 τ
    + K.n 6 * 6 * δ * T375 τ + K.n 7 * 12 * powTab δ 2 * τ

/-- `WaterPropsIAPWSphi.cpp:661-667`. -/
noncomputable def poly_t (K : Coef) (τ δ : ℝ) : ℝ :=
  -0.5 * K.n 1 * δ / Real.sqrt τ / τ + K.n 2 * δ * 0.875 / Real.sqrt τ * T375 τ + K.n 3 * δ
    + K.n 4 * powTab δ 2 * 0.5 / Real.sqrt τ + K.n 5 * powTab δ 2 * 0.75 * T375 τ * T375 τ / τ
    + K.n 6 * powTab δ 3 * 0.375 * T375 τ / τ + K.n 7 * powTab δ 4

/-- `WaterPropsIAPWSphi.cpp:732-736`. -/
noncomputable def poly_tt (K : Coef) (τ δ : ℝ) : ℝ :=
  -0.5 * -1.5 * K.n 1 * δ / (Real.sqrt τ * τ * τ)
    + K.n 2 * δ * 0.875 * -0.125 * T375 τ / (Real.sqrt τ * τ)
    + K.n 4 * powTab δ 2 * 0.5 * -0.5 / (Real.sqrt τ * τ)
    + K.n 5 * powTab δ 2 * 0.75 * -0.25 * T375 τ * T375 τ / (τ * τ)
    + K.n 6 * powTab δ 3 * 0.375 * -0.625 * T375 τ / (τ * τ)

/-- `WaterPropsIAPWSphi.cpp:804-810`. -/
noncomputable def poly_dt (K : Coef) (τ δ : ℝ) : ℝ :=
  K.n 1 * -0.5 / (Real.sqrt τ * τ) + K.n 2 * 0.875 * T375 τ / Real.sqrt τ + K.n 3
    + K.n 4 * 2 * δ * 0.5 / Real.sqrt τ + K.n 5 * 2 * δ * 0.75 * T375 τ * T375 τ / τ
    + K.n 6 * 3 * powTab δ 2 * 0.375 * T375 τ / τ + K.n 7 * 4 * powTab δ 3

/-! ## Residual part: the exponential terms 8 to 51 -/

/-- `WaterPropsIAPWSphi.cpp:411`. -/
noncomputable def ex (K : Coef) (i : ℕ) (τ δ : ℝ) : ℝ :=
  K.n i * powTab δ (K.d i) * powTab τ (K.t i) * Real.exp (-powTab δ (K.c i))

/-- `WaterPropsIAPWSphi.cpp:465-466`. -/
noncomputable def ex_d (K : Coef) (i : ℕ) (τ δ : ℝ) : ℝ :=
  K.n i * Real.exp (-powTab δ (K.c i)) * powTab δ (K.d i - 1) * powTab τ (K.t i)
    * (K.d i - K.c i * powTab δ (K.c i))

/-- `WaterPropsIAPWSphi.cpp:542-550`. -/
noncomputable def ex_dd (K : Coef) (i : ℕ) (τ δ : ℝ) : ℝ :=
  K.n i * Real.exp (-powTab δ (K.c i)) * powTab τ (K.t i)
    * ((if K.d i = 1 then 1 / δ else powTab δ (K.d i - 2))
      * ((K.d i - K.c i * powTab δ (K.c i)) * (K.d i - 1 - K.c i * powTab δ (K.c i))
        - K.c i * K.c i * powTab δ (K.c i)))

/-- `WaterPropsIAPWSphi.cpp:670-671`. -/
noncomputable def ex_t (K : Coef) (i : ℕ) (τ δ : ℝ) : ℝ :=
  K.t i * (K.n i * powTab δ (K.d i) * powTab τ (K.t i - 1) * Real.exp (-powTab δ (K.c i)))

/-- `WaterPropsIAPWSphi.cpp:739-742`. -/
noncomputable def ex_tt (K : Coef) (i : ℕ) (τ δ : ℝ) : ℝ :=
  if 1 < K.t i then
    K.t i * (K.t i - 1)
      * (K.n i * powTab δ (K.d i) * powTab τ (K.t i - 2) * Real.exp (-powTab δ (K.c i)))
  else 0

/-- `WaterPropsIAPWSphi.cpp:813-815`. -/
noncomputable def ex_dt (K : Coef) (i : ℕ) (τ δ : ℝ) : ℝ :=
  K.n i * K.t i * Real.exp (-powTab δ (K.c i)) * powTab δ (K.d i - 1) * powTab τ (K.t i - 1)
    * (K.d i - K.c i * powTab δ (K.c i))

/-! ## Residual part: the Gaussian terms 52 to 54 -/

/-- `exp(-alphai*dtmp*dtmp - betai*ttmp*ttmp)`, `WaterPropsIAPWSphi.cpp:417-420`. -/
noncomputable def gexp (K : Coef) (j : ℕ) (τ δ : ℝ) : ℝ :=
  Real.exp (-K.al j * (δ - K.ep j) * (δ - K.ep j) - K.be j * (τ - K.ga j) * (τ - K.ga j))

/-- `WaterPropsIAPWSphi.cpp:419-420`. -/
noncomputable def gs (K : Coef) (j : ℕ) (τ δ : ℝ) : ℝ :=
  K.n (52 + j) * powTab δ (K.d (52 + j)) * powTab τ (K.t (52 + j)) * gexp K j τ δ

/-- `WaterPropsIAPWSphi.cpp:472-476`. -/
noncomputable def gs_d (K : Coef) (j : ℕ) (τ δ : ℝ) : ℝ :=
  gs K j τ δ * (K.d (52 + j) / δ - 2 * K.al j * (δ - K.ep j))

/-- `WaterPropsIAPWSphi.cpp:557-569`. -/
noncomputable def gs_dd (K : Coef) (j : ℕ) (τ δ : ℝ) : ℝ :=
  K.n (52 + j) * powTab τ (K.t (52 + j)) * gexp K j τ δ
    * (-2 * K.al j * powTab δ (K.d (52 + j))
      + 4 * K.al j * K.al j * powTab δ (K.d (52 + j)) * ((δ - K.ep j) * (δ - K.ep j))
      - 4 * K.d (52 + j) * K.al j * (powTab δ (K.d (52 + j)) / δ) * (δ - K.ep j)
      + K.d (52 + j) * (K.d (52 + j) - 1) * (powTab δ (K.d (52 + j)) / δ / δ))

/-- `WaterPropsIAPWSphi.cpp:677-681`. -/
noncomputable def gs_t (K : Coef) (j : ℕ) (τ δ : ℝ) : ℝ :=
  gs K j τ δ * (K.t (52 + j) / τ - 2 * K.be j * (τ - K.ga j))

/-- `WaterPropsIAPWSphi.cpp:748-753`. -/
noncomputable def gs_tt (K : Coef) (j : ℕ) (τ δ : ℝ) : ℝ :=
  gs K j τ δ * ((K.t (52 + j) / τ - 2 * K.be j * (τ - K.ga j))
      * (K.t (52 + j) / τ - 2 * K.be j * (τ - K.ga j))
    - K.t (52 + j) / (τ * τ) - 2 * K.be j)

/-- `WaterPropsIAPWSphi.cpp:821-826`. -/
noncomputable def gs_dt (K : Coef) (j : ℕ) (τ δ : ℝ) : ℝ :=
  gs K j τ δ * ((K.d (52 + j) / δ - 2 * K.al j * (δ - K.ep j))
    * (K.t (52 + j) / τ - 2 * K.be j * (τ - K.ga j)))

/-! ## Residual part: the critical terms 55 and 56 -/

/-- `deltam1*deltam1`, `WaterPropsIAPWSphi.cpp:426-427`. -/
def dtmp2 (δ : ℝ) : ℝ := (δ - 1) * (δ - 1)

/-- `atmp`, `WaterPropsIAPWSphi.cpp:428`. -/
noncomputable def atmp (K : Coef) (j : ℕ) : ℝ := 0.5 / K.bb j

/-- `theta`, `WaterPropsIAPWSphi.cpp:429`. -/
noncomputable def theta (K : Coef) (j : ℕ) (τ δ : ℝ) : ℝ :=
  1 - τ + K.A j * dtmp2 δ ^ atmp K j

/-- `triag`, `WaterPropsIAPWSphi.cpp:430`. -/
noncomputable def triag (K : Coef) (j : ℕ) (τ δ : ℝ) : ℝ :=
  theta K j τ δ * theta K j τ δ + K.B j * dtmp2 δ ^ K.a j

/-- `triagtmp`, `WaterPropsIAPWSphi.cpp:432`. -/
noncomputable def triagtmp (K : Coef) (j : ℕ) (τ δ : ℝ) : ℝ := triag K j τ δ ^ K.b j

/-- `triagtmpm1`, `WaterPropsIAPWSphi.cpp:489`. -/
noncomputable def triagtmpm1 (K : Coef) (j : ℕ) (τ δ : ℝ) : ℝ := triag K j τ δ ^ (K.b j - 1)

/-- The local variable `phi`, `WaterPropsIAPWSphi.cpp:433`. -/
noncomputable def psi (K : Coef) (j : ℕ) (τ δ : ℝ) : ℝ :=
  Real.exp (-K.CC j * dtmp2 δ - K.D j * (τ - 1) * (τ - 1))

/-- `ptmp`, `WaterPropsIAPWSphi.cpp:490-491`. -/
noncomputable def ptmp (K : Coef) (j : ℕ) (δ : ℝ) : ℝ := dtmp2 δ ^ (atmp K j - 1)

/-- `p2tmp`, `WaterPropsIAPWSphi.cpp:492`. -/
noncomputable def p2tmp (K : Coef) (j : ℕ) (δ : ℝ) : ℝ := dtmp2 δ ^ (K.a j - 1)

/-- `dtriagddelta`, `WaterPropsIAPWSphi.cpp:493-495`. -/
noncomputable def dtriag (K : Coef) (j : ℕ) (τ δ : ℝ) : ℝ :=
  (δ - 1) * (K.A j * theta K j τ δ * 2 / K.bb j * ptmp K j δ
    + 2 * K.B j * K.a j * p2tmp K j δ)

/-- `dphiddelta`, `WaterPropsIAPWSphi.cpp:497`. -/
noncomputable def psi_d (K : Coef) (j : ℕ) (τ δ : ℝ) : ℝ :=
  -2 * K.CC j * (δ - 1) * psi K j τ δ

/-- `dtriagtmpddelta`, `WaterPropsIAPWSphi.cpp:498`. -/
noncomputable def dtriagtmp (K : Coef) (j : ℕ) (τ δ : ℝ) : ℝ :=
  K.b j * triagtmpm1 K j τ δ * dtriag K j τ δ

/-- `WaterPropsIAPWSphi.cpp:434`. -/
noncomputable def cr (K : Coef) (j : ℕ) (τ δ : ℝ) : ℝ :=
  K.n (55 + j) * triagtmp K j τ δ * δ * psi K j τ δ

/-- `WaterPropsIAPWSphi.cpp:499-500`. -/
noncomputable def cr_d (K : Coef) (j : ℕ) (τ δ : ℝ) : ℝ :=
  K.n (55 + j) * (triagtmp K j τ δ * (psi K j τ δ + δ * psi_d K j τ δ)
    + dtriagtmp K j τ δ * δ * psi K j τ δ)

/-- `d2phiddelta2`, `WaterPropsIAPWSphi.cpp:592`. -/
noncomputable def psi_dd (K : Coef) (j : ℕ) (τ δ : ℝ) : ℝ :=
  2 * K.CC j * psi K j τ δ * (2 * K.CC j * dtmp2 δ - 1)

/-- `d2triagddelta2`, `WaterPropsIAPWSphi.cpp:593-598`. -/
noncomputable def d2triag (K : Coef) (j : ℕ) (τ δ : ℝ) : ℝ :=
  dtriag K j τ δ / (δ - 1)
    + dtmp2 δ * (4 * K.B j * K.a j * (K.a j - 1) * dtmp2 δ ^ (K.a j - 2)
      + 2 * K.A j * K.A j / (K.bb j * K.bb j) * ptmp K j δ * ptmp K j δ
      + K.A j * theta K j τ δ * 4 / K.bb j * (atmp K j - 1) * (ptmp K j δ / dtmp2 δ))

/-- `d2triagtmpd2delta`, `WaterPropsIAPWSphi.cpp:599-601`. -/
noncomputable def d2triagtmp (K : Coef) (j : ℕ) (τ δ : ℝ) : ℝ :=
  K.b j * (triagtmpm1 K j τ δ * d2triag K j τ δ
    + (K.b j - 1) * triagtmpm1 K j τ δ / triag K j τ δ * dtriag K j τ δ * dtriag K j τ δ)

/-- `WaterPropsIAPWSphi.cpp:602-605`. -/
noncomputable def cr_dd (K : Coef) (j : ℕ) (τ δ : ℝ) : ℝ :=
  K.n (55 + j) * (triagtmp K j τ δ * (2 * psi_d K j τ δ + δ * psi_dd K j τ δ)
    + 2 * dtriagtmp K j τ δ * (psi K j τ δ + δ * psi_d K j τ δ)
    + d2triagtmp K j τ δ * δ * psi K j τ δ)

/-- `dtriagtmpdtau`, `WaterPropsIAPWSphi.cpp:695`. -/
noncomputable def dtriagtmp_t (K : Coef) (j : ℕ) (τ δ : ℝ) : ℝ :=
  -2 * theta K j τ δ * K.b j * triagtmp K j τ δ / triag K j τ δ

/-- `dphidtau`, `WaterPropsIAPWSphi.cpp:696`. -/
noncomputable def psi_t (K : Coef) (j : ℕ) (τ δ : ℝ) : ℝ :=
  -2 * K.D j * (τ - 1) * psi K j τ δ

/-- `WaterPropsIAPWSphi.cpp:697`. -/
noncomputable def cr_t (K : Coef) (j : ℕ) (τ δ : ℝ) : ℝ :=
  K.n (55 + j) * δ * (dtriagtmp_t K j τ δ * psi K j τ δ + triagtmp K j τ δ * psi_t K j τ δ)

/-- `d2triagtmpdtau2`, `WaterPropsIAPWSphi.cpp:766`, `770-772`. -/
noncomputable def d2triagtmp_tt (K : Coef) (j : ℕ) (τ δ : ℝ) : ℝ :=
  2 * K.b j * (triagtmp K j τ δ / triag K j τ δ)
    + 4 * theta K j τ δ * theta K j τ δ * K.b j * (K.b j - 1)
      * (triagtmp K j τ δ / triag K j τ δ) / triag K j τ δ

/-- `d2phidtau2`, `WaterPropsIAPWSphi.cpp:773`. -/
noncomputable def psi_tt (K : Coef) (j : ℕ) (τ δ : ℝ) : ℝ :=
  2 * K.D j * psi K j τ δ * (2 * K.D j * (τ - 1) * (τ - 1) - 1)

/-- `WaterPropsIAPWSphi.cpp:774-777`. -/
noncomputable def cr_tt (K : Coef) (j : ℕ) (τ δ : ℝ) : ℝ :=
  K.n (55 + j) * δ * (d2triagtmp_tt K j τ δ * psi K j τ δ
    + 2 * dtriagtmp_t K j τ δ * psi_t K j τ δ + triagtmp K j τ δ * psi_tt K j τ δ)

/-- `d2phiddeltadtau`, `WaterPropsIAPWSphi.cpp:851`. -/
noncomputable def psi_dt (K : Coef) (j : ℕ) (τ δ : ℝ) : ℝ :=
  4 * K.CC j * K.D j * (δ - 1) * (τ - 1) * psi K j τ δ

/-- `d2triagtmpddeltadtau`, `WaterPropsIAPWSphi.cpp:852-854`. -/
noncomputable def d2triagtmp_dt (K : Coef) (j : ℕ) (τ δ : ℝ) : ℝ :=
  -K.A j * K.b j * 2 / K.bb j * triagtmpm1 K j τ δ * (δ - 1) * ptmp K j δ
    - 2 * theta K j τ δ * K.b j * (K.b j - 1) * triagtmpm1 K j τ δ / triag K j τ δ
      * dtriag K j τ δ

/-- `WaterPropsIAPWSphi.cpp:855-859`. -/
noncomputable def cr_dt (K : Coef) (j : ℕ) (τ δ : ℝ) : ℝ :=
  K.n (55 + j) * (triagtmp K j τ δ * (psi_t K j τ δ + δ * psi_dt K j τ δ)
    + δ * dtriagtmp K j τ δ * psi_t K j τ δ
    + dtriagtmp_t K j τ δ * (psi K j τ δ + δ * psi_d K j τ δ)
    + d2triagtmp_dt K j τ δ * δ * psi K j τ δ)

/-! ## The sums -/

/-- `phiR`, `WaterPropsIAPWSphi.cpp:394-438`. -/
noncomputable def phiR (K : Coef) (τ δ : ℝ) : ℝ :=
  poly K τ δ + ∑ i ∈ range 44, ex K (i + 8) τ δ + ∑ j ∈ range 3, gs K j τ δ
    + ∑ j ∈ range 2, cr K j τ δ

/-- Value of `phiR_d` when every operation is defined, `WaterPropsIAPWSphi.cpp:448-504`. -/
noncomputable def phiR_dV (K : Coef) (τ δ : ℝ) : ℝ :=
  poly_d K τ δ + ∑ i ∈ range 44, ex_d K (i + 8) τ δ + ∑ j ∈ range 3, gs_d K j τ δ
    + ∑ j ∈ range 2, cr_d K j τ δ

/-- Value of `phiR_dd` when every operation is defined, `WaterPropsIAPWSphi.cpp:527-608`. -/
noncomputable def phiR_ddV (K : Coef) (τ δ : ℝ) : ℝ :=
  poly_dd K τ δ + ∑ i ∈ range 44, ex_dd K (i + 8) τ δ + ∑ j ∈ range 3, gs_dd K j τ δ
    + ∑ j ∈ range 2, cr_dd K j τ δ

/-- Value of `phiR_t` when every operation is defined, `WaterPropsIAPWSphi.cpp:652-700`. -/
noncomputable def phiR_tV (K : Coef) (τ δ : ℝ) : ℝ :=
  poly_t K τ δ + ∑ i ∈ range 44, ex_t K (i + 8) τ δ + ∑ j ∈ range 3, gs_t K j τ δ
    + ∑ j ∈ range 2, cr_t K j τ δ

/-- Value of `phiR_tt` when every operation is defined, `WaterPropsIAPWSphi.cpp:723-781`. -/
noncomputable def phiR_ttV (K : Coef) (τ δ : ℝ) : ℝ :=
  poly_tt K τ δ + ∑ i ∈ range 44, ex_tt K (i + 8) τ δ + ∑ j ∈ range 3, gs_tt K j τ δ
    + ∑ j ∈ range 2, cr_tt K j τ δ

/-- Value of `phiR_dt` when every operation is defined, `WaterPropsIAPWSphi.cpp:796-862`. -/
noncomputable def phiR_dtV (K : Coef) (τ δ : ℝ) : ℝ :=
  poly_dt K τ δ + ∑ i ∈ range 44, ex_dt K (i + 8) τ δ + ∑ j ∈ range 3, gs_dt K j τ δ
    + ∑ j ∈ range 2, cr_dt K j τ δ

open Classical in
/-- `phiR_d`: `diR[i]/delta` (line 476) and `pow(triag, bi[j]-1.0)` (line 489, `bi < 1`) are
NaN-producing at `δ = 0` and `triag = 0`, `ni[1]/TAUsqrt` (line 456) at `τ ≤ 0`. -/
noncomputable def phiR_d (K : Coef) (τ δ : ℝ) : Option ℝ :=
  if 0 < τ ∧ δ ≠ 0 ∧ ∀ j < 2, triag K j τ δ ≠ 0 then some (phiR_dV K τ δ) else none

open Classical in
/-- `phiR_dd`: in addition `dtriagddelta/deltam1` and `ptmp/dtmp2` (lines 593-594) are `0/0` at
`δ = 1`. -/
noncomputable def phiR_dd (K : Coef) (τ δ : ℝ) : Option ℝ :=
  if 0 < τ ∧ δ ≠ 0 ∧ δ ≠ 1 ∧ ∀ j < 2, triag K j τ δ ≠ 0 then some (phiR_ddV K τ δ) else none

open Classical in
/-- `phiR_t`: `triagtmp / triag` (line 695) is `0/0` at `triag = 0`. -/
noncomputable def phiR_t (K : Coef) (τ δ : ℝ) : Option ℝ :=
  if 0 < τ ∧ ∀ j < 2, triag K j τ δ ≠ 0 then some (phiR_tV K τ δ) else none

open Classical in
/-- `phiR_tt`: `triagtmp / triag` (line 766). -/
noncomputable def phiR_tt (K : Coef) (τ δ : ℝ) : Option ℝ :=
  if 0 < τ ∧ ∀ j < 2, triag K j τ δ ≠ 0 then some (phiR_ttV K τ δ) else none

open Classical in
/-- `phiR_dt`: as `phiR_d` (lines 825, 839, 849, 854). -/
noncomputable def phiR_dt (K : Coef) (τ δ : ℝ) : Option ℝ :=
  if 0 < τ ∧ δ ≠ 0 ∧ ∀ j < 2, triag K j τ δ ≠ 0 then some (phiR_dtV K τ δ) else none

/-! ## The integer and critical-term arrays -/

/-- `ciR`, `WaterPropsIAPWSphi.cpp:56-113` (entries 8 to 51). -/
def ciR (i : ℕ) : ℕ :=
  if i < 8 then 0 else if i < 23 then 1 else if i < 43 then 2 else if i < 47 then 3
  else if i < 48 then 4 else if i < 52 then 6 else 0

/-- `diR`, `WaterPropsIAPWSphi.cpp:115-171`. -/
def diR (i : ℕ) : ℕ :=
  ([0, 1, 1, 1, 2, 2, 3, 4, 1, 1, 1, 2, 2, 3, 4, 4, 5, 7, 9, 10, 11, 13, 15, 1, 2, 2, 2, 3, 4,
    4, 4, 5, 6, 6, 7, 9, 9, 9, 9, 9, 10, 10, 12, 3, 4, 4, 5, 14, 3, 6, 6, 6, 3, 3, 3] :
    List ℕ).getD i 0

/-- `tiR`, `WaterPropsIAPWSphi.cpp:173-229`. -/
def tiR (i : ℕ) : ℕ :=
  ([0, 0, 0, 0, 0, 0, 0, 0, 4, 6, 12, 1, 5, 4, 2, 13, 9, 3, 4, 11, 4, 13, 1, 7, 1, 9, 10, 10,
    3, 7, 10, 10, 6, 10, 10, 1, 2, 3, 4, 8, 6, 9, 8, 16, 22, 23, 23, 10, 50, 44, 46, 50, 0, 1,
    4] : List ℕ).getD i 0

/-- The coefficients of water: integer arrays, Gaussian and critical-term arrays as in
`WaterPropsIAPWSphi.cpp:56-229`, `291-348`; `ni`, `ni0` and `gammi0` are left as parameters. -/
noncomputable def water (n n0 g0 : ℕ → ℝ) : Coef where
  n := n
  c := ciR
  d := diR
  t := tiR
  al := fun _ => 20
  be := fun j => if j = 2 then 250 else 150
  ga := fun j => if j = 2 then 1.25 else 1.21
  ep := fun _ => 1
  A := fun _ => 0.32
  B := fun _ => 0.2
  CC := fun j => if j = 0 then 28 else 32
  D := fun j => if j = 0 then 700 else 800
  a := fun _ => 3.5
  b := fun j => if j = 0 then 0.85 else 0.95
  bb := fun _ => 0.3
  n0 := n0
  g0 := g0

/-! ## The density iteration -/

/-- Result of one pass through the loop body of `dfind`. -/
inductive Pass where
  | next (dd : ℝ)
  | conv (dd : ℝ)
  | nan

/-- One pass of the loop of `dfind`, `WaterPropsIAPWSphi.cpp:870-930`.  When `phiR_d` or
`phiR_dd` is NaN so are `pred0` or `dpddelta`, every comparison is false and `dd` becomes NaN
for the rest of the loop. -/
noncomputable def dfindPass (K : Coef) (pred τ guess : ℝ) (n : ℕ) (dd : ℝ) : Pass :=
  match phiR_d K τ dd, phiR_dd K τ dd with
  | some q1, some q2 =>
    let pred0 := dd + dd * dd * q1
    let dpddelta := 1 + 2 * dd * q1 + dd * dd * q2
    if dpddelta ≤ 0 then
      let d1 := if guess > 1 then dd * 1.05 else dd
      .next (if guess < 1 then d1 * 0.95 else d1)
    else if |pred0 - pred| < 1e-30 + 1e-14 * pred then .conv dd
    else
      let dpdx := max (if n < 10 then dpddelta * 1.1 else dpddelta) 0.001
      let deldd0 := -(pred0 - pred) / dpdx
      let deldd := if |deldd0| > 0.05 then deldd0 * 0.05 / |deldd0| else deldd0
      let d1 := dd + deldd
      if d1 ≠ 0 ∧ |deldd / d1| < 1e-14 then .conv d1
      else .next (if d1 ≤ 0 then 1e-24 else d1)
  | _, _ => .nan

/-- The loop, `WaterPropsIAPWSphi.cpp:870`: `fuel` passes remain, the next has index `n`. -/
noncomputable def dfindLoop (K : Coef) (pred τ guess : ℝ) : ℕ → ℕ → ℝ → Option ℝ
  | 0, _, _ => none
  | fuel + 1, n, dd =>
    match dfindPass K pred τ guess n dd with
    | .next d => dfindLoop K pred τ guess fuel (n + 1) d
    | .conv d => some d
    | .nan => none

/-- `dfind`, `WaterPropsIAPWSphi.cpp:864-937`. -/
noncomputable def dfind (K : Coef) (pred τ guess : ℝ) : ℝ :=
  (dfindLoop K pred τ guess 200 0 guess).getD 0

end Verif.Iapws
