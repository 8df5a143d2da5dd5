import Mathlib.Analysis.SpecialFunctions.Log.Basic
import Mathlib.Analysis.SpecialFunctions.Pow.Real
import Verif.Basic

/-!
# Standard states of ions in water: PDSS_HKFT, WaterProps

Numbers of Cantera are exact decimals.  The conversion from cal/gmol to J/kmol is a factor `κ`.
-/

namespace Verif.Hkft

/-- Parameters of PDSS_HKFT (cal, gmol, bar) with the reference values stored by `initThermo`. -/
structure Par where
  κ : ℝ
  S0 : ℝ
  mu0 : ℝ
  a1 : ℝ
  a2 : ℝ
  a3 : ℝ
  a4 : ℝ
  c1 : ℝ
  c2 : ℝ
  ω : ℝ
  z : ℝ
  pR : ℝ
  Zr : ℝ
  Yr : ℝ
  dωr : ℝ

/-- `relEpsilon(T, P, i)` and `gstar(T, P, i)` for i = 0, 1, 2, 3. -/
structure Fun where
  e : ℝ → ℝ → ℝ
  eT : ℝ → ℝ → ℝ
  eTT : ℝ → ℝ → ℝ
  eP : ℝ → ℝ → ℝ
  g : ℝ → ℝ → ℝ
  gT : ℝ → ℝ → ℝ
  gTT : ℝ → ℝ → ℝ
  gP : ℝ → ℝ → ℝ

variable (A : Par) (F : Fun)

/-- PDSS_HKFT.cpp:68. -/
def nu : ℝ := 166027

/-- PDSS_HKFT.cpp:69, 124, 382, 415. -/
noncomputable def rePr : ℝ := A.z * A.z / (A.ω / nu + A.z / (3082 / 1000))

/-- PDSS_HKFT.cpp:74, 129, 384, 418. -/
noncomputable def re (T p : ℝ) : ℝ := rePr A + |A.z| * F.g T p

/-- PDSS_HKFT.cpp:80, 130. -/
noncomputable def rH (T p : ℝ) : ℝ := 3082 / 1000 + F.g T p

/-- PDSS_HKFT.cpp:377-386 (and 63-64, 82, 118-119, 132, 410-411, 420). -/
noncomputable def omega (T p : ℝ) : ℝ :=
  if A.z = 0 then A.ω else nu * (A.z * A.z / re A F T p - A.z / rH F T p)

/-- PDSS_HKFT.cpp:65, 83-84 and 412, 421-422. -/
noncomputable def omegaT (T p : ℝ) : ℝ :=
  if A.z = 0 then 0 else
    nu * (-(A.z * A.z / (re A F T p * re A F T p) * (|A.z| * F.gT T p))
      + A.z / (rH F T p * rH F T p) * F.gT T p)

/-- PDSS_HKFT.cpp:66, 85-86. -/
noncomputable def omegaTT (T p : ℝ) : ℝ :=
  if A.z = 0 then 0 else
    nu * (2 * (A.z * A.z) * (|A.z| * F.gT T p) * (|A.z| * F.gT T p)
        / (re A F T p * re A F T p * re A F T p)
      - A.z * A.z * (|A.z| * F.gTT T p) / (re A F T p * re A F T p)
      - 2 * A.z * F.gT T p * F.gT T p / (rH F T p * rH F T p * rH F T p)
      + A.z * F.gTT T p / (rH F T p * rH F T p))

/-- PDSS_HKFT.cpp:120, 133-135. -/
noncomputable def omegaP (T p : ℝ) : ℝ :=
  if A.z = 0 then 0 else
    -nu * (A.z * A.z / (re A F T p * re A F T p) * (|A.z| * F.gP T p))
      + nu * A.z / (rH F T p * rH F T p) * F.gP T p

/-- PDSS_HKFT.cpp:367. -/
noncomputable def pbar (p : ℝ) : ℝ := p * (1 / 100000)

/-- PDSS_HKFT.cpp:365-396. -/
noncomputable def deltaG (T p : ℝ) : ℝ :=
  let sterm := -A.S0 * (T - 29815 / 100)
  let c1term := -A.c1 * (T * Real.log (T / (29815 / 100)) - (T - 29815 / 100))
  let a1term := A.a1 * (pbar p - A.pR)
  let a2term := A.a2 * Real.log ((2600 + pbar p) / (2600 + A.pR))
  let c2term := -A.c2 * ((1 / (T - 228) - 1 / (29815 / 100 - 228)) * (228 - T) / 228
    - T / (228 * 228) * Real.log ((29815 / 100 * (T - 228)) / (T * (29815 / 100 - 228))))
  let a3term := A.a3 / (T - 228) * (pbar p - A.pR)
  let a4term := A.a4 / (T - 228) * Real.log ((2600 + pbar p) / (2600 + A.pR))
  let Z := -1 / F.e T p
  let wterm := -omega A F T p * (Z + 1)
  let wrterm := A.ω * (A.Zr + 1)
  let yterm := A.ω * A.Yr * (T - 29815 / 100)
  A.κ * (sterm + c1term + a1term + a2term + c2term + a3term + a4term + wterm + wrterm + yterm)

/-- PDSS_HKFT.cpp:398-436. -/
noncomputable def deltaS (T p : ℝ) : ℝ :=
  let c1term := A.c1 * Real.log (T / (29815 / 100))
  let c2term := -A.c2 / 228 * ((1 / (T - 228) - 1 / (29815 / 100 - 228))
    + 1 / 228 * Real.log ((29815 / 100 * (T - 228)) / (T * (29815 / 100 - 228))))
  let a3term := A.a3 / (T - 228) / (T - 228) * (pbar p - A.pR)
  let a4term := A.a4 / (T - 228) / (T - 228) * Real.log ((2600 + pbar p) / (2600 + A.pR))
  let Y := F.eT T p / (F.e T p * F.e T p)
  let Z := -1 / F.e T p
  let wterm := omega A F T p * Y
  let wrterm := -A.ω * A.Yr
  let otterm := omegaT A F T p * (Z + 1)
  let otrterm := -A.dωr * (A.Zr + 1)
  A.κ * (c1term + c2term + a3term + a4term + wterm + wrterm + otterm + otrterm)

/-- PDSS_HKFT.cpp:46-49. -/
noncomputable def gibbs (T p : ℝ) : ℝ := A.mu0 + deltaG A F T p

/-- PDSS_HKFT.cpp:41-44. -/
noncomputable def entropy (T p : ℝ) : ℝ := A.κ * A.S0 + deltaS A F T p

/-- PDSS_HKFT.cpp:29-34. -/
noncomputable def enthalpy (T p : ℝ) : ℝ := gibbs A F T p + T * entropy A F T p

/-- PDSS_HKFT.cpp:51-105. -/
noncomputable def cp (T p : ℝ) : ℝ :=
  let c1term := A.c1
  let c2term := A.c2 / (T - 228) / (T - 228)
  let a3term := -A.a3 / (T - 228) / (T - 228) / (T - 228) * 2 * T * (pbar p - A.pR)
  let a4term := -A.a4 / (T - 228) / (T - 228) / (T - 228) * 2 * T
    * Real.log ((2600 + pbar p) / (2600 + A.pR))
  let e := F.e T p
  let Y := F.eT T p / (e * e)
  let X := F.eTT T p / (e * e) - 2 * e * Y * Y
  let Z := -1 / e
  let yterm := 2 * T * Y * omegaT A F T p
  let xterm := omega A F T p * T * X
  let otterm := T * omegaTT A F T p * (Z + 1)
  let rterm := -A.dωr * (A.Zr + 1)
  A.κ * (c1term + c2term + a3term + a4term + yterm + xterm + otterm + rterm)

/-- PDSS_HKFT.cpp:107-148. -/
noncomputable def molarVolume (T p : ℝ) : ℝ :=
  let a1term := A.a1 * (1 / 100000)
  let a2term := A.a2 / (260000000 + p)
  let a3term := A.a3 * (1 / 100000) / (T - 228)
  let a4term := A.a4 / (T - 228) / (260000000 + p)
  let Q := F.eP T p / (F.e T p * F.e T p)
  let Z := -1 / F.e T p
  let wterm := -omegaP A F T p * (Z + 1)
  let qterm := -omega A F T p * Q
  A.κ * (a1term + a2term + a3term + a4term + wterm + qterm)

/-- PDSS_HKFT.cpp:36-39; `enthalpy_RT()` is `enthalpy_mole()/RT`. -/
noncomputable def intEnergy (R T p : ℝ) : ℝ := enthalpy A F T p / (R * T) - molarVolume A F T p * p

/-! ## Functions of Shock et al. -/

/-- PDSS_HKFT.cpp:438-450. -/
noncomputable def ag (T : ℝ) : ℕ → ℝ
  | 0 => -2037662 / 1000000 + 5747 / 1000000 * T + -6557892 / 1000000000000 * T * T
  | 1 => 5747 / 1000000 + -6557892 / 1000000000000 * 2 * T
  | 2 => -6557892 / 1000000000000 * 2
  | _ => 0

/-- PDSS_HKFT.cpp:452-464. -/
noncomputable def bg (T : ℝ) : ℕ → ℝ
  | 0 => 6107361 / 1000000 + -1074377 / 100000000 * T + 1268348 / 100000000000 * T * T
  | 1 => -1074377 / 100000000 + 1268348 / 100000000000 * 2 * T
  | 2 => 1268348 / 100000000000 * 2
  | _ => 0

/-- PDSS_HKFT.cpp:468. -/
noncomputable def af0 : ℝ := 3666666 / 100000
noncomputable def af1 : ℝ := -1504956 / 10 ^ 16
noncomputable def af2 : ℝ := 5107997 / 10 ^ 20

/-- PDSS_HKFT.cpp:466-498. -/
noncomputable def f (T p : ℝ) (i : ℕ) : Outcome ℝ :=
  let TC := T - 27315 / 100
  let pb := p / 100000
  if TC < 155 then .ok 0
  else
    let TC := min TC 355
    if 1000 < pb then .ok 0
    else
      let T1 := (TC - 155) / 300
      let p2 := (1000 - pb) * (1000 - pb)
      let p3 := (1000 - pb) * p2
      let p4 := p2 * p2
      let fac2 := af1 * p3 + af2 * p4
      match i with
      | 0 => .ok (T1 ^ (48 / 10 : ℝ) + af0 * T1 ^ (16 : ℝ) * fac2)
      | 1 => .ok ((48 / 10 * T1 ^ (38 / 10 : ℝ) + 16 * af0 * T1 ^ (15 : ℝ)) / 300 * fac2)
      | 2 => .ok ((48 / 10 * (38 / 10) * T1 ^ (28 / 10 : ℝ) + 16 * 15 * af0 * T1 ^ (14 : ℝ))
          / (300 * 300) * fac2)
      | 3 => .ok ((T1 ^ (48 / 10 : ℝ) + af0 * T1 ^ (16 : ℝ))
          * (-(3 * af1 * p2 + 4 * af2 * p3) / 100000))
      | _ => .throw

/-- Water: density, thermal expansion, its temperature derivative, compressibility. -/
structure Water where
  ρ : ℝ → ℝ → ℝ
  α : ℝ → ℝ → ℝ
  αT : ℝ → ℝ → ℝ
  β : ℝ → ℝ → ℝ

/-- PDSS_HKFT.cpp:507-508. -/
noncomputable def dens (w : Water) (T p : ℝ) : ℝ := w.ρ T p * (1 / 1000)
noncomputable def gval (w : Water) (T p : ℝ) : ℝ := ag T 0 * (1 - dens w T p) ^ bg T 0

/-- PDSS_HKFT.cpp:519-523. -/
noncomputable def dgdt (w : Water) (T p : ℝ) : ℝ :=
  let d := dens w T p
  let gv := gval w T p
  let fac1 := ag T 1 * gv / ag T 0
  let fac2 := bg T 1 * gv * Real.log (1 - d)
  let fac3 := gv * w.α T p * bg T 0 * d / (1 - d)
  fac1 + fac2 + fac3

/-- PDSS_HKFT.cpp:528-543. -/
noncomputable def d2gdt2 (w : Water) (T p : ℝ) : ℝ :=
  let d := dens w T p
  let gv := gval w T p
  let gt := dgdt w T p
  let α := w.α T p
  let dfac1 := gt * ag T 1 / ag T 0 + ag T 2 * gv / ag T 0 - ag T 1 * ag T 1 * gv / (ag T 0 * ag T 0)
  let dd := -α * d
  let dfac2 := bg T 2 * gv * Real.log (1 - d) + bg T 1 * gt * Real.log (1 - d)
    - bg T 1 * gv / (1 - d) * dd
  let dfac3 := gt * α * bg T 0 * d / (1 - d) + gv * w.αT T p * bg T 0 * d / (1 - d)
    + gv * α * bg T 1 * d / (1 - d) + gv * α * bg T 0 * dd / (1 - d)
    + gv * α * bg T 0 * d / ((1 - d) * (1 - d)) * dd
  dfac1 + dfac2 + dfac3

/-- PDSS_HKFT.cpp:500-551. -/
noncomputable def g (w : Water) (T p : ℝ) (i : ℕ) : Outcome ℝ :=
  if 1 ≤ dens w T p then .ok 0
  else match i with
    | 0 => .ok (gval w T p)
    | 1 => .ok (dgdt w T p)
    | 2 => .ok (d2gdt2 w T p)
    | 3 => .ok (-bg T 0 * gval w T p * dens w T p * w.β T p / (1 - dens w T p))
    | _ => .throw

/-- PDSS_HKFT.cpp:553-559. -/
noncomputable def gstar (w : Water) (T p : ℝ) (i : ℕ) : Outcome ℝ :=
  match g w T p i, f T p i with
  | .ok a, .ok b => .ok (a - b)
  | .ok _, x => x
  | x, _ => x

/-! ## Input data -/

/-- The three input values (cal/gmol), `none` for NaN; `cs` is the sum over the elements
(PDSS_HKFT.cpp:577-588) in J/kmol. -/
structure Input where
  H : Option ℝ
  G : Option ℝ
  S : Option ℝ

/-- PDSS_HKFT.cpp:589-591. -/
noncomputable def convertDG (κ cs : ℝ) (x : Input) : Option ℝ := x.G.map (κ * · + cs)

/-- `a + b` of doubles which may be NaN. -/
noncomputable def op2 (o : ℝ → ℝ → ℝ) : Option ℝ → Option ℝ → Option ℝ
  | some a, some b => some (o a b)
  | _, _ => none

/-- PDSS_HKFT.cpp:238-255. -/
noncomputable def complete (κ cs : ℝ) (x : Input) : Input :=
  match x.H, x.G, x.S with
  | none, _, _ =>
    { x with H := op2 (fun m s => (m + 29815 / 100 * (κ * s)) / κ) (convertDG κ cs x) x.S }
  | some _, none, _ =>
    let mu := op2 (fun h s => κ * h - 29815 / 100 * (κ * s)) x.H x.S
    let x1 := { x with G := mu.map (· / κ) }
    let tot := op2 (· - ·) (convertDG κ cs x1) mu
    { x1 with G := (op2 (· - ·) mu tot).map (· / κ) }
  | some _, some _, none =>
    { x with S := op2 (fun h m => (κ * h - m) / (29815 / 100) / κ) x.H (convertDG κ cs x) }
  | some _, some _, some _ => x

/-- PDSS_HKFT.cpp:238-294 without the water, with `s_InputInconsistencyErrorExit` = 1: the values
kept and `m_Mu0_tr_pr`.  A comparison with NaN is false. -/
noncomputable def init (κ cs : ℝ) (x : Input) : Outcome (Input × Option ℝ) :=
  let y := complete κ cs x
  let mu := convertDG κ cs y
  match op2 (fun m s => m + 29815 / 100 * (κ * s)) mu y.S, y.H with
  | some hc, some h => if κ * 100 < |hc - κ * h| then .throw else .ok (y, mu)
  | _, _ => .ok (y, mu)

/-! ## WaterProps -/
namespace WP

/-- WaterProps.cpp:98-106. -/
noncomputable def U1 : ℝ := 34279 / 100
noncomputable def U2 : ℝ := -50866 / 10000000
noncomputable def U3 : ℝ := 94690 / 10 ^ 11
noncomputable def U4 : ℝ := -20525 / 10000
noncomputable def U5 : ℝ := 31159 / 10
noncomputable def U6 : ℝ := -18289 / 100
noncomputable def U7 : ℝ := -80325 / 10
noncomputable def U8 : ℝ := 4214200
noncomputable def U9 : ℝ := 21417 / 10000

/-- WaterProps.cpp:107-115. -/
noncomputable def eps1000 (T : ℝ) : ℝ := U1 * Real.exp (U2 * T + U3 * (T * T))
noncomputable def C (T : ℝ) : ℝ := U4 + U5 / (U6 + T)
noncomputable def B (T : ℝ) : ℝ := U7 + U8 / T + U9 * T
noncomputable def ltmp (T p : ℝ) : ℝ :=
  Real.log ((B T + p * (1 / 100000)) / (B T + 1000))

/-- WaterProps.cpp:119-123. -/
noncomputable def dC (T : ℝ) : ℝ := -U5 / ((U6 + T) * (U6 + T))
noncomputable def dB (T : ℝ) : ℝ := -U8 / (T * T) + U9
noncomputable def deps1000 (T : ℝ) : ℝ := eps1000 T * (U2 + 2 * U3 * T)
noncomputable def dltmp (T p : ℝ) : ℝ :=
  dB T / (B T + p * (1 / 100000)) - dB T / (B T + 1000)

/-- WaterProps.cpp:96-145. -/
noncomputable def relEpsilon (T p : ℝ) (i : ℕ) : ℝ :=
  if i = 1 then deps1000 T + dC T * ltmp T p + C T * dltmp T p
  else if i = 2 then
    let d2C := -2 * dC T / (U6 + T)
    let d2B := 2 * U8 / (T * T * T)
    let bp := B T + p * (1 / 100000)
    let b1 := B T + 1000
    let d2l := d2B * (1 / bp - 1 / b1) + dB T * dB T * (1 / (b1 * b1) - 1 / (bp * bp))
    let d2e := deps1000 T * (U2 + 2 * U3 * T) + eps1000 T * (2 * U3)
    d2e + d2C * ltmp T p + 2 * dC T * dltmp T p + C T * d2l
  else if i = 3 then C T * (1 / 100000 / (B T + p * (1 / 100000)))
  else eps1000 T + C T * ltmp T p

/-- Constants, the dielectric constant, density and expansion coefficient of liquid water as
functions of temperature and pressure, and the vapor pressure. -/
structure Env where
  ε0 : ℝ
  NA : ℝ
  q : ℝ
  R : ℝ
  π : ℝ
  e : ℝ → ℝ → ℕ → ℝ
  dw : ℝ → ℝ → ℝ
  cte : ℝ → ℝ → ℝ
  kappa : ℝ → ℝ → ℝ
  psat : ℝ → ℝ

/-- WaterProps.cpp:149-155. -/
noncomputable def pres (V : Env) (T p : ℝ) : ℝ := if p < V.psat T then V.psat T else p

/-- WaterProps.cpp:156-163, at the pressure used. -/
noncomputable def A0 (V : Env) (T p : ℝ) : ℝ :=
  let t := Real.sqrt (2 * V.NA * V.dw T p / 1000)
  let t2 := V.q * V.q * V.NA / (V.ε0 * V.e T p 0 * V.R * T)
  t * (t2 * Real.sqrt t2) / (8 * V.π)

/-- WaterProps.cpp:168-176. -/
noncomputable def A1 (V : Env) (T p : ℝ) : ℝ :=
  -(3 / 2) * A0 V T p / T - A0 V T p * (3 / 2 * V.e T p 1 / V.e T p 0)
    + -(A0 V T p) * (1 / 2 * V.cte T p)

/-- WaterProps.cpp:186-196. -/
noncomputable def A2 (V : Env) (T p : ℝ) : ℝ :=
  let Tdel := T + -(1 / 10)
  let dcte := (V.cte Tdel p - V.cte T p) / Tdel
  3 / 2 / T * (A0 V T p / T - A1 V T p)
    + 3 / 2 * (-(A1 V T p) * V.e T p 1 / V.e T p 0 - A0 V T p / V.e T p 0
      * (V.e T p 2 - V.e T p 1 * V.e T p 1 / V.e T p 0))
    + 1 / 2 * (-(A1 V T p * V.cte T p) - A0 V T p * dcte)

/-- WaterProps.cpp:209-216. -/
noncomputable def A3 (V : Env) (T p : ℝ) : ℝ :=
  0 - A0 V T p * (3 / 2 * V.e T p 3 / V.e T p 0) + A0 V T p * (1 / 2 * V.kappa T p)

/-- WaterProps.cpp:147-218. -/
noncomputable def ADebye (V : Env) (T p : ℝ) (i : ℕ) : ℝ :=
  let P := pres V T p
  if i = 1 then A1 V T P else if i = 2 then A2 V T P else if i = 3 then A3 V T P else A0 V T P

/-- WaterProps.cpp:50-60, 76-93 where `Tc` is the value of the static variable. -/
noncomputable def rhoAt (Tc : ℝ) : ℝ :=
  1000 * (1 - (Tc + 2889414 / 10000) * ((Tc + -39863 / 10000) * (Tc + -39863 / 10000))
    / (5089292 / 10 * (Tc + 6812963 / 100000)))

noncomputable def drhoAt (Tc : ℝ) : ℝ :=
  let t1 := Tc + 2889414 / 10000
  let t4 := Tc + -39863 / 10000
  let t3 := Tc + 6812963 / 100000
  1000 / (5089292 / 10) * (-t4 * t4 / t3 - t1 * 2 * t4 / t3 + t1 * (t4 * t4) / (t3 * t3))

noncomputable def d2rhoAt (Tc : ℝ) : ℝ :=
  let t1 := Tc + 2889414 / 10000
  let t4 := Tc + -39863 / 10000
  let t3 := Tc + 6812963 / 100000
  1000 / (5089292 / 10) * ((-4 * t4 - 2 * t1) / t3 + (2 * (t4 * t4) + 4 * t1 * t4) / (t3 * t3)
    - 2 * t1 * (t4 * t4) / (t3 * t3 * t3))

/-- WaterProps.cpp:48-94.  `st` is the static `Tc`, none before the first call; it is initialized
by the first call only. -/
noncomputable def densityT (R : ℝ) (st : Option ℝ) (T P : ℝ) (i : ℕ) : ℝ × Option ℝ :=
  let Tc := st.getD (T - 27315 / 100)
  let rhomin := P / (R * T)
  if rhoAt Tc < rhomin then
    (if i = 1 then -rhomin / T else if i = 3 then rhomin / P
      else if i = 2 then 2 * rhomin / (T * T) else rhomin, some Tc)
  else
    (if i = 1 then drhoAt Tc else if i = 3 then 0 else if i = 2 then d2rhoAt Tc else rhoAt Tc,
      some Tc)

end WP

end Verif.Hkft
