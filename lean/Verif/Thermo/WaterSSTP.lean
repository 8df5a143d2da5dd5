import Verif.Thermo.Iapws
import Mathlib.Tactic.Linarith
import Mathlib.Tactic.FieldSimp

/-!
# C100: the water phase (src/thermo/WaterSSTP.cpp)

The phase stores temperature and density, and so does its WaterPropsIAPWS object.  The root finder of the
density, the saturation solver and the thermodynamic functions of that object (claims C90 and C91) are
arguments.  Every method returns the new state; `none` is an exception.
-/

namespace Verif.WaterSSTP

open Verif Verif.Iapws

/-- Numerical results of WaterPropsIAPWS: `root T p guess` is the density found by density() (none for the
return value -1), `sat T` pressure and liquid density of psat below the critical temperature (none if it
throws, the density being `satFail T` then), and the functions of temperature and density. -/
structure Water where
  root : ℝ → ℝ → ℝ → Option ℝ
  sat : ℝ → Option (ℝ × ℝ)
  satFail : ℝ → ℝ
  P : ℝ → ℝ → ℝ
  h : ℝ → ℝ → ℝ
  u : ℝ → ℝ → ℝ
  s : ℝ → ℝ → ℝ
  g : ℝ → ℝ → ℝ
  cp : ℝ → ℝ → ℝ
  cv : ℝ → ℝ → ℝ
  alpha : ℝ → ℝ → ℝ

/-- Phase temperature and density (Phase.h), temperature and density of m_sub. -/
structure St where
  T : ℝ
  dens : ℝ
  sT : ℝ
  sD : ℝ

/-- Offsets and molar mass (WaterSSTP.h:200-215) -/
structure Off where
  mw : ℝ
  EW : ℝ
  SW : ℝ

/-- GasConstant, OneAtm (ct_defs.h) -/
noncomputable def Rg : ℝ := 8314.46261815324
noncomputable def oneAtm : ℝ := 101325

variable (w : Water)

/-- WaterPropsIAPWS::setState_TD (WaterPropsIAPWS.cpp:29-44) on the member of the phase -/
def setTD (T ρ : ℝ) (s : St) : St := { s with sT := T, sD := ρ }

/-- WaterPropsIAPWS::density (WaterPropsIAPWS.cpp:54-112) for a given guess; the phase argument is only
used to make a guess. -/
noncomputable def density (T p guess : ℝ) (s : St) : St × ℝ :=
  if |p - Pc| / Pc < 1e-8 ∧ |T - Tc| / Tc < 1e-8 then (setTD T Rhoc s, Rhoc)
  else match w.root T p guess with
    | some r => (setTD T r s, r)
    | none => (setTD T guess s, -1)

/-- WaterPropsIAPWS::psat (WaterPropsIAPWS.cpp:291-331) with the default state liquid; above the critical
temperature the guess is that of an ideal gas (67-70). -/
noncomputable def psat (T : ℝ) (s : St) : St × Option ℝ :=
  if Tc ≤ T then
    let r := density w T Pc (Pc / (Rw * T)) s
    (setTD T r.2 r.1, some Pc)
  else match w.sat T with
    | some q => (setTD T q.2 s, some q.1)
    | none => (setTD T (w.satFail T) s, none)

/-- WaterSSTP::setTemperature (WaterSSTP.cpp:309-318) -/
noncomputable def setTemperature (t : ℝ) (s : St) : St × Option Unit :=
  if t < 273.16 then (s, none) else (setTD t s.dens { s with T := t }, some ())

/-- WaterSSTP::setDensity (WaterSSTP.cpp:320-324) with Phase::setDensity (Phase.cpp:586-595) -/
noncomputable def setDensity (d : ℝ) (s : St) : St × Option Unit :=
  if 0 < d then (setTD s.T d { s with dens := d }, some ()) else (s, none)

/-- WaterSSTP::pressure (WaterSSTP.cpp:238-241) -/
def pressure (s : St) : ℝ := w.P s.sT s.sD

/-- WaterSSTP::setPressure (WaterSSTP.cpp:243-265); `gasOk` is m_allowGasPhase. -/
noncomputable def setPressure (gasOk : Bool) (p : ℝ) (s : St) : St × Option Unit :=
  match psat w s.T s with
  | (s1, none) => (s1, none)
  | (s1, some pp) =>
    if s.T < Tc ∧ p < pp ∧ gasOk = false then (s1, none)
    else
      let guess := if s.T < Tc ∧ pp ≤ p then 1000 else s.dens
      let r := density w s.T p guess s1
      if r.2 ≤ 0 then (r.1, none) else setDensity r.2 r.1

/-- WaterSSTP::satPressure (WaterSSTP.cpp:326-332) -/
noncomputable def satPressure (t : ℝ) (s : St) : St × Option ℝ :=
  match psat w t s with
  | (s1, none) => (s1, none)
  | (s1, some pp) => (setTD s.T s.dens s1, some pp)

/-- Common part of getEnthalpy_RT_ref, getGibbs_RT_ref, getEntropy_R_ref and getStandardVolumes_ref
(WaterSSTP.cpp:131-198, 220-236): `f` is evaluated at one atmosphere for temperature and density of m_sub.
The call of setState_TD in some of them sets the state density() has just set. -/
noncomputable def atRef (f : ℝ → ℝ → ℝ) (s : St) : St × Option ℝ :=
  let p := pressure w s
  let r := density w s.T oneAtm s.dens s
  if r.2 ≤ 0 then (r.1, none)
  else ((density w s.T p s.dens r.1).1, some (f r.1.sT r.1.sD))

/-- WaterSSTP::getCp_R_ref (WaterSSTP.cpp:200-218): the state is set before the test -/
noncomputable def cpRef (k : Off) (s : St) : St × Option ℝ :=
  let p := pressure w s
  let r := density w s.T oneAtm s.dens s
  let s1 := setTD s.T r.2 r.1
  if r.2 ≤ 0 then (s1, none)
  else ((density w s.T p s.dens s1).1, some (w.cp s1.sT s1.sD * k.mw / Rg))

/-- WaterSSTP::getEnthalpy_RT (WaterSSTP.cpp:88-91) -/
noncomputable def enthalpyRT (k : Off) (s : St) : ℝ := (w.h s.sT s.sD * k.mw + k.EW) / (Rg * s.T)
/-- WaterSSTP::getIntEnergy_RT (WaterSSTP.cpp:93-96) -/
noncomputable def intEnergyRT (k : Off) (s : St) : ℝ := (w.u s.sT s.sD * k.mw + k.EW) / (Rg * s.T)
/-- WaterSSTP::getEntropy_R (WaterSSTP.cpp:98-101) -/
noncomputable def entropyR (k : Off) (s : St) : ℝ := (w.s s.sT s.sD * k.mw + k.SW) / Rg
/-- WaterSSTP::getGibbs_RT (WaterSSTP.cpp:103-110) once ready -/
noncomputable def gibbsRT (k : Off) (s : St) : ℝ := (w.g s.sT s.sD * k.mw + k.EW) / (Rg * s.T) - k.SW / Rg
/-- WaterSSTP::getStandardChemPotentials (WaterSSTP.cpp:112-119) once ready -/
noncomputable def chemPot (k : Off) (s : St) : ℝ := w.g s.sT s.sD * k.mw + k.EW - k.SW * s.T
/-- WaterSSTP::getCp_R (WaterSSTP.cpp:121-124) -/
noncomputable def cpR (k : Off) (s : St) : ℝ := w.cp s.sT s.sD * k.mw / Rg
/-- WaterSSTP::cv_mole (WaterSSTP.cpp:126-129) -/
noncomputable def cvMole (k : Off) (s : St) : ℝ := w.cv s.sT s.sD * k.mw

/-- getEnthalpy_RT_ref (WaterSSTP.cpp:131-148) -/
noncomputable def enthalpyRTRef (k : Off) (s : St) : St × Option ℝ :=
  atRef w (fun T ρ => (w.h T ρ * k.mw + k.EW) / (Rg * s.T)) s
/-- getGibbs_RT_ref (WaterSSTP.cpp:150-168) -/
noncomputable def gibbsRTRef (k : Off) (s : St) : St × Option ℝ :=
  atRef w (fun T ρ => (w.g T ρ * k.mw + k.EW - k.SW * s.T) / (Rg * s.T)) s
/-- getEntropy_R_ref (WaterSSTP.cpp:178-198) -/
noncomputable def entropyRRef (k : Off) (s : St) : St × Option ℝ :=
  atRef w (fun T ρ => (w.s T ρ * k.mw + k.SW) / Rg) s
/-- getStandardVolumes_ref (WaterSSTP.cpp:220-236) -/
noncomputable def volumeRef (k : Off) (s : St) : St × Option ℝ := atRef w (fun _ ρ => k.mw / ρ) s

/-- WaterSSTP::dthermalExpansionCoeffdT (WaterSSTP.cpp:277-292) -/
noncomputable def dAlphadT (s : St) : St × Option ℝ :=
  let r := density w (s.T - 0.04) (pressure w s) s.dens s
  if r.2 < 0 then (r.1, none)
  else
    let s1 := setTD s.T s.dens r.1
    (s1, some ((w.alpha s1.sT s1.sD - w.alpha r.1.sT r.1.sD) / 0.04))

/-- WaterSSTP::vaporFraction (WaterSSTP.cpp:334-345) -/
noncomputable def vaporFraction (s : St) : ℝ :=
  if Tc ≤ s.T then if Rhoc ≤ s.dens then 0 else 1 else 0

/-- WaterSSTP::phaseOfMatter (WaterSSTP.cpp:21-26); phaseState() without check returns the state chosen by
the last setState_TD (WaterPropsIAPWS.cpp:34-43). -/
noncomputable def phaseOfMatter (s : St) : String :=
  let n := if Tc < s.sT then 2 else if s.sD / Rhoc < 1 then 0 else 1
  (["gas", "liquid", "supercritical", "unstable-liquid", "unstable-gas"] : List String)[n]?.getD ""

/-- WaterSSTP::initThermo (WaterSSTP.cpp:52-80) for molar mass `mw`: new state and offsets.
The entropy offset is cleared first, the enthalpy offset keeps its old value `ew0` (zero in a new object). -/
noncomputable def initThermo (mw ew0 : ℝ) (s : St) : St × Option Off :=
  let s0 : St := { s with T := 298.15, dens := 7e-8 }
  let r := density w 298.15 1e-2 7e-8 s0
  match setDensity r.2 r.1 with
  | (s1, none) => (s1, none)
  | (s1, some _) =>
    let s2 := (setTemperature 298.15 s1).1
    let sm := entropyR w { mw := mw, EW := 0, SW := 0 } s2 * Rg - Rg * Real.log (1e5 / 1e-2)
    let sw := if sm ≠ 188.835e3 then 188.835e3 - sm else 0
    let hm := enthalpyRT w { mw := mw, EW := ew0, SW := sw } s2 * (Rg * s2.T)
    let ew := if hm ≠ -241.826e6 then -241.826e6 - hm else ew0
    let s3 := (setTemperature 298.15 s2).1
    let q := density w 298.15 oneAtm 1000 s3
    match setDensity q.2 q.1 with
    | (s4, none) => (s4, none)
    | (s4, some _) => (s4, some { mw := mw, EW := ew, SW := sw })

end Verif.WaterSSTP
