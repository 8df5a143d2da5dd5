import Verif.Basic
import Verif.Thermo.IapwsPhi

/-!
# Dimensional water properties

Model of `src/thermo/WaterPropsIAPWS.cpp`.  The thermodynamic functions are written as functions
of temperature and density: the state after `setState_TD(T, rho)`, in which the arguments stored
in `m_phi` agree with `tau` and `delta`.
-/

namespace Verif.Iapws

/-- `T_c`, `WaterPropsIAPWS.cpp:21`. -/
noncomputable def Tc : ℝ := 647.096
/-- `P_c`, `WaterPropsIAPWS.cpp:23`. -/
noncomputable def Pc : ℝ := 22.064e6
/-- `Rho_c`, `WaterPropsIAPWS.cpp:25`. -/
noncomputable def Rhoc : ℝ := 322
/-- `R_water`, `WaterPropsIAPWS.cpp:27`. -/
noncomputable def Rw : ℝ := 461.51805

/-- The phase constants, `WaterPropsIAPWS.h:30-34`; `other` is any other integer and `unset` is
`-1`. -/
inductive Ph where
  | gas | liquid | supercrit | unstableLiquid | unstableGas | unset | other
  deriving DecidableEq

/-- `tau`, `delta`, `iState`. -/
structure W where
  tau : ℝ
  delta : ℝ
  st : Ph

/-- `calcDim`, `WaterPropsIAPWS.cpp:29-44` (and `setState_TD`, lines 548-552). -/
noncomputable def setTD (T ρ : ℝ) : W where
  tau := Tc / T
  delta := ρ / Rhoc
  st := if T > Tc then .supercrit else if ρ / Rhoc < 1 then .gas else .liquid

/-- `density()` and `temperature()`, `WaterPropsIAPWS.cpp:167-175`. -/
noncomputable def densityOf (w : W) : ℝ := w.delta * Rhoc
noncomputable def temperatureOf (w : W) : ℝ := Tc / w.tau

/-! ## Thermodynamic functions -/

/-- `pressureM_rhoRT`, `WaterPropsIAPWSphi.cpp:520-525`. -/
noncomputable def pressureM (K : Coef) (τ δ : ℝ) : Option ℝ :=
  (phiR_d K τ δ).map fun r => 1 + δ * r

/-- `pressure`, `WaterPropsIAPWS.cpp:46-52`. -/
noncomputable def pressure (K : Coef) (T ρ : ℝ) : Option ℝ :=
  let w := setTD T ρ
  (pressureM K w.tau w.delta).map fun x => x * (w.delta * Rhoc) * Rw * (Tc / w.tau)

/-- `dimdpdrho`, `WaterPropsIAPWSphi.cpp:624-630`. -/
noncomputable def dimdpdrho (K : Coef) (τ δ : ℝ) : Option ℝ :=
  match phiR_d K τ δ, phiR_dd K τ δ with
  | some r1, some r2 => some (1 + δ * (2 * r1 + δ * r2))
  | _, _ => none

/-- `dimdpdT`, `WaterPropsIAPWSphi.cpp:632-638`; also `coeffPresExp`,
`WaterPropsIAPWS.cpp:229-232`. -/
noncomputable def dimdpdT (K : Coef) (τ δ : ℝ) : Option ℝ :=
  match phiR_d K τ δ, phiR_dt K τ δ with
  | some r1, some r2 => some (1 + δ * r1 - τ * δ * r2)
  | _, _ => none

/-- `dpdrho`, `WaterPropsIAPWS.cpp:222-227`. -/
noncomputable def dpdrho (K : Coef) (T ρ : ℝ) : Option ℝ :=
  let w := setTD T ρ
  (dimdpdrho K w.tau w.delta).map fun x => x * Rw * (Tc / w.tau)

/-- `coeffPresExp`, `WaterPropsIAPWS.cpp:229-232`. -/
noncomputable def coeffPresExp (K : Coef) (T ρ : ℝ) : Option ℝ :=
  let w := setTD T ρ
  dimdpdT K w.tau w.delta

/-- `isothermalCompressibility`, `WaterPropsIAPWS.cpp:215-220`. -/
noncomputable def isoComp (K : Coef) (T ρ : ℝ) : Option ℝ :=
  let w := setTD T ρ
  (dpdrho K T ρ).map fun d => 1 / (w.delta * Rhoc * d)

/-- `coeffThermExp`, `WaterPropsIAPWS.cpp:234-240`. -/
noncomputable def coeffThermExp (K : Coef) (T ρ : ℝ) : Option ℝ :=
  let w := setTD T ρ
  match isoComp K T ρ, coeffPresExp K T ρ with
  | some kappa, some beta => some (kappa * (w.delta * Rhoc) * Rw * beta)
  | _, _ => none

/-- `gibbs_RT`, `WaterPropsIAPWSphi.cpp:939-944`. -/
noncomputable def gibbsRT (K : Coef) (τ δ : ℝ) : Option ℝ :=
  (phiR_d K τ δ).map fun rd => 1 + phi0 K τ δ + phiR K τ δ + δ * rd

/-- `enthalpy_RT`, `WaterPropsIAPWSphi.cpp:946-954`. -/
noncomputable def enthalpyRT (K : Coef) (τ δ : ℝ) : Option ℝ :=
  match phiR_d K τ δ, phiR_t K τ δ with
  | some rd, some rt => some (1 + τ * (phi0_t K τ + rt) + δ * rd)
  | _, _ => none

/-- `entropy_R`, `WaterPropsIAPWSphi.cpp:956-964`. -/
noncomputable def entropyR (K : Coef) (τ δ : ℝ) : Option ℝ :=
  (phiR_t K τ δ).map fun rt => τ * (phi0_t K τ + rt) - phi0 K τ δ - phiR K τ δ

/-- `intEnergy_RT`, `WaterPropsIAPWSphi.cpp:966-972`. -/
noncomputable def intEnergyRT (K : Coef) (τ δ : ℝ) : Option ℝ :=
  (phiR_t K τ δ).map fun rt => τ * (phi0_t K τ + rt)

/-- `cv_R`, `WaterPropsIAPWSphi.cpp:974-980`. -/
noncomputable def cvR (K : Coef) (τ δ : ℝ) : Option ℝ :=
  (phiR_tt K τ δ).map fun rtt => -τ * τ * (phi0_tt K τ + rtt)

/-- `cp_R`, `WaterPropsIAPWSphi.cpp:982-994`. -/
noncomputable def cpR (K : Coef) (τ δ : ℝ) : Option ℝ :=
  match cvR K τ δ, phiR_d K τ δ, phiR_dd K τ δ, phiR_dt K τ δ with
  | some cv, some rd, some rdd, some rdt =>
    some (cv + (1 + δ * rd - δ * τ * rdt) * (1 + δ * rd - δ * τ * rdt)
      / (1 + 2 * δ * rd + δ * δ * rdd))
  | _, _, _, _ => none

/-- `gibbs_mass`, `WaterPropsIAPWS.cpp:554-557`. -/
noncomputable def gibbsMass (K : Coef) (T ρ : ℝ) : Option ℝ :=
  let w := setTD T ρ
  (gibbsRT K w.tau w.delta).map fun x => x * Rw * Tc / w.tau

/-- `enthalpy_mass`, `WaterPropsIAPWS.cpp:559-562`. -/
noncomputable def enthalpyMass (K : Coef) (T ρ : ℝ) : Option ℝ :=
  let w := setTD T ρ
  (enthalpyRT K w.tau w.delta).map fun x => x * Rw * Tc / w.tau

/-- `intEnergy_mass`, `WaterPropsIAPWS.cpp:564-567`. -/
noncomputable def intEnergyMass (K : Coef) (T ρ : ℝ) : Option ℝ :=
  let w := setTD T ρ
  (intEnergyRT K w.tau w.delta).map fun x => x * Rw * Tc / w.tau

/-- `entropy_mass`, `WaterPropsIAPWS.cpp:569-572`. -/
noncomputable def entropyMass (K : Coef) (T ρ : ℝ) : Option ℝ :=
  let w := setTD T ρ
  (entropyR K w.tau w.delta).map fun x => x * Rw

/-- `cv_mass`, `WaterPropsIAPWS.cpp:574-577`. -/
noncomputable def cvMass (K : Coef) (T ρ : ℝ) : Option ℝ :=
  let w := setTD T ρ
  (cvR K w.tau w.delta).map fun x => x * Rw

/-- `cp_mass`, `WaterPropsIAPWS.cpp:579-582`. -/
noncomputable def cpMass (K : Coef) (T ρ : ℝ) : Option ℝ :=
  let w := setTD T ρ
  (cpR K w.tau w.delta).map fun x => x * Rw

/-! ## Density at given temperature and pressure -/

/-- The initial guess, `WaterPropsIAPWS.cpp:64-88` (and lines 119-143): `none` = exception. -/
noncomputable def guessRho (T p : ℝ) (ph : Ph) (rhoguess : ℝ) : Option ℝ :=
  if rhoguess = -1 then
    if ph ≠ .unset then
      if T > Tc then some (p / (Rw * T))
      else match ph with
        | .gas | .supercrit => some (p / (Rw * T))
        | .liquid => some 1000
        | _ => none
    else some (p / (Rw * T))
  else some rhoguess

/-- `density(T, p, phase, rhoguess)`, `WaterPropsIAPWS.cpp:54-112`: the state after the call and
the returned value. -/
noncomputable def density (K : Coef) (T p : ℝ) (ph : Ph) (rhoguess : ℝ) : Outcome (W × ℝ) :=
  if |p - Pc| / Pc < 1e-8 ∧ |T - Tc| / Tc < 1e-8 then .ok (setTD T Rhoc, Rhoc)
  else match guessRho T p ph rhoguess with
    | none => .throw
    | some g =>
      let pred := p / (Rw * T * Rhoc)
      let w := setTD T g
      let d1 := dfind K pred w.tau (g / Rhoc)
      let d := if d1 ≤ 0 then dfind K pred w.tau (0.9 * (g / Rhoc)) else d1
      if d > 0 then .ok (setTD T (d * Rhoc), d * Rhoc) else .ok (w, -1)

/-- `density_const`, `WaterPropsIAPWS.cpp:114-165`; `delta` is restored at the end. -/
noncomputable def densityConst (K : Coef) (w : W) (p : ℝ) (ph : Ph) (rhoguess : ℝ) :
    Outcome (W × ℝ) :=
  match guessRho (Tc / w.tau) p ph rhoguess with
  | none => .throw
  | some g =>
    let pred := p / (Rw * (Tc / w.tau) * Rhoc)
    let d := dfind K pred w.tau (g / Rhoc)
    .ok (w, if d > 0 then d * Rhoc else -1)

/-! ## Saturation pressure -/

/-- What `psat` uses of the object: the density solver for each phase with a guess, and the Gibbs
function at a density (both at the given temperature). -/
structure SatOracle where
  dens : ℝ → Ph → ℝ → ℝ
  gRT : ℝ → ℝ

/-- `corr`, `WaterPropsIAPWS.cpp:242-264`: (liquid density, gas density, difference). -/
noncomputable def corr (O : SatOracle) (p dl dg : ℝ) : Option (ℝ × ℝ × ℝ) :=
  if O.dens p .liquid dl ≤ 0 then none
  else if O.dens p .gas dg ≤ 0 then none
  else some (O.dens p .liquid dl, O.dens p .gas dg,
    O.gRT (O.dens p .liquid dl) - O.gRT (O.dens p .gas dg))

/-- The loop of `psat`, `WaterPropsIAPWS.cpp:302-320` (`method` is always 1): final pressure and
densities. -/
noncomputable def psatLoop (O : SatOracle) (T : ℝ) : ℕ → ℝ → ℝ → ℝ → Option (ℝ × ℝ × ℝ)
  | 0, p, dl, dg => some (p, dl, dg)
  | fuel + 1, p, dl, dg =>
    match corr O p dl dg with
    | none => none
    | some (dl', dg', delG) =>
      let dp := -delG * Rw * T / (1 / dl' - 1 / dg')
      let p' := p + dp
      if delG < 1e-8 then some (p', dl', dg')
      else if |dp / p'| < 1e-9 then some (p', dl', dg')
      else psatLoop O T fuel p' dl' dg'

/-- `psat`, `WaterPropsIAPWS.cpp:291-331`, with `est` the value of `psat_est(T)`. -/
noncomputable def psat (O : SatOracle) (est T : ℝ) (ws : Ph) : Outcome (W × ℝ) :=
  if T ≥ Tc then .ok (setTD T (O.dens Pc .supercrit (-1)), Pc)
  else match psatLoop O T 30 est (-1) (-1) with
    | none => .throw
    | some (p, dl, dg) =>
      if ws = .liquid then .ok (setTD T dl, p)
      else if ws = .gas then .ok (setTD T dg, p)
      else .throw

/-! ## Phase identification -/

/-- `rhoMid`, `WaterPropsIAPWS.cpp:341-342`. -/
noncomputable def rhoMid (T : ℝ) : ℝ :=
  Rhoc + (T - Tc) * (Rhoc - 0.5 * (101325 / (Rw * 373.15) + 1e3)) / (Tc - 373.15)

/-- `phaseState(true)`, `WaterPropsIAPWS.cpp:333-371`, as a function of the state. -/
noncomputable def phaseState (K : Coef) (w : W) : Ph :=
  if w.tau ≤ 1 then .supercrit
  else
    let T := Tc / w.tau
    let ρ := w.delta * Rhoc
    match isoComp K T ρ with
    | some kappa =>
      if kappa ≥ 0 then (if ρ < rhoMid T then .gas else .liquid)
      else match isoComp K T (ρ * 1.000001) with
        | some kappaDel =>
          if (ρ * 1.000001 * kappaDel - ρ * kappa) / (ρ * 1.000001 - ρ) > 0
          then .unstableLiquid else .unstableGas
        | none => .unstableGas
    | none => .unstableGas

/-! ## Spinodal densities -/

/-- Variables of the loops of `densSpinodalWater` / `densSpinodalSteam`. -/
structure Spin where
  old : ℝ
  new : ℝ
  fold : ℝ
  fnew : ℝ
  low : ℝ
  high : ℝ

/-- Slope used by the liquid branch, `WaterPropsIAPWS.cpp:408-414`. -/
noncomputable def slopeW (s : Spin) : ℝ :=
  let sl := (s.fnew - s.fold) / (s.new - s.old)
  if sl ≥ 0 then max sl (s.fnew * 5 / s.new) else -s.fnew

/-- Slope used by the vapour branch, `WaterPropsIAPWS.cpp:495-502`. -/
noncomputable def slopeS (s : Spin) : ℝ :=
  let sl := (s.fnew - s.fold) / (s.new - s.old)
  if sl ≥ 0 then s.fnew else min sl (s.fnew * 5 / s.new)

/-- New estimate, `WaterPropsIAPWS.cpp:415-427` and `503-515`. -/
noncomputable def estimate (slope : ℝ) (s : Spin) : ℝ :=
  let d0 := -s.fnew / slope
  let d := if d0 > 0 then min d0 (s.new * 0.1) else max d0 (-s.new * 0.1)
  let e0 := s.new + d
  let e1 := if e0 < s.low then 0.5 * (s.low + s.new) else e0
  if e1 > s.high then 0.5 * (s.high + s.new) else e1

/-- One pass of the liquid loop with `f = dpdrho`, `WaterPropsIAPWS.cpp:407-449`: the new variables
and whether the loop ends. -/
noncomputable def passW (f : ℝ → ℝ) (s : Spin) : Spin × Bool :=
  let e := estimate (slopeW s) s
  let v := f e
  let s' : Spin := ⟨s.new, e, s.fnew, v, if v > 0 then s.low else if v < 0 then max s.low e else s.low,
    if v > 0 then min e s.high else s.high⟩
  (s', decide (v = 0 ∨ |v| < 1e-5))

/-- One pass of the vapour loop, `WaterPropsIAPWS.cpp:494-536`. -/
noncomputable def passS (f : ℝ → ℝ) (s : Spin) : Spin × Bool :=
  let e := estimate (slopeS s) s
  let v := f e
  let s' : Spin := ⟨s.new, e, s.fnew, v, if v < 0 then s.low else if v > 0 then max s.low e else s.low,
    if v < 0 then min e s.high else s.high⟩
  (s', decide (v = 0 ∨ |v| < 1e-5))

/-- The loop with either pass: (final variables, converged). -/
noncomputable def spinLoop (pass : Spin → Spin × Bool) : ℕ → Spin → Spin × Bool
  | 0, s => (s, false)
  | n + 1, s => if (pass s).2 then ((pass s).1, true) else spinLoop pass n (pass s).1

/-- Variables before the liquid loop, `WaterPropsIAPWS.cpp:384-404`. -/
noncomputable def startW (f : ℝ → ℝ) (sat : ℝ) : Spin :=
  let low0 := if f sat > 0 then 0 else max 0 sat
  let high0 := if f sat > 0 then min sat 1000 else 1000
  let n := sat * 1.0001
  ⟨sat, n, f sat, f n, if f n > 0 then low0 else max low0 n, if f n > 0 then min n high0 else high0⟩

/-- Variables before the vapour loop, `WaterPropsIAPWS.cpp:472-492`. -/
noncomputable def startS (f : ℝ → ℝ) (sat : ℝ) : Spin :=
  let low0 := if f sat < 0 then 0 else max 0 sat
  let high0 := if f sat < 0 then min sat 1000 else 1000
  let n := sat * 0.99
  ⟨sat, n, f sat, f n, if f n < 0 then low0 else max low0 n, if f n < 0 then min n high0 else high0⟩

/-- `densSpinodalWater`, `WaterPropsIAPWS.cpp:373-459`, given the saturated density; the stored
density after the call and the result (`none` = exception). -/
noncomputable def spinodalWater (f : ℝ → ℝ) (sat : ℝ) (w : W) : W × Option ℝ :=
  if Tc / w.tau ≥ Tc - 0.001 then (w, some Rhoc)
  else
    let r := spinLoop (passW f) 50 (startW f sat)
    if r.2 then (w, some r.1.new) else ({ w with delta := r.1.new / Rhoc }, none)

/-- `densSpinodalSteam`, `WaterPropsIAPWS.cpp:461-546`. -/
noncomputable def spinodalSteam (f : ℝ → ℝ) (sat : ℝ) (w : W) : W × Option ℝ :=
  if Tc / w.tau ≥ Tc - 0.001 then (w, some Rhoc)
  else
    let r := spinLoop (passS f) 50 (startS f sat)
    if r.2 then (w, some r.1.new) else ({ w with delta := r.1.new / Rhoc }, none)

end Verif.Iapws
