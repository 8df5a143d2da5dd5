import Verif.Thermo.Tpx

/-!
# Phase made of one pure fluid

Model of `src/thermo/PureFluidPhase.cpp`.  The phase stores temperature and density itself (`Phase::m_temp`,
`Phase::m_dens`) and owns a `tpx::Substance` (`Thermo/Tpx.lean`) with a second copy.  Every function is a state
transformer that may throw; the state reached at the throw is part of the result.  Heat capacities, expansion and
compressibility (`Substance` finite differences), input and text output are not modelled.
-/

namespace Verif.PureFluid

open Verif

/-- `Phase::m_temp`, `Phase::m_dens` (`Phase.h:892-898`) and the substance `m_sub`. -/
structure PSt where
  T : ℝ
  dens : ℝ
  sub : Tpx.St

/-- Computations: new state, and the result unless an exception is thrown. -/
def PM (α : Type) := PSt → PSt × Option α

instance : Monad PM where
  pure a := fun s => (s, some a)
  bind x f := fun s => match x s with
    | (s', some a) => f a s'
    | (s', none) => (s', none)

def throwP {α : Type} : PM α := fun s => (s, none)
def getP : PM PSt := fun s => (s, some s)

/-- A call of the substance. -/
def onSub {α : Type} (m : Tpx.M α) : PM α := fun s =>
  match m s.sub with
  | (u, r) => ({ s with sub := u }, r)

variable (e : Tpx.Eos)

/-! ## Phase -/

/-- `Phase::setTemperature`, `Phase.h:624-631`. -/
noncomputable def phaseSetT (t : ℝ) : PM Unit := fun s =>
  if 0 < t then ({ s with T := t }, some ()) else (s, none)

/-- `Phase::setDensity`, `Phase.cpp:586-595` (the phase is compressible). -/
noncomputable def phaseSetDens (r : ℝ) : PM Unit := fun s =>
  if 0 < r then ({ s with dens := r }, some ()) else (s, none)

/-! ## Setting the state -/

/-- `m_sub->v()`, `Sub.h:89-91`. -/
noncomputable def subV : PM ℝ := onSub (Tpx.prop e .V)

/-- `setTemperature`, `PureFluidPhase.cpp:132-136`. -/
noncomputable def setTemperature (t : ℝ) : PM Unit := do
  phaseSetT t
  let v ← subV e
  onSub (Tpx.set e 12 t v)

/-- `setDensity`, lines 138-142. -/
noncomputable def setDensity (r : ℝ) : PM Unit := do
  phaseSetDens r
  let s ← getP
  onSub (Tpx.set e 12 s.sub.T (1 / r))

/-- `setPressure`, lines 126-130. -/
noncomputable def setPressure (p : ℝ) : PM Unit := do
  let s ← getP
  onSub (Tpx.set e 14 s.T p)
  let v ← subV e
  phaseSetDens (1 / v)

/-- `Phase::setState_TD`, `Phase.cpp:377-381` (both calls are virtual). -/
noncomputable def setStateTD (t r : ℝ) : PM Unit := do
  setTemperature e t
  setDensity e r

/-- `ThermoPhase::setState_TP`, `ThermoPhase.cpp:121-132`: after an exception the old temperature and density are
set and the exception is rethrown. -/
noncomputable def setStateTP (t p : ℝ) : PM Unit := fun s =>
  match (do
      setTemperature e t
      setPressure e p : PM Unit) s with
  | (s', some ()) => (s', some ())
  | (s', none) => ((setStateTD e s.T s.dens s').1, none)

/-- `setState_HP` and the others of lines 295-359, for the pair of number `xy`. -/
noncomputable def setStateXY (xy : ℤ) (x y : ℝ) : PM Unit := do
  onSub (Tpx.set e xy x y)
  let s ← getP
  let v ← subV e
  setStateTD e s.sub.T (1 / v)

/-- `setState_HP`, lines 295-299. -/
noncomputable def setStateHP := setStateXY e 34
/-- `setState_UV`, lines 301-305. -/
noncomputable def setStateUV := setStateXY e 62
/-- `setState_SV`, lines 307-311. -/
noncomputable def setStateSV := setStateXY e 52
/-- `setState_SP`, lines 313-317. -/
noncomputable def setStateSP := setStateXY e 54
/-- `setState_ST`, lines 319-323. -/
noncomputable def setStateST := setStateXY e 51
/-- `setState_TV`, lines 325-329. -/
noncomputable def setStateTV := setStateXY e 12
/-- `setState_PV`, lines 331-335. -/
noncomputable def setStatePV := setStateXY e 42
/-- `setState_UP`, lines 337-341. -/
noncomputable def setStateUP := setStateXY e 64
/-- `setState_VH`, lines 343-347. -/
noncomputable def setStateVH := setStateXY e 23
/-- `setState_TH`, lines 349-353. -/
noncomputable def setStateTH := setStateXY e 13
/-- `setState_SH`, lines 355-359. -/
noncomputable def setStateSH := setStateXY e 53

/-- `satPressure`, lines 361-365. -/
noncomputable def satPressure (t : ℝ) : PM ℝ := do
  let v ← subV e
  onSub (Tpx.set e 12 t v)
  onSub (Tpx.Ps e)

/-- `setState_Tsat`, lines 372-377. -/
noncomputable def setStateTsat (t x : ℝ) : PM Unit := do
  onSub (Tpx.set e 17 t x)
  phaseSetT t
  let v ← subV e
  phaseSetDens (1 / v)

/-- `setState_Psat`, lines 379-384. -/
noncomputable def setStatePsat (p x : ℝ) : PM Unit := do
  onSub (Tpx.set e 47 p x)
  let s ← getP
  phaseSetT s.sub.T
  let v ← subV e
  phaseSetDens (1 / v)

/-- `ThermoPhase::setState_TPQ`, `ThermoPhase.cpp:1025-1051`. -/
noncomputable def setStateTPQ (t p q : ℝ) : PM Unit := do
  if e.Tc < t then
    if e.Pc < p ∨ q = 1 then setStateTP e t p else throwP
  else
    let ps ← satPressure e t
    if |ps / p - 1| < 1e-6 then setStateTsat e t q
    else if (q = 0 ∧ ps ≤ p) ∨ (q = 1 ∧ p ≤ ps) then setStateTP e t p
    else throwP

/-! ## Properties -/

/-- `pressure`, lines 121-124. -/
noncomputable def pressure : PM ℝ := onSub (Tpx.P e)

/-- `enthalpy_mole`, lines 91-94. -/
noncomputable def enthalpyMole : PM ℝ := do
  let h ← onSub (Tpx.prop e .H)
  pure (h * e.mw)

/-- `intEnergy_mole`, lines 96-99. -/
noncomputable def intEnergyMole : PM ℝ := do
  let u ← onSub (Tpx.prop e .U)
  pure (u * e.mw)

/-- `entropy_mole`, lines 101-104. -/
noncomputable def entropyMole : PM ℝ := do
  let a ← onSub (Tpx.prop e .S)
  pure (a * e.mw)

/-- `gibbs_mole`, lines 106-109, with `Substance::g` (`Sub.h:113-115`). -/
noncomputable def gibbsMole : PM ℝ := do
  let h ← onSub (Tpx.prop e .H)
  let s ← getP
  let a ← onSub (Tpx.prop e .S)
  pure ((h - s.sub.T * a) * e.mw)

/-- `RT`, temperature of the phase times gas constant. -/
noncomputable def RT (s : PSt) : ℝ := Tpx.Rg * s.T

/-- `getEnthalpy_RT`, lines 214-217. -/
noncomputable def enthalpyRT : PM ℝ := do
  let h ← enthalpyMole e
  let s ← getP
  pure (h / RT s)

/-- `getEntropy_R`, lines 219-222. -/
noncomputable def entropyR : PM ℝ := do
  let a ← entropyMole e
  pure (a / Tpx.Rg)

/-- `getGibbs_RT`, lines 224-227. -/
noncomputable def gibbsRT : PM ℝ := do
  let g ← gibbsMole e
  let s ← getP
  pure (g / RT s)

/-- Frame of the functions of the reference state: `Set(TP, t, 1e-8)`, evaluation, `Set(TV, t, 1/rho)`,
lines 231-236, 242-249, 260-267. -/
noncomputable def atLow (m : PM ℝ) : PM ℝ := do
  let s ← getP
  onSub (Tpx.set e 14 s.T 1e-8)
  let a ← m
  onSub (Tpx.set e 12 s.T (1 / s.dens))
  pure a

/-- `getEnthalpy_RT_ref`, lines 229-238. -/
noncomputable def enthalpyRTRef : PM ℝ := atLow e (enthalpyRT e)

/-- `getGibbs_RT_ref`, lines 240-250. -/
noncomputable def gibbsRTRef (pref : ℝ) : PM ℝ := atLow e (do
  let g ← gibbsRT e
  pure (g + Real.log (pref / 1e-8)))

/-- `getEntropy_R_ref`, lines 258-268. -/
noncomputable def entropyRRef (pref : ℝ) : PM ℝ := atLow e (do
  let a ← entropyR e
  pure (a - Real.log (pref / 1e-8)))

/-- `getGibbs_ref`, lines 252-256. -/
noncomputable def gibbsRef (pref : ℝ) : PM ℝ := do
  let g ← gibbsRTRef e pref
  let s ← getP
  pure (g * RT s)

/-- `phaseOfMatter`, lines 68-79. -/
noncomputable def phaseOfMatter : PM String := do
  let s ← getP
  if e.Tc ≤ s.T then pure "supercritical"
  else
    let p ← pressure e
    if e.Pc ≤ p then pure "supercritical"
    else
      let b ← onSub (Tpx.twoPhase e false)
      if b then pure "liquid-gas-mix"
      else
        let p ← pressure e
        let ps ← onSub (Tpx.Ps e)
        if p < ps then pure "gas" else pure "liquid"

/-- The low pressure of the standard state, lines 32-40. -/
noncomputable def startPressure : PM ℝ :=
  if 298.15 < e.Tc then do
    onSub (Tpx.set e 17 298.15 1)
    let p ← onSub (Tpx.P e)
    pure (0.001 * (0.01 * p))
  else pure (0.001 * (0.001 * e.Pc))

/-- `initThermo`, lines 27-46, for a substance just made; `h0 = h0_RT` and `s0 = s0_R` are the values of the species
thermo at 298.15 K, `pref` is the reference pressure. -/
noncomputable def initThermo (h0 s0 pref : ℝ) : PM Unit := do
  let p ← startPressure e
  onSub (Tpx.set e 14 298.15 p)
  onSub (Tpx.setStdState e (h0 * Tpx.Rg * 298.15 / e.mw) ((s0 - Real.log (p / pref)) * Tpx.Rg / e.mw) 298.15 p)

/-- `fullStates` and `partialStates`, lines 57-66. -/
def fullStates : List String :=
  ["TD", "UV", "DP", "HP", "SP", "SV", "ST", "TV", "PV", "UP", "VH", "TH", "SH", "TPQ"]
def partialStates : List String := ["TP", "TQ", "PQ"]

end Verif.PureFluid
