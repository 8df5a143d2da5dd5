import Mathlib.Analysis.SpecialFunctions.Log.Basic
import Mathlib.Analysis.SpecialFunctions.Exp
import Mathlib.Algebra.BigOperators.Field

/-!
# Ideal solutions of species with pressure dependent standard states (claim C101)

Model of src/thermo/IdealSolnGasVPSS.cpp and of the state setters of src/thermo/VPStandardStateTP.cpp.  The standard
state values of the species at the temperature and pressure of the phase are arguments (their cache is modelled in
`Thermo/Pdss.lean`).  Mole fractions are normalised; a division of zero by zero is `none`.
-/

namespace Verif.VpssIdeal

open Finset

/-- GasConstant (ct_defs.h:120) -/
noncomputable def Rg : ℝ := 8314.46261815324

/-- SmallNumber (ct_defs.h:158) -/
noncomputable def small : ℝ := 1 / 10 ^ 300

variable {n : ℕ}

/-- meanMolecularWeight -/
noncomputable def mmw (M X : Fin n → ℝ) : ℝ := ∑ k, X k * M k

/-- mean_X (Phase.cpp) of normalised mole fractions -/
noncomputable def meanX (X f : Fin n → ℝ) : ℝ := ∑ k, X k * f k

/-- sum_xlogx (Phase.cpp:626-633), `m_ym[k]` is `X k / m_mmw` -/
noncomputable def sumXlogX (M X : Fin n → ℝ) : ℝ :=
  mmw M X * (∑ k, X k / mmw M X * Real.log (max (X k / mmw M X) small)) + Real.log (mmw M X)

/-- enthalpy_mole (IdealSolnGasVPSS.cpp:43-47) -/
noncomputable def enthalpy (T : ℝ) (X h : Fin n → ℝ) : ℝ := Rg * T * meanX X h
/-- entropy_mole (IdealSolnGasVPSS.cpp:49-53) -/
noncomputable def entropy (M X s : Fin n → ℝ) : ℝ := Rg * (meanX X s - sumXlogX M X)
/-- cp_mole (IdealSolnGasVPSS.cpp:55-59) -/
noncomputable def cp (X c : Fin n → ℝ) : ℝ := Rg * meanX X c
/-- cv_mole (IdealSolnGasVPSS.cpp:61-64) -/
noncomputable def cv (X c : Fin n → ℝ) : ℝ := cp X c - Rg

/-- getChemPotentials (IdealSolnGasVPSS.cpp:136-143); m_gss_RT is `h - s` (VPStandardStateTP.cpp:278) -/
noncomputable def chemPot (T : ℝ) (X h s : Fin n → ℝ) (k : Fin n) : ℝ :=
  (h k - s k) * (Rg * T) + Rg * T * Real.log (max small (X k))
/-- getPartialMolarEnthalpies (IdealSolnGasVPSS.cpp:145-149) -/
noncomputable def hbar (T : ℝ) (h : Fin n → ℝ) (k : Fin n) : ℝ := Rg * T * h k
/-- getPartialMolarEntropies (IdealSolnGasVPSS.cpp:151-159) -/
noncomputable def sbar (X s : Fin n → ℝ) (k : Fin n) : ℝ := Rg * s k + Rg * (-Real.log (max small (X k)))
/-- getPartialMolarIntEnergies (IdealSolnGasVPSS.cpp:161-165) with VPStandardStateTP.cpp:71-78 -/
noncomputable def ubar (T P : ℝ) (h V : Fin n → ℝ) (k : Fin n) : ℝ := Rg * T * (h k - P / (Rg * T) * V k)

/-- getActivityConcentrations (IdealSolnGasVPSS.cpp:89-110); another form number writes nothing -/
noncomputable def actConc (form : ℕ) (X V : Fin (n + 1) → ℝ) (old : Fin (n + 1) → ℝ) (k : Fin (n + 1)) : ℝ :=
  match form with
  | 0 => X k
  | 1 => X k / V k
  | 2 => X k / V 0
  | _ => old k

/-- standardConcentration (IdealSolnGasVPSS.cpp:112-124) -/
noncomputable def stdConc (form : ℕ) (V : Fin (n + 1) → ℝ) (k : Fin (n + 1)) : ℝ :=
  match form with
  | 0 => 1
  | 1 => 1 / V k
  | 2 => 1 / V 0
  | _ => 0

/-- standardConcentrationUnits (IdealSolnGasVPSS.cpp:80-87): powers of length and quantity -/
def stdConcUnits (form : ℕ) : ℤ × ℤ := if form ≠ 0 then (-3, 1) else (0, 0)

/-- setStandardConcentrationModel (IdealSolnGasVPSS.cpp:26-40) for the comparison `eqi` of strings -/
def setModel (eqi : String → String → Bool) (m : String) : Option ℕ :=
  if eqi m "unity" then some 0
  else if eqi m "species-molar-volume" || eqi m "molar_volume" then some 1
  else if eqi m "solvent-molar-volume" || eqi m "solvent_volume" then some 2
  else none

/-- getParameters (IdealSolnGasVPSS.cpp:223-232) -/
def getModel (form : ℕ) : Option String :=
  if form = 1 then some "species-molar-volume" else if form = 2 then some "solvent-molar-volume" else none

/-- initThermo (IdealSolnGasVPSS.cpp:215-221) with default form 0 -/
def initModel (eqi : String → String → Bool) (key : Option String) : Option ℕ :=
  match key with
  | some m => setModel eqi m
  | none => some 0

/-! ## State -/

/-- Stored state: temperature, m_Pcurrent, mole fractions, density -/
structure St (n : ℕ) where
  T : ℝ
  P : ℝ
  X : Fin n → ℝ
  dens : ℝ

variable (M : Fin n → ℝ) (V : Fin n → ℝ → ℝ → ℝ)

/-- calcDensity (IdealSolnGasVPSS.cpp:73-78) with assignDensity (Phase.cpp:597-605) -/
noncomputable def calcDensity (s : St n) : St n × Option Unit :=
  let d := mmw M s.X / meanX s.X (fun k => V k s.T s.P)
  if 0 < d then ({ s with dens := d }, some ()) else (s, none)

/-- setPressure (IdealSolnGasVPSS.cpp:66-71) -/
noncomputable def setPressure (p : ℝ) (s : St n) : St n × Option Unit := calcDensity M V { s with P := p }

/-- VPStandardStateTP::setState_TP (VPStandardStateTP.cpp:207-225), Phase::setTemperature (Phase.h:624-631) -/
noncomputable def setTP (t p : ℝ) (s : St n) : St n × Option Unit :=
  if 0 < t then calcDensity M V { s with T := t, P := p } else (s, none)

/-- VPStandardStateTP::setTemperature (VPStandardStateTP.cpp:188-192) -/
noncomputable def setT (t : ℝ) (s : St n) : St n × Option Unit := setTP M V t s.P s

/-- Phase::setMoleFractions of normalised fractions (Phase.cpp:289-319): no density is computed, as
compositionChanged is not overridden. -/
def setX (x : Fin n → ℝ) (s : St n) : St n := { s with X := x }

/-- Partial pressures of setToEquilState (IdealSolnGasVPSS.cpp:187-200) -/
noncomputable def partialP (p0 : ℝ) (g0 mu : Fin n → ℝ) (k : Fin n) : ℝ :=
  let tmp := -g0 k + mu k
  if tmp < -600 then 0
  else if 500 < tmp then p0 * Real.exp 500 * ((tmp / 500) * (tmp / 500))
  else p0 * Real.exp tmp

/-- setToEquilState (IdealSolnGasVPSS.cpp:177-205).  If all partial pressures are zero mole fractions and density
are not numbers, which assignDensity refuses. -/
noncomputable def setToEquil (p0 : ℝ) (g0 mu : Fin n → ℝ) (s : St n) : Option (St n × Option Unit) :=
  let pp := partialP p0 g0 mu
  let norm := ∑ k, pp k
  if norm = 0 then none else some (setPressure M V norm (setX (fun k => pp k / norm) s))

/-- Reference pressure after installing one species (MultiSpeciesThermo.cpp:31-39) -/
noncomputable def installP0 (p0 pref : ℝ) : Option ℝ :=
  if p0 = 0 then some pref else if 1e-6 < |p0 - pref| then none else some p0

/-- refPressure of a phase with `m` species: every one installs a default object, with m_Pref = 0
(VPStandardStateTP.cpp:174, SpeciesThermoInterpType.h:288, MultiSpeciesThermo.h:218) -/
noncomputable def refPressure : ℕ → Option ℝ
  | 0 => some 0
  | m + 1 => (refPressure m).bind fun p => installP0 p 0

end Verif.VpssIdeal
