import Mathlib.Analysis.SpecialFunctions.Log.Basic
import Mathlib.Analysis.SpecialFunctions.Exp
import Mathlib.Algebra.BigOperators.Group.Finset.Basic

/-!
# Ideal gas mixtures

Model of `IdealGasPhase` (`src/thermo/IdealGasPhase.cpp`, `include/cantera/thermo/IdealGasPhase.h`)
with the averages of `Phase` (`src/thermo/Phase.cpp`) and the defaults of `ThermoPhase`
(`include/cantera/thermo/ThermoPhase.h`).  The reference state properties of the species
(`MultiSpeciesThermo::update`, C25, C41) are functions of the temperature.
-/

namespace Verif.IdealGas

/-- Constants of the phase: number of species, molecular weights, reference enthalpy over `RT`,
entropy over `R` and heat capacity over `R` of the species, gas constant and reference pressure. -/
structure Mech where
  n : ℕ
  W : ℕ → ℝ
  h : ℕ → ℝ → ℝ
  s : ℕ → ℝ → ℝ
  cp : ℕ → ℝ → ℝ
  R : ℝ
  p0 : ℝ

/-- The state: temperature, density, mole fractions (Phase.cpp:289-330, C12). -/
structure St where
  T : ℝ
  ρ : ℝ
  X : ℕ → ℝ

/-- ct_defs.h:158. -/
noncomputable def small : ℝ := 1 / 10 ^ 300

variable (M : Mech)

/-- Phase.cpp: mean molecular weight `m_mmw`. -/
noncomputable def mmw (x : St) : ℝ := ∑ k ∈ Finset.range M.n, x.X k * M.W k

/-- Phase.cpp:305-308: `m_ym`, mole fractions over the mean molecular weight. -/
noncomputable def ym (x : St) (k : ℕ) : ℝ := x.X k / mmw M x

/-- Phase.cpp:616-624. -/
noncomputable def meanX (x : St) (Q : ℕ → ℝ) : ℝ :=
  mmw M x * ∑ k ∈ Finset.range M.n, ym M x k * Q k

/-- Phase.cpp:626-633. -/
noncomputable def sumXLogX (x : St) : ℝ :=
  mmw M x * (∑ k ∈ Finset.range M.n, ym M x k * Real.log (max (ym M x k) small)) +
    Real.log (mmw M x)

/-- ThermoPhase.h: `RT()`. -/
noncomputable def RT (x : St) : ℝ := x.T * M.R

/-- Phase.cpp:576-579. -/
noncomputable def molarDensity (x : St) : ℝ := x.ρ / mmw M x

/-- Phase.cpp:581-584. -/
noncomputable def molarVolume (x : St) : ℝ := 1 / molarDensity M x

/-- IdealGasPhase.h:338-340. -/
noncomputable def pressure (x : St) : ℝ := M.R * molarDensity M x * x.T

/-- IdealGasPhase.cpp:267-284: reference Gibbs functions. -/
noncomputable def g (x : St) (k : ℕ) : ℝ := M.h k x.T - M.s k x.T

/-- IdealGasPhase.h:294-296. -/
noncomputable def enthalpyMole (x : St) : ℝ := RT M x * meanX M x (fun k => M.h k x.T)

/-- IdealGasPhase.cpp:25-28. -/
noncomputable def entropyMole (x : St) : ℝ :=
  M.R * (meanX M x (fun k => M.s k x.T) - sumXLogX M x - Real.log (pressure M x / M.p0))

/-- IdealGasPhase.cpp:30-33. -/
noncomputable def cpMole (x : St) : ℝ := M.R * meanX M x (fun k => M.cp k x.T)

/-- IdealGasPhase.cpp:35-38. -/
noncomputable def cvMole (x : St) : ℝ := cpMole M x - M.R

/-- ThermoPhase.h:541-543. -/
noncomputable def intEnergyMole (x : St) : ℝ :=
  enthalpyMole M x - pressure M x * molarVolume M x

/-- IdealGasPhase.cpp:40-44. -/
noncomputable def soundSpeed (x : St) : ℝ :=
  Real.sqrt (cpMole M x / cvMole M x * M.R / mmw M x * x.T)

/-- IdealGasPhase.cpp:46-49. -/
noncomputable def standardConcentration (x : St) : ℝ := pressure M x / RT M x

/-- IdealGasPhase.h:433-435: concentrations of the species. -/
noncomputable def activityConcentration (x : St) (k : ℕ) : ℝ := x.ρ * ym M x k

/-- IdealGasPhase.cpp:58-65. -/
noncomputable def stdChemPot (x : St) (k : ℕ) : ℝ :=
  RT M x * g M x k + Real.log (pressure M x / M.p0) * RT M x

/-- IdealGasPhase.cpp:69-76. -/
noncomputable def chemPot (x : St) (k : ℕ) : ℝ :=
  stdChemPot M x k + RT M x * Real.log (max small (x.X k))

/-- ThermoPhase.h:566-569. -/
noncomputable def gibbsMole (x : St) : ℝ := meanX M x (chemPot M x)

/-- IdealGasPhase.cpp:78-82. -/
noncomputable def pmEnthalpy (x : St) (k : ℕ) : ℝ := RT M x * M.h k x.T

/-- IdealGasPhase.cpp:84-93. -/
noncomputable def pmEntropy (x : St) (k : ℕ) : ℝ :=
  M.R * M.s k x.T + M.R * (-Real.log (pressure M x / M.p0) - Real.log (max small (x.X k)))

/-- IdealGasPhase.cpp:95-101. -/
noncomputable def pmIntEnergy (x : St) (k : ℕ) : ℝ := RT M x * (M.h k x.T - 1)

/-- IdealGasPhase.cpp:103-107. -/
noncomputable def pmCp (x : St) (k : ℕ) : ℝ := M.R * M.cp k x.T

/-- IdealGasPhase.cpp:109-115. -/
noncomputable def pmVolume (x : St) (_k : ℕ) : ℝ := 1 / molarDensity M x

/-- IdealGasPhase.cpp:125-133. -/
noncomputable def stdEntropyR (x : St) (k : ℕ) : ℝ := M.s k x.T - Real.log (pressure M x / M.p0)

/-- IdealGasPhase.cpp:135-143. -/
noncomputable def stdGibbsRT (x : St) (k : ℕ) : ℝ := g M x k + Real.log (pressure M x / M.p0)

/-- IdealGasPhase.cpp:145-153. -/
noncomputable def pureGibbs (x : St) (k : ℕ) : ℝ :=
  RT M x * g M x k + Real.log (pressure M x / M.p0) * RT M x

/-- IdealGasPhase.cpp:155-158, 200-206. -/
noncomputable def stdIntEnergyRT (x : St) (k : ℕ) : ℝ := M.h k x.T - 1

/-- IdealGasPhase.cpp:214-220. -/
noncomputable def stdVolumeRef (x : St) (_k : ℕ) : ℝ := RT M x / M.p0

/-- IdealGasPhase.h:352-354 and Phase.cpp:586-595; `none` is an exception. -/
noncomputable def setPressure (x : St) (p : ℝ) : Option St :=
  let ρ := p * mmw M x / RT M x
  if 0 < ρ then some { x with ρ := ρ } else none

/-- IdealGasPhase.h:369-376 and Phase.h:624-631: the state after the call and whether it
succeeded. -/
noncomputable def setStateDP (x : St) (ρ p : ℝ) : St × Bool :=
  if p ≤ 0 then (x, false)
  else if 0 < ρ then
    let T := p * mmw M x / (M.R * ρ)
    if 0 < T then ({ x with ρ := ρ, T := T }, true) else ({ x with ρ := ρ }, false)
  else (x, false)

/-- IdealGasPhase.h:386-388. -/
noncomputable def isothermalCompressibility (x : St) : ℝ := 1 / pressure M x

/-- IdealGasPhase.h:398-400. -/
noncomputable def thermalExpansion (x : St) : ℝ := 1 / x.T

/-- IdealGasPhase.cpp:249-259: partial pressure in `setToEquilState`. -/
noncomputable def eqPressure (x : St) (mu : ℕ → ℝ) (k : ℕ) : ℝ :=
  let t := -g M x k + mu k
  if t < -600 then 0
  else if 300 < t then M.p0 * Real.exp 300 * (t / 300 * (t / 300))
  else M.p0 * Real.exp t

/-- IdealGasPhase.cpp:239-265: `setToEquilState`; the mole fractions are normalized by
`setMoleFractions` (C12; the partial pressures are not negative). -/
noncomputable def setToEquilState (x : St) (mu : ℕ → ℝ) : Option St :=
  let pres := ∑ k ∈ Finset.range M.n, eqPressure M x mu k
  setPressure M { x with X := fun k => eqPressure M x mu k / pres } pres

end Verif.IdealGas
