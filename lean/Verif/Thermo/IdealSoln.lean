import Verif.Thermo.IdealGas

/-!
# Ideal condensed solutions: IdealSolidSolnPhase and LatticePhase

The reference functions of the species (`h`, `s`, `cp`, dimensionless) are given functions of
temperature, as in C78; the averages `mean_X` and `sum_xlogx` of Phase are those of
`Thermo/IdealGas.lean`.  The caching of the reference functions by temperature is left out: the
cache is keyed by the temperature only and the functions depend on nothing else.  Exceptions are
`none`.
-/

namespace Verif.IdealSoln

open Verif.IdealGas (meanX sumXLogX mmw small RT molarDensity molarVolume)

/-- Data of a phase: those of `IdealGas.Mech` (`p0` is `m_Pref`), the molar volumes of the species
(`m_speciesMolarVolume`), the form of the standard concentration (`m_formGC`,
IdealSolidSolnPhase.h) and the site density of a lattice (`m_site_density`). -/
structure Sol extends IdealGas.Mech where
  V : ℕ → ℝ
  form : ℕ
  site : ℝ

/-- State: temperature, density, mole fractions and `m_Pcurrent`. -/
structure St extends IdealGas.St where
  P : ℝ

variable (M : Sol)

/-- Reference Gibbs functions, IdealSolidSolnPhase.cpp:437-439, LatticePhase.cpp:275-277. -/
noncomputable def g0 (x : St) (k : ℕ) : ℝ := M.h k x.T - M.s k x.T

/-- Phase.cpp:597-605. -/
noncomputable def assignDensity (x : St) (ρ : ℝ) : Option St :=
  if 0 < ρ then some { x with ρ := ρ } else none

namespace Solid

/-- IdealSolidSolnPhase.cpp:45-53. -/
noncomputable def calcDensity (x : St) : Option St :=
  assignDensity x (mmw M.toMech x.toSt / meanX M.toMech x.toSt M.V)

/-- IdealSolidSolnPhase.cpp:55-59. -/
noncomputable def setPressure (x : St) (p : ℝ) : Option St := calcDensity M { x with P := p }

/-- IdealSolidSolnPhase.cpp:61-65, for mole fractions which are already normalized (C12). -/
noncomputable def setX (x : St) (X : ℕ → ℝ) : Option St := calcDensity M { x with X := X }

/-- IdealSolidSolnPhase.cpp:27-30. -/
noncomputable def entropyMole (x : St) : ℝ :=
  M.R * (meanX M.toMech x.toSt (fun k => M.s k x.T) - sumXLogX M.toMech x.toSt)

/-- IdealSolidSolnPhase.cpp:32-36. -/
noncomputable def gibbsMole (x : St) : ℝ :=
  let Pv := (x.P - M.p0) / molarDensity M.toMech x.toSt
  RT M.toMech x.toSt * (meanX M.toMech x.toSt (g0 M x) + sumXLogX M.toMech x.toSt) + Pv

/-- IdealSolidSolnPhase.cpp:38-41; IdealSolidSolnPhase.h:125-127 returns the same for `cv`. -/
noncomputable def cpMole (x : St) : ℝ := M.R * meanX M.toMech x.toSt (fun k => M.cp k x.T)

/-- IdealSolidSolnPhase.cpp:79-96. -/
noncomputable def actConc (x : St) (k : ℕ) : ℝ :=
  if M.form = 1 then x.X k / M.V k
  else if M.form = 2 then x.X k / M.V (M.n - 1)
  else x.X k

/-- IdealSolidSolnPhase.cpp:98-109. -/
noncomputable def stdConc (k : ℕ) : ℝ :=
  if M.form = 0 then 1
  else if M.form = 1 then 1 / M.V k
  else if M.form = 2 then 1 / M.V (M.n - 1)
  else 0

/-- IdealSolidSolnPhase.cpp:118-127. -/
noncomputable def chemPot (x : St) (k : ℕ) : ℝ :=
  RT M.toMech x.toSt * (g0 M x k + Real.log (max small (x.X k))) + (x.P - M.p0) * M.V k

/-- IdealSolidSolnPhase.cpp:131-139. -/
noncomputable def pmEnthalpy (x : St) (k : ℕ) : ℝ :=
  M.h k x.T * RT M.toMech x.toSt + (x.P - M.p0) * M.V k

/-- IdealSolidSolnPhase.cpp:141-148. -/
noncomputable def pmEntropy (x : St) (k : ℕ) : ℝ :=
  M.R * (M.s k x.T - Real.log (max small (x.X k)))

/-- IdealSolidSolnPhase.cpp:150-156, 207-211. -/
noncomputable def pmCp (x : St) (k : ℕ) : ℝ := M.cp k x.T * M.R

/-- IdealSolidSolnPhase.cpp:158-161, 213-216. -/
noncomputable def pmVolume (k : ℕ) : ℝ := M.V k

/-- ThermoPhase.h:535-538. -/
noncomputable def enthalpyMole (x : St) : ℝ := meanX M.toMech x.toSt (pmEnthalpy M x)

/-- ThermoPhase.h:541-543. -/
noncomputable def intEnergyMole (x : St) : ℝ :=
  enthalpyMole M x - x.P * molarVolume M.toMech x.toSt

/-- IdealSolidSolnPhase.cpp:165-172; IdealSolidSolnPhase.h:359-361 for
`getStandardChemPotentials`. -/
noncomputable def pureGibbs (x : St) (k : ℕ) : ℝ :=
  RT M.toMech x.toSt * g0 M x k + (x.P - M.p0) * M.V k

/-- IdealSolidSolnPhase.cpp:174-181. -/
noncomputable def gibbsRT (x : St) (k : ℕ) : ℝ :=
  g0 M x k + (x.P - M.p0) / RT M.toMech x.toSt * M.V k

/-- IdealSolidSolnPhase.cpp:183-190. -/
noncomputable def enthalpyRT (x : St) (k : ℕ) : ℝ :=
  M.h k x.T + (x.P - M.p0) / RT M.toMech x.toSt * M.V k

/-- IdealSolidSolnPhase.cpp:192-196. -/
noncomputable def entropyR (x : St) (k : ℕ) : ℝ := M.s k x.T

/-- IdealSolidSolnPhase.cpp:198-205 (and 245-252). -/
noncomputable def intEnergyRT (x : St) (k : ℕ) : ℝ :=
  M.h k x.T - M.p0 / RT M.toMech x.toSt * M.V k

/-- IdealSolidSolnPhase.cpp:384-397: `m_pp`. -/
noncomputable def eqPressure (x : St) (mu : ℕ → ℝ) (k : ℕ) : ℝ :=
  let t := -g0 M x k + mu k
  if t < -600 then 0
  else if 500 < t then M.p0 * Real.exp 500 * (t / 500 * (t / 500))
  else M.p0 * Real.exp t

/-- IdealSolidSolnPhase.cpp:373-401. -/
noncomputable def setToEquilState (x : St) (mu : ℕ → ℝ) : Option St :=
  let pres := ∑ k ∈ Finset.range M.n, eqPressure M x mu k
  (setX M x (fun k => eqPressure M x mu k / pres)).bind (fun y => setPressure M y pres)

end Solid

namespace Lattice

/-- LatticePhase.cpp:51-55. -/
noncomputable def calcDensity (x : St) : Option St :=
  assignDensity x (max (mmw M.toMech x.toSt * M.site) small)

/-- LatticePhase.cpp:57-61. -/
noncomputable def setPressure (x : St) (p : ℝ) : Option St := calcDensity M { x with P := p }

/-- LatticePhase.cpp:63-67. -/
noncomputable def setX (x : St) (X : ℕ → ℝ) : Option St := calcDensity M { x with X := X }

/-- LatticePhase.cpp:26-30. -/
noncomputable def enthalpyMole (x : St) : ℝ :=
  RT M.toMech x.toSt * meanX M.toMech x.toSt (fun k => M.h k x.T) +
    (x.P - M.p0) / molarDensity M.toMech x.toSt

/-- LatticePhase.cpp:32-35. -/
noncomputable def entropyMole (x : St) : ℝ :=
  M.R * (meanX M.toMech x.toSt (fun k => M.s k x.T) - sumXLogX M.toMech x.toSt)

/-- LatticePhase.cpp:37-39. -/
noncomputable def gibbsMole (x : St) : ℝ := enthalpyMole M x - x.T * entropyMole M x

/-- LatticePhase.cpp:41-49, also `cv`. -/
noncomputable def cpMole (x : St) : ℝ := M.R * meanX M.toMech x.toSt (fun k => M.cp k x.T)

/-- LatticePhase.cpp:96-105. -/
noncomputable def chemPot (x : St) (k : ℕ) : ℝ :=
  RT M.toMech x.toSt * (g0 M x k + Real.log (max small (x.X k))) + (x.P - M.p0) * M.V k

/-- LatticePhase.cpp:107-111. -/
noncomputable def pmEnthalpy (x : St) (k : ℕ) : ℝ := M.h k x.T * RT M.toMech x.toSt

/-- LatticePhase.cpp:113-120. -/
noncomputable def pmEntropy (x : St) (k : ℕ) : ℝ :=
  M.R * (M.s k x.T - Real.log (max small (x.X k)))

/-- LatticePhase.cpp:122-128. -/
noncomputable def pmCp (x : St) (k : ℕ) : ℝ := M.cp k x.T * M.R

/-- LatticePhase.cpp:130-133, 188-191. -/
noncomputable def pmVolume (k : ℕ) : ℝ := M.V k

/-- LatticePhase.cpp:135-139. -/
noncomputable def stdChemPot (x : St) (k : ℕ) : ℝ := g0 M x k * RT M.toMech x.toSt

/-- LatticePhase.cpp:141-148. -/
noncomputable def pureGibbs (x : St) (k : ℕ) : ℝ :=
  RT M.toMech x.toSt * g0 M x k + (x.P - M.p0) * M.V k

/-- LatticePhase.cpp:150-157. -/
noncomputable def enthalpyRT (x : St) (k : ℕ) : ℝ :=
  M.h k x.T + (x.P - M.p0) / RT M.toMech x.toSt * M.V k

/-- LatticePhase.cpp:165-172. -/
noncomputable def gibbsRT (x : St) (k : ℕ) : ℝ :=
  g0 M x k + (x.P - M.p0) / RT M.toMech x.toSt * M.V k

/-- LatticePhase.cpp:253-267: the data after setting the site density; `given k` says that species
`k` has its own molar volume in the input.  The density of the state is not changed. -/
noncomputable def setSiteDensity (given : ℕ → Bool) (d : ℝ) : Sol :=
  { M with site := d, V := fun k => if given k then M.V k else 1 / d }

end Lattice

end Verif.IdealSoln
