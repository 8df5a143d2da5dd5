import Mathlib.Data.Real.Basic

/-!
# Pure condensed substances: StoichSubstance on SingleSpeciesTP
-/

namespace Verif.Stoich

/-- Reference thermodynamics (h/RT, s/R, cp/R by temperature), gas constant, reference pressure,
molecular weight and density. -/
structure Sub where
  R : ℝ
  p0 : ℝ
  W : ℝ
  ρ : ℝ
  h : ℝ → ℝ
  s : ℝ → ℝ
  cp : ℝ → ℝ

/-- Temperature, `m_press`, and the cache `m_tlast`, `m_h0_RT`, `m_s0_R`, `m_cp0_R`. -/
structure St where
  T : ℝ
  P : ℝ
  tlast : ℝ
  h0 : ℝ
  s0 : ℝ
  cp0 : ℝ

variable (D : Sub)

/-- SingleSpeciesTP.cpp:242-249. -/
noncomputable def updateThermo (x : St) : St :=
  if x.tlast ≠ x.T then { x with h0 := D.h x.T, s0 := D.s x.T, cp0 := D.cp x.T, tlast := x.T }
  else x

/-- Phase.h: molarDensity, one species. -/
noncomputable def molarDensity : ℝ := D.ρ / D.W

/-- SingleSpeciesTP.cpp:133-137, StoichSubstance.cpp:77-82. -/
noncomputable def enthalpyRT (x : St) : ℝ :=
  (updateThermo D x).h0 + (x.P - D.p0) / molarDensity D / (D.R * x.T)
/-- SingleSpeciesTP.cpp:151-155, StoichSubstance.cpp:84-87. -/
noncomputable def entropyR (x : St) : ℝ := (updateThermo D x).s0
/-- StoichSubstance.cpp:89-93. -/
noncomputable def gibbsRT (x : St) : ℝ := enthalpyRT D x - (updateThermo D x).s0
/-- StoichSubstance.cpp:95-99. -/
noncomputable def cpR (x : St) : ℝ := (updateThermo D x).cp0
/-- StoichSubstance.cpp:101-105. -/
noncomputable def intEnergyRT (x : St) : ℝ :=
  (updateThermo D x).h0 - D.p0 / molarDensity D / (D.R * x.T)

/-- SingleSpeciesTP.cpp:20-60, 84-99. -/
noncomputable def enthalpy (x : St) : ℝ := enthalpyRT D x * (D.R * x.T)
noncomputable def intEnergy (x : St) : ℝ := intEnergyRT D x * (D.R * x.T)
noncomputable def entropy (x : St) : ℝ := entropyR D x * D.R
noncomputable def gibbs (x : St) : ℝ := gibbsRT D x * (D.R * x.T)
noncomputable def cp (x : St) : ℝ := cpR D x * D.R

/-- SingleSpeciesTP.cpp:62-80, general substance: `al`, `be` are the thermal expansion coefficient
and the compressibility. -/
noncomputable def cvGen (c al be V T : ℝ) : ℝ := if be ≠ 0 then c - al * al * V * T / be else c

/-- The same with StoichSubstance.cpp:37-45. -/
noncomputable def cv (x : St) : ℝ := cvGen (cp D x) 0 0 (D.W / D.ρ) x.T

/-- SingleSpeciesTP.cpp:113-116. -/
noncomputable def volume : ℝ := D.W / D.ρ

/-- ThermoPhase::invalidateCache, ThermoPhase.cpp:1162-1165. -/
noncomputable def invalidate (x : St) : St := { x with tlast := x.tlast + 1234 / 10000 }

/-! ## Setting the state by energy and pressure -/

/-- utilities.h `clip`. -/
noncomputable def clip (v lo hi : ℝ) : ℝ := max lo (min hi v)

/-- The loop of setState_HP (SingleSpeciesTP.cpp:169-175) and setState_SP (203-209) by the step `f`.
The result is the temperature left and whether the call returned; setTemperature throws if the
temperature is not positive (Phase.h:624-631), and setState_TP then restores the old one
(ThermoPhase.cpp:121-132). -/
noncomputable def loop (f : ℝ → ℝ) (tol : ℝ) : ℕ → ℝ → ℝ × Bool
  | 0, T => (T, false)
  | n + 1, T =>
    let dt := clip (f T) (-100) 100
    if T + dt ≤ 0 then (T, false)
    else if |dt / (T + dt)| < tol then (T + dt, true)
    else loop f tol n (T + dt)

/-- Enthalpy and entropy by mass at the pressure set; ThermoPhase.h `enthalpy_mass` etc. -/
noncomputable def at' (T P : ℝ) : St := updateThermo D ⟨T, P, T - 1, 0, 0, 0⟩

/-- SingleSpeciesTP.cpp:165-178. -/
noncomputable def setHP (h p tol T : ℝ) : ℝ × Bool :=
  loop (fun T => (h - enthalpy D (at' D T p) / D.W) / (cp D (at' D T p) / D.W)) tol 50 T

/-- SingleSpeciesTP.cpp:199-212. -/
noncomputable def setSP (s p tol T : ℝ) : ℝ × Bool :=
  loop (fun T => (s - entropy D (at' D T p) / D.W) * T / (cp D (at' D T p) / D.W)) tol 50 T

/-- SingleSpeciesTP.cpp:180-187, 214-221: the density set first, or the exception of
`assertCompressible` (Phase.cpp:586-595); Phase.h:815-821.  `none` is the exception. -/
noncomputable def densityOfV (compressible : Bool) (v : ℝ) : Option ℝ :=
  let d := if v = 0 then 10 ^ 100 else 1 / v
  if compressible = false then none else if 0 < d then some d else none

end Verif.Stoich
