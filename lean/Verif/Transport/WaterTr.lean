import Mathlib.Analysis.SpecialFunctions.Pow.Real
import Mathlib.Analysis.SpecialFunctions.Sqrt

/-!
# Transport properties of water (claim C100)

Model of src/transport/WaterTransport.cpp.  Temperature, density, isothermal compressibility and thermal expansion
coefficient of the phase are arguments.  A result that is not a finite number is `none`; overflow of the
exponential is not modelled.
-/

namespace Verif.WaterTr

/-- WaterTransport.cpp:14, 41 -/
noncomputable def Tstar : ℝ := 647.27
/-- WaterTransport.cpp:15 -/
noncomputable def rhoStar : ℝ := 317.763
/-- WaterTransport.cpp:16 -/
noncomputable def presStar : ℝ := 22.115e6
/-- WaterTransport.cpp:17 -/
noncomputable def muStar : ℝ := 55.071e-6
/-- WaterTransport.cpp:89 -/
noncomputable def lambdaStar : ℝ := 0.4945

/-- Denominator of mu0bar (WaterTransport.cpp:49, 135) with the table H (19) -/
noncomputable def muDen (t : ℝ) : ℝ := 1 + 0.978197 / t + 0.579829 / (t * t) + -0.202354 / (t * t * t)

/-- Denominator of lambda0bar (WaterTransport.cpp:112) with the table L (90-95) -/
noncomputable def laDen (t : ℝ) : ℝ := 1 + 6.978267 / t + 2.599096 / (t * t) + -0.998254 / (t * t * t)

/-- mu0bar (WaterTransport.cpp:49, 135) -/
noncomputable def mu0 (t : ℝ) : ℝ := Real.sqrt t / muDen t

/-- The sum of WaterTransport.cpp:64-69 and 137-143 with the table Hij (20-27);
`f` is tfac1, `g` is rfac1. -/
noncomputable def muSum (f g : ℝ) : ℝ :=
  0.5132047 + 0.3205656 * f + -0.7782567 * f ^ 4 + 0.1885447 * f ^ 5 +
  0.2151778 * g + 0.7317883 * f * g + 1.241044 * f ^ 2 * g + 1.476783 * f ^ 3 * g +
  -0.2818107 * g ^ 2 + -1.070786 * f * g ^ 2 + -1.263184 * f ^ 2 * g ^ 2 +
  0.1778064 * g ^ 3 + 0.4605040 * f * g ^ 3 + 0.2340379 * f ^ 2 * g ^ 3 + -0.4924179 * f ^ 3 * g ^ 3 +
  -0.04176610 * g ^ 4 + 0.1600435 * f ^ 3 * g ^ 4 +
  -0.01578386 * f * g ^ 5 + -0.003629481 * f ^ 3 * g ^ 6

/-- mu1bar (WaterTransport.cpp:70, 144) -/
noncomputable def mu1 (t r : ℝ) : ℝ := Real.exp (r * muSum (1 / t - 1) (r - 1))

/-- mu2bar (WaterTransport.cpp:73-81) for compressibility `κ` and density `dens` -/
noncomputable def mu2 (t r dens κ : ℝ) : ℝ :=
  if 0.9970 ≤ t ∧ t ≤ 1.0082 ∧ 0.755 ≤ r ∧ r ≤ 1.290 then
    let drhodp := κ * dens * (presStar / rhoStar)
    let xsi := r * drhodp
    if 21.93 ≤ xsi then 0.922 * xsi ^ (0.0263 : ℝ) else 1
  else 1

/-- WaterTransport::viscosity (WaterTransport.cpp:39-85) -/
noncomputable def viscosity (T dens κ : ℝ) : Option ℝ :=
  if T ≤ 0 ∨ muDen (T / Tstar) = 0 then none
  else some (mu0 (T / Tstar) * mu1 (T / Tstar) (dens / rhoStar) * mu2 (T / Tstar) (dens / rhoStar) dens κ * muStar)

/-- The first sum of WaterTransport.cpp:127-133 with the table Lji (96-103) -/
noncomputable def laSum (f g : ℝ) : ℝ :=
  1.3293046 + 1.7018363 * f + 5.2246158 * f ^ 2 + 8.7127675 * f ^ 3 + -1.8525999 * f ^ 4 +
  -0.40452437 * g + -2.2156845 * f * g + -10.124111 * f ^ 2 * g + -9.5000611 * f ^ 3 * g + 0.93404690 * f ^ 4 * g +
  0.24409490 * g ^ 2 + 1.6511057 * f * g ^ 2 + 4.9874687 * f ^ 2 * g ^ 2 + 4.3786606 * f ^ 3 * g ^ 2 +
  0.018660751 * g ^ 3 + -0.76736002 * f * g ^ 3 + -0.27297694 * f ^ 2 * g ^ 3 + -0.91783782 * f ^ 3 * g ^ 3 +
  -0.12961068 * g ^ 4 + 0.37283344 * f * g ^ 4 + -0.43083393 * f ^ 2 * g ^ 4 +
  0.044809953 * g ^ 5 + -0.11203160 * f * g ^ 5 + 0.13333849 * f ^ 2 * g ^ 5

/-- lambda0bar * lambda1bar (WaterTransport.cpp:112, 134) -/
noncomputable def la01 (t r : ℝ) : ℝ := Real.sqrt t / laDen t * Real.exp (r * laSum (1 / t - 1) (r - 1))

/-- lambda2bar (WaterTransport.cpp:145-153) for expansion coefficient `α` -/
noncomputable def la2 (t r κ α : ℝ) : ℝ :=
  let xsi := r * r * κ * presStar
  let dpdT := α / κ * (Tstar / presStar)
  0.0013848 / (mu0 t * mu1 t r) * (t * t / (r * r)) * dpdT * dpdT * xsi ^ (0.4678 : ℝ) * Real.sqrt r *
    Real.exp (-18.66 * ((t - 1) * (t - 1)) - (r - 1) ^ 4)

/-- WaterTransport::thermalConductivity (WaterTransport.cpp:87-155); for κ < 0 the power, for ρ < 0 the root is not
a number, for κ = 0 or ρ = 0 infinity is multiplied by zero. -/
noncomputable def conductivity (T dens κ α : ℝ) : Option ℝ :=
  if T ≤ 0 ∨ dens ≤ 0 ∨ κ ≤ 0 ∨ muDen (T / Tstar) = 0 ∨ laDen (T / Tstar) = 0 then none
  else some ((la01 (T / Tstar) (dens / rhoStar) + la2 (T / Tstar) (dens / rhoStar) κ α) * lambdaStar)

end Verif.WaterTr
