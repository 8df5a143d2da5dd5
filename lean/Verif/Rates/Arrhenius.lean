import Verif.Basic
import Mathlib.Analysis.SpecialFunctions.ExpDeriv
import Mathlib.Analysis.SpecialFunctions.Log.Deriv
import Mathlib.Tactic.FieldSimp
import Mathlib.Tactic.Linarith
import Mathlib.Tactic.LinearCombination
import Mathlib.Tactic.Positivity

/-!
# Rates of Arrhenius type and their scaled temperature derivatives (C56)

Sources: include/cantera/kinetics/Arrhenius.h:140-208, BlowersMaselRate.h:92-154,
src/kinetics/BlowersMaselRate.cpp:59-77, TwoTempPlasmaRate.h:84-107, TwoTempPlasmaRate.cpp:68-73.

Simplification: the shared data `logT`, `recipT`, `logTe`, `recipTe` are computed from the temperatures
(ReactionData.h:37-41, TwoTempPlasmaRate.cpp:42-47); warnings are not modelled.
-/

namespace Verif.Rates.Arrhenius

open Real

/-- Parameters of `ArrheniusBase` (Arrhenius.h:144-148): `m_A`, `m_b`, `m_Ea_R`, `m_E4_R`. -/
structure Par where
  A : ℝ
  b : ℝ
  Ea : ℝ
  E4 : ℝ

/-- `ArrheniusRate::evalFromStruct` (Arrhenius.h:195-197). -/
noncomputable def eval (p : Par) (T : ℝ) : ℝ := p.A * exp (p.b * log T - p.Ea * (1 / T))

/-- `ArrheniusRate::evalLog` (Arrhenius.h:187-189); `m_logA` is `log(m_A)` (Arrhenius.cpp:70-72). -/
noncomputable def evalLog (p : Par) (T : ℝ) : ℝ := log p.A + p.b * log T - p.Ea * (1 / T)

/-- `ArrheniusRate::ddTScaledFromStruct` (Arrhenius.h:205-207). -/
noncomputable def ddTScaled (p : Par) (T : ℝ) : ℝ := (p.Ea * (1 / T) + p.b) * (1 / T)

/-- `TwoTempPlasmaRate::evalFromStruct` (TwoTempPlasmaRate.h:89-95). -/
noncomputable def evalTwo (p : Par) (T Te : ℝ) : ℝ :=
  p.A * exp (p.b * log Te - p.Ea * (1 / T) + p.E4 * (Te - T) * (1 / Te) * (1 / T))

/-- `TwoTempPlasmaRate::ddTScaledFromStruct` (TwoTempPlasmaRate.cpp:68-73). -/
noncomputable def ddTScaledTwo (p : Par) (T : ℝ) : ℝ := (p.Ea - p.E4) * (1 / T) * (1 / T)

/-- `BlowersMaselRate::updateFromStruct` (BlowersMaselRate.h:99-107): enthalpy of reaction in
temperature units from partial molar enthalpies `h`. -/
noncomputable def deltaH (R : ℝ) (coeffs : List (ℕ × ℝ)) (h : ℕ → ℝ) : ℝ :=
  coeffs.foldl (fun s x => s + h x.1 * x.2) 0 / R

/-- `BlowersMaselRate::setContext` (BlowersMaselRate.cpp:67-76). -/
def bmCoeffs (reactants products : List (ℕ × ℝ)) : List (ℕ × ℝ) :=
  reactants.map (fun x => (x.1, -x.2)) ++ products

open Classical in
/-- `BlowersMaselRate::effectiveActivationEnergy_R` (BlowersMaselRate.h:138-152). -/
noncomputable def effEa (p : Par) (dH : ℝ) : ℝ :=
  if dH < -4 * p.Ea then 0
  else if dH > 4 * p.Ea then dH
  else
    let vp := 2 * p.E4 * ((p.E4 + p.Ea) / (p.E4 - p.Ea))
    let v := vp - 2 * p.E4 + dH
    (p.E4 + dH / 2) * (v * v) / (vp * vp - 4 * p.E4 * p.E4 + dH * dH)

/-- `BlowersMaselRate::evalFromStruct` (BlowersMaselRate.h:113-116). -/
noncomputable def evalBM (p : Par) (T dH : ℝ) : ℝ :=
  p.A * exp (p.b * log T - effEa p dH * (1 / T))

/-- `BlowersMaselRate::ddTScaledFromStruct` (BlowersMaselRate.cpp:59-65). -/
noncomputable def ddTScaledBM (p : Par) (T dH : ℝ) : ℝ := (effEa p dH * (1 / T) + p.b) * (1 / T)

/-! ## Derivatives -/

/-- **C56** The scaled derivative is the logarithmic derivative of the Arrhenius rate. -/
theorem arrhenius_ddT (p : Par) (T : ℝ) (hT : 0 < T) :
    HasDerivAt (eval p) (eval p T * ddTScaled p T) T := by
  have h1 := (Real.hasDerivAt_log hT.ne').const_mul p.b
  have h2 := (hasDerivAt_inv hT.ne').const_mul p.Ea
  have h3 := ((h1.sub h2).exp).const_mul p.A
  have e : eval p = fun x => p.A * exp (p.b * log x - p.Ea * x⁻¹) := by
    funext x; rw [eval, one_div]
  rw [e]
  refine h3.congr_deriv ?_
  unfold ddTScaled
  simp only [Pi.sub_apply, one_div]
  field_simp
  ring

/-- **C56** The same for the two-temperature rate at fixed electron temperature. -/
theorem two_temp_ddT (p : Par) (T Te : ℝ) (hT : 0 < T) (hTe : 0 < Te) :
    HasDerivAt (fun t => evalTwo p t Te) (evalTwo p T Te * ddTScaledTwo p T) T := by
  have h2 := (hasDerivAt_inv hT.ne').const_mul (p.E4 - p.Ea)
  have h3 := ((h2.const_add (p.b * log Te - p.E4 / Te)).exp).const_mul p.A
  have e : ∀ t, t ≠ 0 → evalTwo p t Te
      = p.A * exp (p.b * log Te - p.E4 / Te + (p.E4 - p.Ea) * t⁻¹) := by
    intro t ht
    unfold evalTwo
    congr 2
    field_simp
    ring
  have h4 : HasDerivAt (fun t => evalTwo p t Te) _ T :=
    h3.congr_of_eventuallyEq ((eventually_ne_nhds hT.ne').mono fun t ht => e t ht)
  refine h4.congr_deriv ?_
  rw [e T hT.ne']
  unfold ddTScaledTwo
  field_simp
  ring

/-- **C56** The same for the Blowers-Masel rate at fixed enthalpy of reaction (as documented). -/
theorem blowers_masel_ddT (p : Par) (T dH : ℝ) (hT : 0 < T) :
    HasDerivAt (fun t => evalBM p t dH) (evalBM p T dH * ddTScaledBM p T dH) T :=
  arrhenius_ddT ⟨p.A, p.b, effEa p dH, 0⟩ T hT

/-- **C56** `evalLog` is the logarithm of the rate. -/
theorem evalLog_eq (p : Par) (T : ℝ) (hA : 0 < p.A) : evalLog p T = log (eval p T) := by
  unfold evalLog eval
  rw [log_mul hA.ne' (exp_ne_zero _), log_exp]
  ring

/-! ## The Blowers-Masel activation energy -/

/-- The enthalpy of reaction is that of the products less that of the reactants. -/
theorem deltaH_eq (R : ℝ) (re pr : List (ℕ × ℝ)) (h : ℕ → ℝ) :
    deltaH R (bmCoeffs re pr) h
      = ((pr.map fun x => x.2 * h x.1).sum - (re.map fun x => x.2 * h x.1).sum) / R := by
  have hf : ∀ (l : List (ℕ × ℝ)) (s : ℝ), l.foldl (fun s x => s + h x.1 * x.2) s
      = s + (l.map fun x => x.2 * h x.1).sum := by
    intro l
    induction l with
    | nil => simp
    | cons a l ih => intro s; rw [List.foldl_cons, ih]; simp; ring
  have hn : ∀ l : List (ℕ × ℝ), ((l.map fun x => (x.1, -x.2)).map fun x => x.2 * h x.1).sum
      = -(l.map fun x => x.2 * h x.1).sum := by
    intro l
    induction l with
    | nil => simp
    | cons a l ih => simp only [List.map_cons, List.sum_cons, ih]; ring
  unfold deltaH bmCoeffs
  rw [hf, List.map_append, List.sum_append, hn]
  congr 1
  ring

/-- The formula without the quotient `vp`. -/
theorem effEa_mid (p : Par) (dH : ℝ) (hE : 0 < p.Ea) (hw : p.Ea < p.E4) (h1 : -4 * p.Ea ≤ dH)
    (h2 : dH ≤ 4 * p.Ea) :
    effEa p dH * (16 * p.E4 ^ 3 * p.Ea + dH ^ 2 * (p.E4 - p.Ea) ^ 2)
      = (p.E4 + dH / 2) * (4 * p.E4 * p.Ea + dH * (p.E4 - p.Ea)) ^ 2 := by
  have hD : p.E4 - p.Ea ≠ 0 := by linarith
  have hw0 : 0 < p.E4 := hE.trans hw
  have hden : 16 * p.E4 ^ 3 * p.Ea + dH ^ 2 * (p.E4 - p.Ea) ^ 2 ≠ 0 := by positivity
  unfold effEa
  rw [if_neg (not_lt.mpr h1), if_neg (not_lt.mpr h2)]
  simp only
  have e1 : 2 * p.E4 * ((p.E4 + p.Ea) / (p.E4 - p.Ea)) - 2 * p.E4 + dH
      = (4 * p.E4 * p.Ea + dH * (p.E4 - p.Ea)) / (p.E4 - p.Ea) := by
    field_simp; ring
  have e2 : 2 * p.E4 * ((p.E4 + p.Ea) / (p.E4 - p.Ea)) * (2 * p.E4 * ((p.E4 + p.Ea) / (p.E4 - p.Ea)))
      - 4 * p.E4 * p.E4 + dH * dH
      = (16 * p.E4 ^ 3 * p.Ea + dH ^ 2 * (p.E4 - p.Ea) ^ 2) / (p.E4 - p.Ea) ^ 2 := by
    field_simp; ring
  rw [e1, e2]
  field_simp

/-- **C56** For a thermoneutral reaction the activation energy is the intrinsic one. -/
theorem effEa_zero (p : Par) (hE : 0 < p.Ea) (hw : p.Ea < p.E4) : effEa p 0 = p.Ea := by
  have h := effEa_mid p 0 hE hw (by linarith) (by linarith)
  have hw0 : 0 < p.E4 := hE.trans hw
  have hden : 16 * p.E4 ^ 3 * p.Ea + 0 ^ 2 * (p.E4 - p.Ea) ^ 2 ≠ 0 := by positivity
  apply mul_right_cancel₀ hden
  rw [h]
  ring

/-- **C56** The activation energy is never negative (bond energy at least twice the intrinsic
activation energy). -/
theorem effEa_nonneg (p : Par) (dH : ℝ) (hE : 0 < p.Ea) (hw : 2 * p.Ea ≤ p.E4) :
    0 ≤ effEa p dH := by
  by_cases h1 : dH < -4 * p.Ea
  · unfold effEa; rw [if_pos h1]
  by_cases h2 : dH > 4 * p.Ea
  · unfold effEa; rw [if_neg h1, if_pos h2]; linarith
  push Not at h1 h2
  have h := effEa_mid p dH hE (by linarith) h1 h2
  have hw0 : 0 < p.E4 := by linarith
  have hden : 0 < 16 * p.E4 ^ 3 * p.Ea + dH ^ 2 * (p.E4 - p.Ea) ^ 2 := by positivity
  have hnum : 0 ≤ (p.E4 + dH / 2) * (4 * p.E4 * p.Ea + dH * (p.E4 - p.Ea)) ^ 2 := by
    have : 0 ≤ p.E4 + dH / 2 := by linarith
    positivity
  rw [← h] at hnum
  exact nonneg_of_mul_nonneg_left hnum hden

/-- **C56** Reversing the reaction changes the activation energy by the enthalpy of reaction, in all
three branches: the rule is consistent with thermodynamics. -/
theorem effEa_reverse (p : Par) (dH : ℝ) (hE : 0 < p.Ea) (hw : p.Ea < p.E4) :
    effEa p dH - effEa p (-dH) = dH := by
  by_cases h1 : dH < -4 * p.Ea
  · have h2 : ¬ -dH < -4 * p.Ea := by linarith
    have h3 : -dH > 4 * p.Ea := by linarith
    unfold effEa; rw [if_pos h1, if_neg h2, if_pos h3]; ring
  by_cases h2 : dH > 4 * p.Ea
  · have h3 : -dH < -4 * p.Ea := by linarith
    unfold effEa; rw [if_neg h1, if_pos h2, if_pos h3]; ring
  push Not at h1 h2
  have ha := effEa_mid p dH hE hw h1 h2
  have hb := effEa_mid p (-dH) hE hw (by linarith) (by linarith)
  have hw0 : 0 < p.E4 := hE.trans hw
  have hden : 16 * p.E4 ^ 3 * p.Ea + dH ^ 2 * (p.E4 - p.Ea) ^ 2 ≠ 0 := by positivity
  apply mul_right_cancel₀ hden
  linear_combination ha - hb

/-- Limit of the rule: at the ends of the middle branch the activation energy differs from that of the
outer branches by a small amount, the rate jumps there. -/
theorem effEa_end (p : Par) (hE : 0 < p.Ea) (hw : p.Ea < p.E4) :
    effEa p (-4 * p.Ea) * (p.E4 ^ 3 + p.Ea * (p.E4 - p.Ea) ^ 2) = (p.E4 - 2 * p.Ea) * p.Ea ^ 3 ∧
    ∀ d > 0, effEa p (-4 * p.Ea - d) = 0 := by
  constructor
  · have h := effEa_mid p (-4 * p.Ea) hE hw le_rfl (by linarith)
    have h16 : (16 * p.Ea) ≠ 0 := by linarith
    apply mul_left_cancel₀ h16
    linear_combination h
  · intro d hd
    unfold effEa
    rw [if_pos (by linarith)]

/-! ## Examples -/

example : HasDerivAt (eval ⟨10, 2, 500, 0⟩) (eval ⟨10, 2, 500, 0⟩ 1000 * ddTScaled ⟨10, 2, 500, 0⟩ 1000)
    1000 := arrhenius_ddT _ _ (by norm_num)

example : ddTScaled ⟨10, 2, 500, 0⟩ 1000 = 5 / 2000 := by norm_num [ddTScaled]

example : effEa ⟨1, 0, 100, 1000⟩ 0 = 100 := effEa_zero _ (by norm_num) (by norm_num)

example : effEa ⟨1, 0, 100, 1000⟩ 200 - effEa ⟨1, 0, 100, 1000⟩ (-200) = 200 :=
  effEa_reverse _ _ (by norm_num) (by norm_num)

example : effEa ⟨1, 0, 100, 1000⟩ (-4 * 100) ≠ 0 := by
  have h := (effEa_end ⟨1, 0, 100, 1000⟩ (by norm_num) (by norm_num)).1
  intro h0
  simp only at h
  rw [h0] at h
  norm_num at h

example : deltaH 2 (bmCoeffs [(0, 1), (1, 2)] [(2, 1)]) (fun k => k) = 0 := by
  rw [deltaH_eq]; norm_num

end Verif.Rates.Arrhenius
