import Verif.Thermo.VpssIdeal
import Mathlib.Analysis.Calculus.Deriv.Add
import Mathlib.Analysis.Calculus.Deriv.Mul
import Mathlib.Tactic.FieldSimp
import Mathlib.Tactic.Linarith

/-!
# C101: theorems on ideal solutions of species with pressure dependent standard states
-/

namespace Verif.VpssIdeal

open Finset

variable {n : ℕ}

/-- `sum_xlogx` is the sum of `X ln X` unless fractions are tiny. -/
theorem sumXlogX_eq {M X : Fin n → ℝ} (hX : ∑ k, X k = 1) (hm : 0 < ∑ k, X k * M k)
    (ht : ∀ k, X k = 0 ∨ (0 < X k ∧ 1 / 10 ^ 300 ≤ X k / ∑ j, X j * M j)) :
    sumXlogX M X = ∑ k, X k * Real.log (X k) := by
  have hm' : 0 < mmw M X := hm
  unfold sumXlogX
  have e : ∀ k, X k / mmw M X * Real.log (max (X k / mmw M X) small)
      = (X k * Real.log (X k) - X k * Real.log (mmw M X)) / mmw M X := by
    intro k
    rcases ht k with h | ⟨h1, h2⟩
    · simp [h]
    · rw [max_eq_left (show small ≤ X k / mmw M X from h2), Real.log_div h1.ne' hm'.ne']
      ring
  simp only [e]
  rw [← Finset.sum_div, mul_div_cancel₀ _ hm'.ne', Finset.sum_sub_distrib, ← Finset.sum_mul, hX]
  ring

/-- Molar properties are the averages of the partial molar ones, and G = H - T S. -/
theorem averages {M X h s : Fin n → ℝ} (T : ℝ) (hX : ∑ k, X k = 1) (hm : 0 < ∑ k, X k * M k)
    (ht : ∀ k, X k = 0 ∨ (1 / 10 ^ 300 ≤ X k ∧ 1 / 10 ^ 300 ≤ X k / ∑ j, X j * M j)) :
    (∑ k, X k * hbar T h k = enthalpy T X h) ∧ (∑ k, X k * sbar X s k = entropy M X s) ∧
    (∑ k, X k * chemPot T X h s k = enthalpy T X h - T * entropy M X s) := by
  have hs := sumXlogX_eq (M := M) hX hm (fun k => (ht k).imp_right fun q =>
    ⟨lt_of_lt_of_le (by positivity) q.1, q.2⟩)
  have hl : ∀ k, X k * Real.log (max small (X k)) = X k * Real.log (X k) := by
    intro k
    rcases ht k with q | ⟨q, -⟩
    · simp [q]
    · rw [max_eq_right (show small ≤ X k from q)]
  refine ⟨?_, ?_, ?_⟩
  · simp only [hbar, enthalpy, meanX, Finset.mul_sum]
    exact Finset.sum_congr rfl fun k _ => by ring
  · simp only [entropy, hs, meanX, sbar]
    rw [← Finset.sum_sub_distrib, Finset.mul_sum]
    refine Finset.sum_congr rfl fun k _ => ?_
    linear_combination (-Rg) * hl k
  · simp only [entropy, enthalpy, hs, meanX, chemPot]
    rw [← Finset.sum_sub_distrib, Finset.mul_sum, Finset.mul_sum, Finset.mul_sum, ← Finset.sum_sub_distrib]
    refine Finset.sum_congr rfl fun k _ => ?_
    linear_combination (Rg * T) * hl k

/-- Species by species the chemical potential is enthalpy less temperature times entropy, for all fractions. -/
theorem species_gibbs (T : ℝ) (X h s : Fin n → ℝ) (k : Fin n) :
    chemPot T X h s k = hbar T h k - T * sbar X s k := by
  unfold chemPot hbar sbar
  ring

/-- Formulas. -/
theorem formulas (T : ℝ) (X h s c : Fin n → ℝ) (k : Fin n) :
    hbar T h k = 8314.46261815324 * T * h k ∧
    (1 / 10 ^ 300 ≤ X k → chemPot T X h s k = 8314.46261815324 * T * (h k - s k + Real.log (X k))) ∧
    cp X c = 8314.46261815324 * ∑ k, X k * c k ∧ cv X c = cp X c - 8314.46261815324 := by
  refine ⟨rfl, fun q => ?_, rfl, rfl⟩
  unfold chemPot
  rw [max_eq_right (show small ≤ X k from q), ← show Rg = 8314.46261815324 from rfl]
  ring

/-- Internal energies average to enthalpy less pressure times the mean volume. -/
theorem energy {X h V : Fin n → ℝ} {T : ℝ} (P : ℝ) (hT : T ≠ 0) :
    ∑ k, X k * ubar T P h V k = enthalpy T X h - P * ∑ k, X k * V k := by
  have hR : Rg ≠ 0 := by norm_num [Rg]
  simp only [ubar, enthalpy, meanX, Finset.mul_sum]
  rw [← Finset.sum_sub_distrib]
  refine Finset.sum_congr rfl fun k _ => ?_
  field_simp

/-- cv_mole is refuted for species of constant volume: the molar volume is constant when the temperature changes
at constant pressure, and the energy then grows with `cp_mole`, which is not `cv_mole`. -/
theorem cv_wrong {X c : Fin n → ℝ} {v : Fin n → ℝ} {H : Fin n → ℝ → ℝ} (P T : ℝ)
    (hH : ∀ k, HasDerivAt (H k) (8314.46261815324 * c k) T) :
    HasDerivAt (fun t => ∑ k, X k * H k t - P * ∑ k, X k * v k) (cp X c) T ∧ cv X c ≠ cp X c := by
  constructor
  · have e : cp X c = ∑ k, X k * (8314.46261815324 * c k) := by
      simp only [cp, meanX, Finset.mul_sum, Rg]
      exact Finset.sum_congr rfl fun k _ => by ring
    rw [e]
    refine HasDerivAt.sub_const _ ?_
    exact HasDerivAt.fun_sum fun k _ => (hH k).const_mul (X k)
  · unfold cv Rg
    intro h
    norm_num at h

/-! ## Concentrations -/

/-- Activities are mole fractions in all three forms. -/
theorem activity {form : ℕ} (hf : form ≤ 2) {X V old : Fin (n + 1) → ℝ} (hV : ∀ k, V k ≠ 0) (k : Fin (n + 1)) :
    actConc form X V old k / stdConc form V k = X k := by
  have h1 := hV k
  have h2 := hV 0
  match form, hf with
  | 0, _ => simp [actConc, stdConc]
  | 1, _ => simp only [actConc, stdConc]; field_simp
  | 2, _ => simp only [actConc, stdConc]; field_simp

theorem actConc_forms (X V old : Fin (n + 1) → ℝ) (k : Fin (n + 1)) :
    actConc 0 X V old k = X k ∧ actConc 1 X V old k = X k / V k ∧ actConc 2 X V old k = X k / V 0 :=
  ⟨rfl, rfl, rfl⟩

/-- Units: if volumes are measured in units `l³/q` the standard concentration scales as the units say. -/
theorem units {form : ℕ} (hf : form ≤ 2) (V : Fin (n + 1) → ℝ) (k : Fin (n + 1)) (l q : ℝ) :
    stdConc form (fun j => V j * (l ^ 3 / q)) k =
      stdConc form V k * l ^ (stdConcUnits form).1 * q ^ (stdConcUnits form).2 := by
  have e : l ^ (-3 : ℤ) = (l ^ 3)⁻¹ := by
    rw [zpow_neg]
    rfl
  match form, hf with
  | 0, _ => simp [stdConc, stdConcUnits]
  | 1, _ =>
    simp only [stdConc, stdConcUnits, ne_eq, one_ne_zero, not_false_eq_true, if_true, e, zpow_one]
    rw [one_div, one_div, mul_inv, inv_div]
    ring
  | 2, _ =>
    simp only [stdConc, stdConcUnits, ne_eq, OfNat.ofNat_ne_zero, not_false_eq_true, if_true, e, zpow_one]
    rw [one_div, one_div, mul_inv, inv_div]
    ring

/-- What getParameters writes, initThermo reads back. -/
theorem model_roundtrip {eqi : String → String → Bool} (hr : ∀ s, eqi s s = true)
    (h1 : eqi "species-molar-volume" "unity" = false) (h2 : eqi "solvent-molar-volume" "unity" = false)
    (h3 : eqi "solvent-molar-volume" "species-molar-volume" = false)
    (h4 : eqi "solvent-molar-volume" "molar_volume" = false) {m : String} {f : ℕ} (h : setModel eqi m = some f) :
    initModel eqi (getModel f) = some f := by
  have hf : f = 0 ∨ f = 1 ∨ f = 2 := by
    unfold setModel at h
    split_ifs at h <;> simp at h <;> omega
  rcases hf with rfl | rfl | rfl <;> simp [initModel, getModel, setModel, hr, h1, h2, h3, h4]

theorem model_unknown {eqi : String → String → Bool} {m : String} (h : setModel eqi m = none) :
    eqi m "unity" = false ∧ eqi m "species-molar-volume" = false ∧ eqi m "molar_volume" = false ∧
    eqi m "solvent-molar-volume" = false ∧ eqi m "solvent_volume" = false := by
  unfold setModel at h
  split_ifs at h with a b c
  simp_all

/-! ## State -/

variable {M : Fin n → ℝ} {V : Fin n → ℝ → ℝ → ℝ}

/-- After a successful setter the density is mean weight over mean volume at the new state. -/
theorem setTP_ok {t p : ℝ} {s s' : St n} (h : setTP M V t p s = (s', some ())) :
    0 < t ∧ s'.T = t ∧ s'.P = p ∧ s'.X = s.X ∧ 0 < s'.dens ∧
    s'.dens = (∑ k, s.X k * M k) / ∑ k, s.X k * V k t p := by
  unfold setTP calcDensity at h
  simp only at h
  split_ifs at h with h1 h2
  · simp only [Prod.mk.injEq, and_true] at h
    subst h
    exact ⟨h1, rfl, rfl, rfl, h2, rfl⟩
  · simp at h
  · simp at h

theorem setPressure_ok {p : ℝ} {s s' : St n} (h : setPressure M V p s = (s', some ())) :
    s'.T = s.T ∧ s'.P = p ∧ s'.X = s.X ∧ 0 < s'.dens ∧
    s'.dens = (∑ k, s.X k * M k) / ∑ k, s.X k * V k s.T p := by
  unfold setPressure calcDensity at h
  simp only at h
  split_ifs at h with h2
  · simp only [Prod.mk.injEq, and_true] at h
    subst h
    exact ⟨rfl, rfl, rfl, h2, rfl⟩
  · simp at h

theorem setT_ok {t : ℝ} {s s' : St n} (h : setT M V t s = (s', some ())) :
    s'.T = t ∧ s'.P = s.P ∧ s'.dens = (∑ k, s.X k * M k) / ∑ k, s.X k * V k t s.P := by
  obtain ⟨-, h1, h2, -, -, h3⟩ := setTP_ok h
  exact ⟨h1, h2, h3⟩

/-- Positive weights and volumes always give a state. -/
theorem setTP_total {t p : ℝ} (ht : 0 < t) {s : St n} (hm : 0 < ∑ k, s.X k * M k)
    (hv : 0 < ∑ k, s.X k * V k t p) : (setTP M V t p s).2 = some () := by
  unfold setTP calcDensity
  rw [if_pos ht]
  simp only
  rw [if_pos (show 0 < mmw M s.X / meanX s.X (fun k => V k t p) from div_pos hm hv)]

/-- A state whose density is refused: pressure and temperature are changed, the density is the old one. -/
theorem setTP_refused {t p : ℝ} (ht : 0 < t) {s : St n}
    (hv : (∑ k, s.X k * M k) / ∑ k, s.X k * V k t p ≤ 0) :
    setTP M V t p s = ({ s with T := t, P := p }, none) := by
  unfold setTP calcDensity
  rw [if_pos ht]
  simp only
  rw [if_neg (not_lt.2 (show mmw M s.X / meanX s.X (fun k => V k t p) ≤ 0 from hv))]

/-- A temperature that is not positive changes nothing. -/
theorem setTP_bad {t : ℝ} (p : ℝ) (ht : t ≤ 0) (s : St n) : setTP M V t p s = (s, none) := by
  simp [setTP, not_lt.2 ht]

/-- A change of composition leaves the density of the old one: refuted by two species of different volume. -/
theorem stale_density : ∃ (M : Fin 2 → ℝ) (V : Fin 2 → ℝ → ℝ → ℝ) (s0 s1 : St 2) (x : Fin 2 → ℝ),
    setTP M V 300 101325 s0 = (s1, some ()) ∧ (setX x s1).dens = s1.dens ∧
    (setX x s1).dens ≠ (∑ k, x k * M k) / ∑ k, x k * V k s1.T s1.P := by
  refine ⟨![1, 1], ![fun _ _ => 1, fun _ _ => 2], ⟨300, 1, ![1, 0], 5⟩, ⟨300, 101325, ![1, 0], 1⟩, ![0, 1], ?_, rfl, ?_⟩
  · simp [setTP, calcDensity, mmw, meanX]
  · simp [setX]

/-- A following setPressure to the same pressure corrects it. -/
theorem fresh_density {p : ℝ} {s s' : St n} {x : Fin n → ℝ} (h : setPressure M V p (setX x s) = (s', some ())) :
    s'.X = x ∧ s'.dens = (∑ k, x k * M k) / ∑ k, x k * V k s.T p :=
  ⟨(setPressure_ok h).2.2.1, (setPressure_ok h).2.2.2.2⟩

/-! ## Equilibrium state -/

theorem partialP_cases (p0 : ℝ) (g0 mu : Fin n → ℝ) (k : Fin n) :
    (mu k - g0 k < -600 → partialP p0 g0 mu k = 0) ∧
    (-600 ≤ mu k - g0 k → mu k - g0 k ≤ 500 → partialP p0 g0 mu k = p0 * Real.exp (mu k - g0 k)) ∧
    (500 < mu k - g0 k → partialP p0 g0 mu k = p0 * Real.exp 500 * ((mu k - g0 k) / 500) ^ 2) := by
  have e : -g0 k + mu k = mu k - g0 k := by ring
  unfold partialP
  simp only [e]
  refine ⟨fun h => if_pos h, fun h1 h2 => ?_, fun h => ?_⟩
  · rw [if_neg (not_lt.2 h1), if_neg (not_lt.2 h2)]
  · rw [if_neg (by linarith), if_pos h]
    ring

theorem partialP_nonneg {p0 : ℝ} (h : 0 ≤ p0) (g0 mu : Fin n → ℝ) (k : Fin n) : 0 ≤ partialP p0 g0 mu k := by
  unfold partialP
  simp only
  split_ifs
  · exact le_refl _
  · exact mul_nonneg (mul_nonneg h (Real.exp_pos _).le) (mul_self_nonneg _)
  · exact mul_nonneg h (Real.exp_pos _).le

/-- With a positive reference pressure and a species in range: pressure is the sum of the partial pressures,
fractions sum to one, and the potentials of species in range are those asked for, if their standard potential is
that of an ideal gas. -/
theorem equil_ok {p0 : ℝ} (hp : 0 < p0) {g0 mu : Fin n → ℝ} {s s' : St n}
    (h : setToEquil M V p0 g0 mu s = some (s', some ())) :
    s'.P = ∑ k, partialP p0 g0 mu k ∧ ∑ k, s'.X k = 1 ∧ (∀ k, s'.X k * s'.P = partialP p0 g0 mu k) ∧
    ∀ k, -600 ≤ mu k - g0 k → mu k - g0 k ≤ 500 → g0 k + Real.log (s'.P / p0) + Real.log (s'.X k) = mu k := by
  unfold setToEquil at h
  simp only at h
  split_ifs at h with h0
  simp only [Option.some.injEq] at h
  obtain ⟨-, h2, h3, -, -⟩ := setPressure_ok h
  have hx : ∀ k, s'.X k = partialP p0 g0 mu k / ∑ j, partialP p0 g0 mu j := by
    intro k
    rw [h3]
    rfl
  have hpos : 0 < ∑ j, partialP p0 g0 mu j :=
    lt_of_le_of_ne (Finset.sum_nonneg fun k _ => partialP_nonneg hp.le g0 mu k) (Ne.symm h0)
  have hm : ∀ k, s'.X k * s'.P = partialP p0 g0 mu k := by
    intro k
    rw [hx, h2, div_mul_cancel₀ _ h0]
  refine ⟨h2, ?_, hm, fun k a b => ?_⟩
  · simp only [hx]
    rw [← Finset.sum_div, div_self h0]
  · have hq := (partialP_cases p0 g0 mu k).2.1 a b
    have hqp : 0 < partialP p0 g0 mu k := by rw [hq]; exact mul_pos hp (Real.exp_pos _)
    have hxp : 0 < s'.X k := by rw [hx]; exact div_pos hqp hpos
    have hPp : 0 < s'.P := by rw [h2]; exact hpos
    have e : Real.log (s'.P / p0) + Real.log (s'.X k) = mu k - g0 k := by
      rw [← Real.log_mul (div_pos hPp hp).ne' hxp.ne', show s'.P / p0 * s'.X k = s'.X k * s'.P / p0 by ring, hm, hq,
        mul_div_cancel_left₀ _ hp.ne', Real.log_exp]
    linarith

/-- The first species sets the reference pressure; later ones must agree within 1e-6 and leave it. -/
theorem installP0_eq (p0 pref : ℝ) : installP0 0 pref = some pref ∧
    (p0 ≠ 0 → |p0 - pref| ≤ 1e-6 → installP0 p0 pref = some p0) ∧
    (p0 ≠ 0 → 1e-6 < |p0 - pref| → installP0 p0 pref = none) := by
  refine ⟨by simp [installP0], fun h0 h => ?_, fun h0 h => ?_⟩
  · unfold installP0
    rw [if_neg h0, if_neg (not_lt.2 h)]
  · unfold installP0
    rw [if_neg h0, if_pos h]

example : installP0 0 101325 = some 101325 := (installP0_eq 0 101325).1

/-- The reference pressure of these phases is zero, however many species they have. -/
theorem refPressure_zero (m : ℕ) : refPressure m = some 0 := by
  induction m with
  | zero => rfl
  | succ m ih => simp [refPressure, ih, installP0]

/-- Therefore setToEquilState never gives a state. -/
theorem equil_never {p0 : ℝ} (h : refPressure n = some p0) (g0 mu : Fin n → ℝ) (s : St n) :
    setToEquil M V p0 g0 mu s = none := by
  rw [refPressure_zero] at h
  simp only [Option.some.injEq] at h
  subst h
  have e : ∀ k, partialP 0 g0 mu k = 0 := by
    intro k
    unfold partialP
    simp
  simp [setToEquil, e]

/-- All species far below: no state either, for any reference pressure. -/
theorem equil_underflow (p0 : ℝ) {g0 mu : Fin n → ℝ} (h : ∀ k, mu k - g0 k < -600) (s : St n) :
    setToEquil M V p0 g0 mu s = none := by
  have e : ∀ k, partialP p0 g0 mu k = 0 := fun k => (partialP_cases p0 g0 mu k).1 (h k)
  simp [setToEquil, e]

/-- With condensed species, whose standard potential does not contain the pressure logarithm, the potentials are
not those asked for. -/
theorem equil_condensed : ∃ (s s' : St 1) (g0 mu : Fin 1 → ℝ),
    setToEquil (fun _ => 1) (fun _ _ _ => 1) 100000 g0 mu s = some (s', some ()) ∧
    g0 0 + Real.log (s'.X 0) ≠ mu 0 := by
  have e : partialP 100000 (fun _ : Fin 1 => (0 : ℝ)) (fun _ => 1) = fun _ => 100000 * Real.exp 1 := by
    funext k
    have := (partialP_cases 100000 (fun _ : Fin 1 => (0 : ℝ)) (fun _ => 1) k).2.1 (by norm_num) (by norm_num)
    simpa using this
  have hne : (100000 : ℝ) * Real.exp 1 ≠ 0 := by positivity
  refine ⟨⟨300, 1, fun _ => 1, 1⟩, ⟨300, 100000 * Real.exp 1, fun _ => 1, 1⟩, fun _ => 0, fun _ => 1, ?_, ?_⟩
  · have := Real.exp_pos 1
    simp only [setToEquil, e, Finset.univ_unique, Finset.sum_singleton, if_neg hne, div_self hne]
    simp [setPressure, calcDensity, setX, mmw, meanX]
  · simp

example : sumXlogX (fun _ : Fin 1 => 1) (fun _ => 1) = ∑ k : Fin 1, (1 : ℝ) * Real.log 1 :=
  sumXlogX_eq (by simp) (by simp) (fun _ => Or.inr ⟨by norm_num, by
    simp only [Finset.univ_unique, Finset.sum_singleton, mul_one, div_one]
    exact div_le_one_of_le₀ (one_le_pow₀ (by norm_num)) (by positivity)⟩)
example : (setTP (fun _ : Fin 1 => 1) (fun _ _ _ => 1) 300 1 ⟨1, 1, fun _ => 1, 1⟩).2 = some () :=
  setTP_total (by norm_num) (by simp) (by simp)
example : refPressure 3 = some 0 := refPressure_zero 3

end Verif.VpssIdeal
