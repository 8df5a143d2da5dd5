import Verif.Thermo.IdealGas
import Mathlib.Analysis.SpecialFunctions.Log.Deriv
import Mathlib.Analysis.SpecialFunctions.Sqrt
import Mathlib.Algebra.BigOperators.Field
import Mathlib.Algebra.Order.BigOperators.Ring.Finset
import Mathlib.Tactic.Ring
import Mathlib.Tactic.Linarith
import Mathlib.Tactic.FieldSimp
import Mathlib.Tactic.NormNum
import Mathlib.Tactic.Positivity

/-!
# Ideal gas mixtures: theorems (C78)
-/

namespace Verif.IdealGas

/-- A proper state: positive temperature and density, mole fractions which add to one and are zero
or above the threshold of the logarithms. -/
structure Good (M : Mech) (x : St) : Prop where
  R : 0 < M.R
  p0 : 0 < M.p0
  W : ∀ k < M.n, 0 < M.W k
  T : 0 < x.T
  ρ : 0 < x.ρ
  X : ∀ k < M.n, 0 ≤ x.X k
  sum : ∑ k ∈ Finset.range M.n, x.X k = 1

/-- No mole fraction is positive but below the thresholds. -/
def NoTrace (M : Mech) (x : St) : Prop :=
  ∀ k < M.n, x.X k = 0 ∨ (small ≤ x.X k ∧ small ≤ x.X k / mmw M x)

variable {M : Mech} {x : St}

theorem small_pos : 0 < small := by unfold small; positivity

theorem mmw_pos (h : Good M x) : 0 < mmw M x := by
  unfold mmw
  have hne : ∃ k ∈ Finset.range M.n, 0 < x.X k := by
    by_contra hc
    push Not at hc
    have : ∑ k ∈ Finset.range M.n, x.X k ≤ 0 := Finset.sum_nonpos hc
    rw [h.sum] at this; linarith
  obtain ⟨k, hk, hx⟩ := hne
  refine Finset.sum_pos' (fun i hi => mul_nonneg (h.X i (Finset.mem_range.1 hi))
    (h.W i (Finset.mem_range.1 hi)).le) ⟨k, hk, mul_pos hx (h.W k (Finset.mem_range.1 hk))⟩

/-- `mean_X` is the average with the mole fractions. -/
theorem meanX_eq (h : Good M x) (Q : ℕ → ℝ) :
    meanX M x Q = ∑ k ∈ Finset.range M.n, x.X k * Q k := by
  have hm := mmw_pos h
  unfold meanX ym
  rw [Finset.mul_sum]
  refine Finset.sum_congr rfl (fun k _ => ?_)
  field_simp

/-- `sum_xlogx` is the sum of `X ln X`. -/
theorem sumXLogX_eq (h : Good M x) (ht : NoTrace M x) :
    sumXLogX M x = ∑ k ∈ Finset.range M.n, x.X k * Real.log (x.X k) := by
  have hm := mmw_pos h
  unfold sumXLogX ym
  have : ∀ k ∈ Finset.range M.n,
      mmw M x * (x.X k / mmw M x * Real.log (max (x.X k / mmw M x) small)) =
        x.X k * Real.log (x.X k) - x.X k * Real.log (mmw M x) := by
    intro k hk
    rcases ht k (Finset.mem_range.1 hk) with h0 | ⟨h1, h2⟩
    · rw [h0]; simp
    · have hx : 0 < x.X k := lt_of_lt_of_le small_pos h1
      rw [max_eq_left h2, Real.log_div hx.ne' hm.ne']
      field_simp
  rw [Finset.mul_sum, Finset.sum_congr rfl this, Finset.sum_sub_distrib, ← Finset.sum_mul, h.sum]
  ring

/-- Ideal gas law: `p v = R T`. -/
theorem gas_law (h : Good M x) : pressure M x * molarVolume M x = M.R * x.T := by
  have hm := mmw_pos h
  have hρ := h.ρ
  unfold pressure molarVolume molarDensity
  field_simp

theorem pressure_eq : pressure M x = M.R * x.T * x.ρ / mmw M x := by
  unfold pressure molarDensity; ring

theorem pressure_pos (h : Good M x) : 0 < pressure M x := by
  rw [pressure_eq]
  have := mmw_pos h; have := h.R; have := h.T; have := h.ρ
  positivity

/-- Setting the pressure: the pressure read back is the one set; temperature and composition are
kept; a pressure which is not positive is rejected. -/
theorem setPressure_spec (h : Good M x) (p : ℝ) :
    (0 < p → ∃ x', setPressure M x p = some x' ∧ pressure M x' = p ∧ x'.T = x.T ∧ x'.X = x.X ∧
      Good M x') ∧
    (p ≤ 0 → setPressure M x p = none) := by
  have hm := mmw_pos h
  have hR := h.R
  have hT := h.T
  constructor
  · intro hp
    have hρ : 0 < p * mmw M x / RT M x := by unfold RT; positivity
    refine ⟨{ x with ρ := p * mmw M x / RT M x }, by simp only [setPressure, hρ, if_true], ?_, rfl,
      rfl, ?_⟩
    · rw [pressure_eq]
      show M.R * x.T * (p * mmw M x / RT M x) / mmw M x = p
      unfold RT; field_simp
    · exact ⟨h.R, h.p0, h.W, h.T, hρ, h.X, h.sum⟩
  · intro hp
    have : ¬ (0 < p * mmw M x / RT M x) := by
      rw [not_lt]
      refine div_nonpos_of_nonpos_of_nonneg (mul_nonpos_of_nonpos_of_nonneg hp hm.le) ?_
      unfold RT; positivity
    simp only [setPressure, this, if_false]

/-- Setting density and pressure. -/
theorem setStateDP_spec (h : Good M x) (ρ p : ℝ) :
    (0 < ρ → 0 < p → (setStateDP M x ρ p).2 = true ∧ (setStateDP M x ρ p).1.ρ = ρ ∧
      pressure M (setStateDP M x ρ p).1 = p ∧ (setStateDP M x ρ p).1.X = x.X ∧
      Good M (setStateDP M x ρ p).1) ∧
    ((p ≤ 0 ∨ ρ ≤ 0) → setStateDP M x ρ p = (x, false)) := by
  have hm := mmw_pos h
  have hR := h.R
  constructor
  · intro hρ hp
    have hT : 0 < p * mmw M x / (M.R * ρ) := by positivity
    simp only [setStateDP, not_le.2 hp, hρ, hT, if_true, if_false]
    refine ⟨trivial, trivial, ?_, trivial, ⟨h.R, h.p0, h.W, hT, hρ, h.X, h.sum⟩⟩
    rw [pressure_eq]
    show M.R * (p * mmw M x / (M.R * ρ)) * ρ / mmw M x = p
    field_simp
  · intro hc
    unfold setStateDP
    by_cases hp : p ≤ 0
    · simp [hp]
    · simp [hp, not_lt.2 (hc.resolve_left hp)]

theorem log_max (ht : NoTrace M x) (k : ℕ) (hk : k < M.n) :
    x.X k * Real.log (max small (x.X k)) = x.X k * Real.log (x.X k) := by
  rcases ht k hk with h0 | ⟨h1, -⟩
  · rw [h0]; simp
  · rw [max_eq_right h1]

/-! ## Averages of the partial molar properties -/

theorem sum_pmEnthalpy (h : Good M x) :
    ∑ k ∈ Finset.range M.n, x.X k * pmEnthalpy M x k = enthalpyMole M x := by
  unfold enthalpyMole pmEnthalpy
  rw [meanX_eq h, Finset.mul_sum]
  exact Finset.sum_congr rfl (fun k _ => by ring)

theorem sum_pmEntropy (h : Good M x) (ht : NoTrace M x) :
    ∑ k ∈ Finset.range M.n, x.X k * pmEntropy M x k = entropyMole M x := by
  unfold entropyMole pmEntropy
  rw [meanX_eq h, sumXLogX_eq h ht]
  have : ∀ k ∈ Finset.range M.n, x.X k * (M.R * M.s k x.T + M.R *
      (-Real.log (pressure M x / M.p0) - Real.log (max small (x.X k)))) =
      M.R * (x.X k * M.s k x.T) - M.R * (x.X k * Real.log (x.X k)) -
        M.R * Real.log (pressure M x / M.p0) * x.X k := by
    intro k hk
    have := log_max ht k (Finset.mem_range.1 hk)
    linear_combination (-M.R) * this
  rw [Finset.sum_congr rfl this, Finset.sum_sub_distrib, Finset.sum_sub_distrib, ← Finset.mul_sum,
    ← Finset.mul_sum, ← Finset.mul_sum, h.sum]
  ring

theorem sum_pmCp (h : Good M x) :
    ∑ k ∈ Finset.range M.n, x.X k * pmCp M x k = cpMole M x := by
  unfold cpMole pmCp
  rw [meanX_eq h, Finset.mul_sum]
  exact Finset.sum_congr rfl (fun k _ => by ring)

theorem sum_pmVolume (h : Good M x) :
    ∑ k ∈ Finset.range M.n, x.X k * pmVolume M x k = molarVolume M x := by
  unfold molarVolume pmVolume
  rw [← Finset.sum_mul, h.sum, one_mul]

/-- Internal energy: `u = h - R T`. -/
theorem intEnergy_eq (h : Good M x) : intEnergyMole M x = enthalpyMole M x - M.R * x.T := by
  unfold intEnergyMole; rw [gas_law h]

theorem sum_pmIntEnergy (h : Good M x) :
    ∑ k ∈ Finset.range M.n, x.X k * pmIntEnergy M x k = intEnergyMole M x := by
  rw [intEnergy_eq h, ← sum_pmEnthalpy h]
  unfold pmIntEnergy pmEnthalpy RT
  have : ∀ k ∈ Finset.range M.n, x.X k * (x.T * M.R * (M.h k x.T - 1)) =
      x.X k * (x.T * M.R * M.h k x.T) - x.T * M.R * x.X k := fun k _ => by ring
  rw [Finset.sum_congr rfl this, Finset.sum_sub_distrib, ← Finset.mul_sum, h.sum]
  ring

/-- For each species `μ = h - T s`, for every state. -/
theorem chemPot_eq (k : ℕ) :
    chemPot M x k = pmEnthalpy M x k - x.T * pmEntropy M x k := by
  unfold chemPot stdChemPot pmEnthalpy pmEntropy RT g; ring

/-- `g = h - T s`. -/
theorem gibbs_eq (h : Good M x) (ht : NoTrace M x) :
    gibbsMole M x = enthalpyMole M x - x.T * entropyMole M x := by
  unfold gibbsMole
  rw [meanX_eq h, ← sum_pmEnthalpy h, ← sum_pmEntropy h ht, Finset.mul_sum,
    ← Finset.sum_sub_distrib]
  exact Finset.sum_congr rfl (fun k _ => by rw [chemPot_eq]; ring)

/-- The explicit chemical potential. -/
theorem chemPot_explicit (k : ℕ) (hx : small ≤ x.X k) :
    chemPot M x k = M.R * x.T * (M.h k x.T - M.s k x.T + Real.log (pressure M x / M.p0) +
      Real.log (x.X k)) := by
  unfold chemPot stdChemPot RT g; rw [max_eq_right hx]; ring

/-- Activity: concentration over standard concentration is the mole fraction. -/
theorem activity_eq (h : Good M x) (k : ℕ) :
    activityConcentration M x k / standardConcentration M x = x.X k := by
  have hm := mmw_pos h
  have := h.R; have := h.T; have := h.ρ
  unfold activityConcentration standardConcentration ym RT
  rw [pressure_eq]
  field_simp

/-- Chemical potential from standard potential and activity. -/
theorem chemPot_activity (h : Good M x) (k : ℕ) (hx : small ≤ x.X k) :
    chemPot M x k = stdChemPot M x k +
      M.R * x.T * Real.log (activityConcentration M x k / standardConcentration M x) := by
  rw [activity_eq h]
  unfold chemPot RT; rw [max_eq_right hx]; ring

/-- The standard state properties agree: `g = h - T s`, `u = h - p v`. -/
theorem standard_state (h : Good M x) (k : ℕ) :
    stdGibbsRT M x k = M.h k x.T - stdEntropyR M x k ∧
    stdChemPot M x k = RT M x * stdGibbsRT M x k ∧ pureGibbs M x k = stdChemPot M x k ∧
    stdIntEnergyRT M x k = M.h k x.T - pressure M x * pmVolume M x k / RT M x := by
  refine ⟨?_, ?_, rfl, ?_⟩
  · unfold stdGibbsRT stdEntropyR g; ring
  · unfold stdChemPot stdGibbsRT; ring
  · have hl := gas_law h
    have : pmVolume M x k = molarVolume M x := rfl
    rw [this, hl]
    have := h.R; have := h.T
    unfold stdIntEnergyRT RT
    field_simp

/-- The reference volume is that of the ideal gas at the reference pressure. -/
theorem stdVolumeRef_eq (h : Good M x) (k : ℕ) :
    stdVolumeRef M x k = M.R * x.T / M.p0 ∧
      stdVolumeRef M x k * M.p0 = pmVolume M x k * pressure M x := by
  have hl := gas_law h
  have hp0 := h.p0
  constructor
  · unfold stdVolumeRef RT; ring
  · have : pmVolume M x k = molarVolume M x := rfl
    rw [this, mul_comm, mul_comm (molarVolume M x), hl]
    unfold stdVolumeRef RT; field_simp

/-- Mayer's relation. -/
theorem mayer : cpMole M x - cvMole M x = M.R := by unfold cvMole; ring

/-! ## Derivatives -/

/-- The state at temperature and pressure. -/
noncomputable def tp (M : Mech) (X : ℕ → ℝ) (T p : ℝ) : St :=
  ⟨T, p * (∑ k ∈ Finset.range M.n, X k * M.W k) / (M.R * T), X⟩

/-- The reference properties of a species belong together: `d(h T)/dT = cp`, `ds/dT = cp / T`
(proved for the parametrizations in C25). -/
def Consistent (M : Mech) (T : ℝ) : Prop :=
  ∀ k < M.n, HasDerivAt (fun t => M.h k t * t) (M.cp k T) T ∧ HasDerivAt (M.s k) (M.cp k T / T) T

/-- Composition of a proper state. -/
structure Comp (M : Mech) (X : ℕ → ℝ) : Prop where
  R : 0 < M.R
  p0 : 0 < M.p0
  W : ∀ k < M.n, 0 < M.W k
  pos : ∀ k < M.n, 0 ≤ X k
  sum : ∑ k ∈ Finset.range M.n, X k = 1

variable {X : ℕ → ℝ} {T p : ℝ}

theorem comp_good (h : Comp M X) (T ρ : ℝ) (hT : 0 < T) (hρ : 0 < ρ) : Good M ⟨T, ρ, X⟩ :=
  ⟨h.R, h.p0, h.W, hT, hρ, h.pos, h.sum⟩

theorem comp_mmw (h : Comp M X) : 0 < ∑ k ∈ Finset.range M.n, X k * M.W k :=
  mmw_pos (comp_good h 1 1 one_pos one_pos)

theorem tp_good (h : Comp M X) (hT : 0 < T) (hp : 0 < p) : Good M (tp M X T p) := by
  have := comp_mmw h; have := h.R
  exact comp_good h _ _ hT (by positivity)

theorem tp_pressure (h : Comp M X) (hT : 0 < T) : pressure M (tp M X T p) = p := by
  have := comp_mmw h; have := h.R
  rw [pressure_eq]
  show M.R * T * (p * (∑ k ∈ Finset.range M.n, X k * M.W k) / (M.R * T)) /
    (∑ k ∈ Finset.range M.n, X k * M.W k) = p
  field_simp

/-- Enthalpy at any density. -/
theorem enthalpy_fun (h : Comp M X) (T ρ : ℝ) (hT : 0 < T) (hρ : 0 < ρ) :
    enthalpyMole M ⟨T, ρ, X⟩ = M.R * ∑ k ∈ Finset.range M.n, X k * (M.h k T * T) := by
  unfold enthalpyMole
  rw [meanX_eq (comp_good h T ρ hT hρ), Finset.mul_sum, Finset.mul_sum]
  exact Finset.sum_congr rfl (fun k _ => by unfold RT; ring)

theorem cp_fun (h : Comp M X) (T ρ : ℝ) (hT : 0 < T) (hρ : 0 < ρ) :
    cpMole M ⟨T, ρ, X⟩ = M.R * ∑ k ∈ Finset.range M.n, X k * M.cp k T := by
  unfold cpMole
  rw [meanX_eq (comp_good h T ρ hT hρ)]

theorem hderiv (hc : Consistent M T) :
    HasDerivAt (fun t => M.R * ∑ k ∈ Finset.range M.n, X k * (M.h k t * t))
      (M.R * ∑ k ∈ Finset.range M.n, X k * M.cp k T) T :=
  (HasDerivAt.fun_sum (fun k hk => ((hc k (Finset.mem_range.1 hk)).1).const_mul (X k))).const_mul
    M.R

theorem sderiv (hc : Consistent M T) :
    HasDerivAt (fun t => ∑ k ∈ Finset.range M.n, X k * M.s k t)
      ((∑ k ∈ Finset.range M.n, X k * M.cp k T) / T) T := by
  have := HasDerivAt.fun_sum (u := Finset.range M.n)
    (fun k hk => ((hc k (Finset.mem_range.1 hk)).2).const_mul (X k))
  refine this.congr_deriv ?_
  rw [Finset.sum_div]
  exact Finset.sum_congr rfl (fun k _ => by ring)

/-- Heat capacity at constant pressure is the derivative of the enthalpy. -/
theorem deriv_enthalpy (h : Comp M X) (hT : 0 < T) (hp : 0 < p) (hc : Consistent M T) :
    HasDerivAt (fun t => enthalpyMole M (tp M X t p)) (cpMole M (tp M X T p)) T := by
  have hg := tp_good h hT hp
  rw [show cpMole M (tp M X T p) = _ from cp_fun h T _ hT hg.ρ]
  refine (hderiv hc).congr_of_eventuallyEq ?_
  filter_upwards [lt_mem_nhds hT] with t ht
  exact enthalpy_fun h t _ ht (tp_good h ht hp).ρ

/-- Heat capacity at constant volume is the derivative of the internal energy. -/
theorem deriv_intEnergy (h : Comp M X) (ρ : ℝ) (hT : 0 < T) (hρ : 0 < ρ) (hc : Consistent M T) :
    HasDerivAt (fun t => intEnergyMole M ⟨t, ρ, X⟩) (cvMole M ⟨T, ρ, X⟩) T := by
  unfold cvMole
  rw [cp_fun h T ρ hT hρ]
  have h1 := (hderiv (X := X) hc).sub ((hasDerivAt_id' T).const_mul M.R)
  rw [mul_one] at h1
  refine h1.congr_of_eventuallyEq ?_
  filter_upwards [lt_mem_nhds hT] with t ht
  rw [intEnergy_eq (comp_good h t ρ ht hρ), enthalpy_fun h t ρ ht hρ]
  rfl

/-- The entropy as a sum. -/
theorem entropy_fun (h : Comp M X) (T ρ : ℝ) (hT : 0 < T) (hρ : 0 < ρ) :
    entropyMole M ⟨T, ρ, X⟩ = M.R * ((∑ k ∈ Finset.range M.n, X k * M.s k T) -
      sumXLogX M ⟨1, 1, X⟩ - Real.log (pressure M ⟨T, ρ, X⟩ / M.p0)) := by
  unfold entropyMole
  rw [meanX_eq (comp_good h T ρ hT hρ)]
  rfl

theorem deriv_entropy_T (h : Comp M X) (hT : 0 < T) (hp : 0 < p) (hc : Consistent M T) :
    HasDerivAt (fun t => entropyMole M (tp M X t p)) (cpMole M (tp M X T p) / T) T := by
  have hg := tp_good h hT hp
  rw [show cpMole M (tp M X T p) = _ from cp_fun h T _ hT hg.ρ]
  have h1 := (((sderiv (X := X) hc).sub_const (sumXLogX M ⟨1, 1, X⟩)).sub_const
    (Real.log (p / M.p0))).const_mul M.R
  refine (h1.congr_deriv (by ring)).congr_of_eventuallyEq ?_
  filter_upwards [lt_mem_nhds hT] with t ht
  have := entropy_fun h t _ ht (tp_good h ht hp).ρ
  have hpr := tp_pressure (p := p) h ht
  unfold tp at this hpr ⊢
  rw [this, hpr]

/-- The entropy falls with the pressure by `R / p`, which is `v β`. -/
theorem deriv_entropy_p (h : Comp M X) (hT : 0 < T) (hp : 0 < p) :
    HasDerivAt (fun q => entropyMole M (tp M X T q))
      (-(molarVolume M (tp M X T p) * thermalExpansion (tp M X T p))) p := by
  have hg := tp_good h hT hp
  have hl := gas_law hg
  rw [tp_pressure h hT] at hl
  have hv : molarVolume M (tp M X T p) = M.R * T / p := by
    have : (tp M X T p).T = T := rfl
    rw [this] at hl
    field_simp; linarith
  have hp0 := h.p0
  have h1 : HasDerivAt (fun q => M.R * ((∑ k ∈ Finset.range M.n, X k * M.s k T) -
      sumXLogX M ⟨1, 1, X⟩ - Real.log (q / M.p0))) (M.R * (- (1 / M.p0 / (p / M.p0)))) p := by
    have := ((hasDerivAt_id' p).div_const M.p0).log (by positivity)
    exact ((this.const_sub _).const_mul M.R)
  refine (h1.congr_deriv ?_).congr_of_eventuallyEq ?_
  · rw [hv]; unfold thermalExpansion
    show _ = -(M.R * T / p * (1 / T))
    field_simp
  · filter_upwards [lt_mem_nhds hp] with q hq
    have := entropy_fun h T _ hT (tp_good h hT hq).ρ
    have hpr := tp_pressure (p := q) h hT
    unfold tp at this hpr ⊢
    rw [this, hpr]

/-- Entropy at constant density. -/
theorem deriv_entropy_v (h : Comp M X) (ρ : ℝ) (hT : 0 < T) (hρ : 0 < ρ) (hc : Consistent M T) :
    HasDerivAt (fun t => entropyMole M ⟨t, ρ, X⟩) (cvMole M ⟨T, ρ, X⟩ / T) T := by
  unfold cvMole
  rw [cp_fun h T ρ hT hρ]
  have hm := comp_mmw h
  have hR := h.R
  have hp0 := h.p0
  have hlog : HasDerivAt (fun t => Real.log (pressure M ⟨t, ρ, X⟩ / M.p0)) (1 / T) T := by
    have h2 : ∀ t, pressure M ⟨t, ρ, X⟩ / M.p0 =
        (M.R * ρ / (∑ k ∈ Finset.range M.n, X k * M.W k) / M.p0) * t := by
      intro t; rw [pressure_eq]
      show M.R * t * ρ / (∑ k ∈ Finset.range M.n, X k * M.W k) / M.p0 = _
      ring
    simp only [h2]
    have := ((hasDerivAt_id' T).const_mul
      (M.R * ρ / (∑ k ∈ Finset.range M.n, X k * M.W k) / M.p0)).log (by positivity)
    refine this.congr_deriv ?_
    field_simp
  have h1 := (((sderiv (X := X) hc).sub_const (sumXLogX M ⟨1, 1, X⟩)).sub hlog).const_mul M.R
  refine (h1.congr_deriv (by ring)).congr_of_eventuallyEq ?_
  filter_upwards [lt_mem_nhds hT] with t ht
  exact entropy_fun h t ρ ht hρ

/-- `(∂g/∂T)_p = -s`, for each species and the mixture (with constant composition), and
`(∂g/∂p)_T = v`. -/
theorem deriv_chemPot_T (h : Comp M X) (hT : 0 < T) (hc : Consistent M T) (k : ℕ)
    (hk : k < M.n) :
    HasDerivAt (fun t => chemPot M (tp M X t p) k) (-pmEntropy M (tp M X T p) k) T := by
  obtain ⟨c1, c2⟩ := hc k hk
  have e : ∀ t, 0 < t → chemPot M (tp M X t p) k = M.R * (M.h k t * t - t * M.s k t +
      t * (Real.log (p / M.p0) + Real.log (max small (X k)))) := by
    intro t ht
    unfold chemPot stdChemPot RT g
    rw [tp_pressure h ht]
    show t * M.R * (M.h k t - M.s k t) + Real.log (p / M.p0) * (t * M.R) + t * M.R *
      Real.log (max small (X k)) = _
    ring
  have h1 := ((c1.sub ((hasDerivAt_id' T).mul c2)).add ((hasDerivAt_id' T).mul_const
    (Real.log (p / M.p0) + Real.log (max small (X k))))).const_mul M.R
  refine (h1.congr_deriv ?_).congr_of_eventuallyEq ?_
  · unfold pmEntropy
    rw [tp_pressure h hT]
    show _ = -(M.R * M.s k T + M.R * (-Real.log (p / M.p0) - Real.log (max small (X k))))
    field_simp; ring
  · filter_upwards [lt_mem_nhds hT] with t ht
    rw [e t ht]; rfl

theorem deriv_chemPot_p (h : Comp M X) (hT : 0 < T) (hp : 0 < p) (k : ℕ) :
    HasDerivAt (fun q => chemPot M (tp M X T q) k) (pmVolume M (tp M X T p) k) p := by
  have hp0 := h.p0
  have hg := tp_good h hT hp
  have hl := gas_law hg
  rw [tp_pressure h hT] at hl
  have hv : pmVolume M (tp M X T p) k = M.R * T / p := by
    have e1 : (tp M X T p).T = T := rfl
    rw [e1] at hl
    have e2 : pmVolume M (tp M X T p) k = molarVolume M (tp M X T p) := rfl
    rw [e2]
    field_simp; linarith
  have e : ∀ q, chemPot M (tp M X T q) k = M.R * T * (M.h k T - M.s k T) +
      M.R * T * Real.log (max small (X k)) + M.R * T * Real.log (q / M.p0) := by
    intro q
    unfold chemPot stdChemPot RT g
    rw [tp_pressure h hT]
    show T * M.R * (M.h k T - M.s k T) + Real.log (q / M.p0) * (T * M.R) + T * M.R *
      Real.log (max small (X k)) = _
    ring
  simp only [e]
  have h1 := (((hasDerivAt_id' p).div_const M.p0).log (by positivity)).const_mul (M.R * T)
  refine (h1.const_add _).congr_deriv ?_
  rw [hv]; field_simp

/-- Compressibility and expansion coefficient are the derivatives of the volume. -/
theorem deriv_volume (h : Comp M X) (hT : 0 < T) (hp : 0 < p) :
    HasDerivAt (fun q => molarVolume M (tp M X T q))
      (-(molarVolume M (tp M X T p) * isothermalCompressibility M (tp M X T p))) p ∧
    HasDerivAt (fun t => molarVolume M (tp M X t p))
      (molarVolume M (tp M X T p) * thermalExpansion (tp M X T p)) T := by
  have hv : ∀ t q, 0 < t → 0 < q → molarVolume M (tp M X t q) = M.R * t / q := by
    intro t q ht hq
    have hl := gas_law (tp_good h ht hq)
    rw [tp_pressure h ht] at hl
    have e1 : (tp M X t q).T = t := rfl
    rw [e1] at hl
    field_simp; linarith
  constructor
  · have h1 := (hasDerivAt_inv hp.ne').const_mul (M.R * T)
    refine (h1.congr_deriv ?_).congr_of_eventuallyEq ?_
    · unfold isothermalCompressibility
      rw [tp_pressure h hT, hv T p hT hp]; field_simp
    · filter_upwards [lt_mem_nhds hp] with q hq
      rw [hv T q hT hq]; ring
  · have h1 := ((hasDerivAt_id' T).const_mul M.R).div_const p
    refine (h1.congr_deriv ?_).congr_of_eventuallyEq ?_
    · unfold thermalExpansion
      rw [hv T p hT hp]
      show _ = M.R * T / p * (1 / T)
      field_simp
    · filter_upwards [lt_mem_nhds hT] with t ht
      rw [hv t p ht hp]

/-- Gibbs-Duhem: along a change of composition at constant temperature and pressure the changes of
the chemical potentials, weighted with the mole fractions, add to zero. -/
theorem gibbs_duhem (Xt : ℝ → ℕ → ℝ) (X' : ℕ → ℝ) (t0 : ℝ) (hT : 0 < T)
    (hcomp : ∀ t, Comp M (Xt t)) (hX : ∀ k < M.n, small < Xt t0 k)
    (hd : ∀ k < M.n, HasDerivAt (fun t => Xt t k) (X' k) t0) :
    ∃ μ' : ℕ → ℝ, (∀ k < M.n, HasDerivAt (fun t => chemPot M (tp M (Xt t) T p) k) (μ' k) t0) ∧
      ∑ k ∈ Finset.range M.n, Xt t0 k * μ' k = 0 := by
  refine ⟨fun k => M.R * T * (X' k / Xt t0 k), ?_, ?_⟩
  · intro k hk
    have hx := hX k hk
    have hpos : 0 < Xt t0 k := small_pos.trans hx
    have h1 := (((hd k hk).log hpos.ne').const_mul (M.R * T)).const_add
      (M.R * T * (M.h k T - M.s k T + Real.log (p / M.p0)))
    refine h1.congr_of_eventuallyEq ?_
    filter_upwards [(hd k hk).continuousAt.eventually (lt_mem_nhds hx)] with t ht
    rw [chemPot_explicit k (le_of_lt ht), tp_pressure (hcomp t) hT]
    show M.R * T * (M.h k T - M.s k T + Real.log (p / M.p0) + Real.log (Xt t k)) = _
    ring
  · have hs : ∑ k ∈ Finset.range M.n, X' k = 0 := by
      have h1 := HasDerivAt.fun_sum (u := Finset.range M.n)
        (fun k hk => hd k (Finset.mem_range.1 hk))
      have h2 : (fun t => ∑ k ∈ Finset.range M.n, Xt t k) = fun _ => (1 : ℝ) :=
        funext fun t => (hcomp t).sum
      rw [h2] at h1
      exact h1.unique (hasDerivAt_const _ _)
    have : ∀ k ∈ Finset.range M.n, Xt t0 k * (M.R * T * (X' k / Xt t0 k)) = M.R * T * X' k := by
      intro k hk
      have hpos : 0 < Xt t0 k := small_pos.trans (hX k (Finset.mem_range.1 hk))
      field_simp
    rw [Finset.sum_congr rfl this, ← Finset.mul_sum, hs, mul_zero]

/-- The square of the speed of sound is the derivative of the pressure with respect to the density
at constant entropy and composition. -/
theorem sound_speed (h : Comp M X) (Tr : ℝ → ℝ) (T' ρ : ℝ) (hρ : 0 < ρ) (hT : 0 < Tr ρ)
    (hd : HasDerivAt Tr T' ρ) (hc : Consistent M (Tr ρ))
    (hcp : 0 ≤ cpMole M ⟨Tr ρ, ρ, X⟩) (hcv : 0 < cvMole M ⟨Tr ρ, ρ, X⟩)
    (hs : HasDerivAt (fun r => entropyMole M ⟨Tr r, r, X⟩) 0 ρ) :
    HasDerivAt (fun r => pressure M ⟨Tr r, r, X⟩) (soundSpeed M ⟨Tr ρ, ρ, X⟩ ^ 2) ρ := by
  have hm := comp_mmw h
  have hR := h.R
  have hp0 := h.p0
  set w := ∑ k ∈ Finset.range M.n, X k * M.W k with hw
  have hpe : ∀ r, pressure M ⟨Tr r, r, X⟩ = M.R / w * (Tr r * r) := by
    intro r; rw [pressure_eq]
    show M.R * Tr r * r / w = _
    ring
  have hpd : HasDerivAt (fun r => pressure M ⟨Tr r, r, X⟩) (M.R / w * (T' * ρ + Tr ρ)) ρ := by
    simp only [hpe]
    have := (hd.mul (hasDerivAt_id' ρ)).const_mul (M.R / w)
    rwa [mul_one] at this
  have hpp : 0 < pressure M ⟨Tr ρ, ρ, X⟩ := pressure_pos (comp_good h _ _ hT hρ)
  have hlog : HasDerivAt (fun r => Real.log (pressure M ⟨Tr r, r, X⟩ / M.p0))
      (T' / Tr ρ + 1 / ρ) ρ := by
    have := (hpd.div_const M.p0).log (by positivity)
    refine this.congr_deriv ?_
    rw [hpe ρ]; field_simp
  have hsd := ((((sderiv (X := X) hc).comp ρ hd).sub_const (sumXLogX M ⟨1, 1, X⟩)).sub
    hlog).const_mul M.R
  have hs' : HasDerivAt (fun r => entropyMole M ⟨Tr r, r, X⟩)
      (M.R * ((∑ k ∈ Finset.range M.n, X k * M.cp k (Tr ρ)) / Tr ρ * T' - (T' / Tr ρ + 1 / ρ)))
      ρ := by
    refine hsd.congr_of_eventuallyEq ?_
    filter_upwards [hd.continuousAt.eventually (lt_mem_nhds hT), lt_mem_nhds hρ] with r h1 h2
    exact entropy_fun h (Tr r) r h1 h2
  have h0 := hs'.unique hs
  have hcpe := cp_fun h (Tr ρ) ρ hT hρ
  set C := ∑ k ∈ Finset.range M.n, X k * M.cp k (Tr ρ) with hC
  have hcve : cvMole M ⟨Tr ρ, ρ, X⟩ = M.R * (C - 1) := by unfold cvMole; rw [hcpe]; ring
  have hC1 : 0 < C - 1 := by
    rw [hcve] at hcv; exact (mul_pos_iff_of_pos_left hR).1 hcv
  have hT' : T' * ρ * (C - 1) = Tr ρ := by
    have : C / Tr ρ * T' - (T' / Tr ρ + 1 / ρ) = 0 := by
      rcases mul_eq_zero.1 h0 with h0 | h0
      · exact absurd h0 hR.ne'
      · exact h0
    field_simp at this
    linarith
  refine hpd.congr_deriv ?_
  unfold soundSpeed
  rw [Real.sq_sqrt, hcve, hcpe]
  · show M.R / w * (T' * ρ + Tr ρ) = M.R * C / (M.R * (C - 1)) * M.R / w * Tr ρ
    have : T' * ρ = Tr ρ / (C - 1) := by rw [eq_div_iff hC1.ne']; exact hT'
    rw [this]; field_simp; ring
  · have : mmw M ⟨Tr ρ, ρ, X⟩ = w := rfl
    rw [this]
    show 0 ≤ cpMole M ⟨Tr ρ, ρ, X⟩ / cvMole M ⟨Tr ρ, ρ, X⟩ * M.R / w * Tr ρ
    positivity

/-! ## Composition from chemical potentials -/

/-- The state found by `setToEquilState` has the given chemical potentials, for every species whose
potential is within the range of the exponential and whose mole fraction is not a trace; the
temperature is kept and the composition is proper. -/
theorem setToEquilState_spec (h : Good M x) (hn : 0 < M.n) (mu : ℕ → ℝ)
    (hr : ∀ k < M.n, -600 ≤ mu k - g M x k ∧ mu k - g M x k ≤ 300) :
    ∃ x', setToEquilState M x mu = some x' ∧ x'.T = x.T ∧ Good M x' ∧
      (∀ k < M.n, x'.X k * pressure M x' = M.p0 * Real.exp (mu k - g M x k)) ∧
      ∀ k < M.n, small ≤ x'.X k → chemPot M x' k = M.R * x.T * mu k := by
  have hp0 := h.p0
  have heq : ∀ k < M.n, eqPressure M x mu k = M.p0 * Real.exp (mu k - g M x k) := by
    intro k hk
    obtain ⟨h1, h2⟩ := hr k hk
    have e : -g M x k + mu k = mu k - g M x k := by ring
    unfold eqPressure
    simp only [e, not_lt.2 h1, not_lt.2 h2, if_false]
  set pres := ∑ k ∈ Finset.range M.n, eqPressure M x mu k with hpres
  have hpp : ∀ k ∈ Finset.range M.n, 0 < eqPressure M x mu k := fun k hk => by
    rw [heq k (Finset.mem_range.1 hk)]; positivity
  have hpos : 0 < pres := Finset.sum_pos hpp ⟨0, Finset.mem_range.2 hn⟩
  have hg : Good M { x with X := fun k => eqPressure M x mu k / pres } :=
    ⟨h.R, h.p0, h.W, h.T, h.ρ, fun k hk => div_nonneg (hpp k (Finset.mem_range.2 hk)).le hpos.le, by
      show ∑ k ∈ Finset.range M.n, eqPressure M x mu k / pres = 1
      rw [← Finset.sum_div]; exact div_self hpos.ne'⟩
  obtain ⟨x', e1, e2, e3, e4, e5⟩ := (setPressure_spec hg pres).1 hpos
  have hx' : ∀ k, x'.X k = eqPressure M x mu k / pres := fun k => by rw [e4]
  refine ⟨x', e1, e3, e5, ?_, ?_⟩
  · intro k hk
    rw [e2, hx', heq k hk]; field_simp
  · intro k hk hs
    have e3' : x'.T = x.T := e3
    rw [chemPot_explicit k hs, e3', e2, hx', heq k hk]
    have hexp := Real.exp_pos (mu k - g M x k)
    have : Real.log (pres / M.p0) + Real.log (M.p0 * Real.exp (mu k - g M x k) / pres) =
        mu k - g M x k := by
      rw [← Real.log_mul (by positivity) (by positivity)]
      have : pres / M.p0 * (M.p0 * Real.exp (mu k - g M x k) / pres) =
          Real.exp (mu k - g M x k) := by field_simp
      rw [this, Real.log_exp]
    have hgk : M.h k x.T - M.s k x.T = g M x k := rfl
    rw [hgk]
    linear_combination (M.R * x.T) * this

/-- Outside the range: below -600 the species is removed; above 300 the exponential is replaced by
a quadratic which continues it. -/
theorem eqPressure_range (mu : ℕ → ℝ) (k : ℕ) :
    (mu k - g M x k < -600 → eqPressure M x mu k = 0) ∧
    (300 < mu k - g M x k → eqPressure M x mu k =
      M.p0 * Real.exp 300 * ((mu k - g M x k) / 300) ^ 2) := by
  have e : -g M x k + mu k = mu k - g M x k := by ring
  constructor
  · intro h; unfold eqPressure; simp only [e, h, if_true]
  · intro h
    have : ¬ (mu k - g M x k < -600) := by linarith
    unfold eqPressure; simp only [e, h, this, if_true, if_false]; ring

/-! ## Example -/

/-- A monatomic gas of two species (constant heat capacity 5/2 R). -/
noncomputable def argonHelium : Mech :=
  ⟨2, fun k => if k = 0 then 40 else 4, fun _ _ => 5 / 2, fun k T => 5 / 2 * Real.log T + k,
    fun _ _ => 5 / 2, 8314, 100000⟩

noncomputable def half : ℕ → ℝ := fun _ => 1 / 2

theorem comp_half : Comp argonHelium half :=
  ⟨by norm_num [argonHelium], by norm_num [argonHelium],
   fun k _ => by unfold argonHelium; simp only; split_ifs <;> norm_num,
   fun _ _ => by norm_num [half], by norm_num [argonHelium, half, Finset.sum_range_succ]⟩

theorem consistent_argonHelium (T : ℝ) (hT : 0 < T) : Consistent argonHelium T := by
  intro k _
  constructor
  · show HasDerivAt (fun t : ℝ => 5 / 2 * t) (5 / 2) T
    have := (hasDerivAt_id' T).const_mul (5 / 2 : ℝ)
    rwa [mul_one] at this
  · show HasDerivAt (fun t : ℝ => 5 / 2 * Real.log t + (k : ℝ)) (5 / 2 / T) T
    have := ((Real.hasDerivAt_log hT.ne').const_mul (5 / 2 : ℝ)).add_const (k : ℝ)
    refine this.congr_deriv ?_
    field_simp

theorem noTrace_half (T ρ : ℝ) : NoTrace argonHelium ⟨T, ρ, half⟩ := by
  intro k _
  right
  have h1 : small ≤ 1 / 100 := by
    unfold small
    exact one_div_le_one_div_of_le (by norm_num)
      (le_trans (by norm_num) (pow_le_pow_right₀ (by norm_num : (1:ℝ) ≤ 10) (by norm_num : 2 ≤ 300)))
  have hm : mmw argonHelium ⟨T, ρ, half⟩ = 22 := by
    norm_num [mmw, argonHelium, half, Finset.sum_range_succ]
  rw [hm]
  show small ≤ 1 / 2 ∧ small ≤ 1 / 2 / 22
  constructor <;> linarith

example : gibbsMole argonHelium ⟨300, 1, half⟩ =
    enthalpyMole argonHelium ⟨300, 1, half⟩ - 300 * entropyMole argonHelium ⟨300, 1, half⟩ :=
  gibbs_eq (comp_good comp_half 300 1 (by norm_num) one_pos) (noTrace_half _ _)

example : HasDerivAt (fun t => enthalpyMole argonHelium (tp argonHelium half t 100000))
    (cpMole argonHelium (tp argonHelium half 300 100000)) 300 :=
  deriv_enthalpy comp_half (by norm_num) (by norm_num) (consistent_argonHelium _ (by norm_num))

end Verif.IdealGas
