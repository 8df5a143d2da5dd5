import Verif.Thermo.IdealSoln
import Verif.Thermo.IdealGasProps

/-!
# Properties of the ideal condensed solutions
-/

namespace Verif.IdealSoln

open Verif.IdealGas (meanX sumXLogX mmw small RT molarDensity molarVolume Good NoTrace Consistent
  Comp meanX_eq sumXLogX_eq mmw_pos log_max comp_good small_pos)

variable {M : Sol} {x : St}

/-- A proper solution: molar volumes are positive. -/
def PosV (M : Sol) : Prop := ∀ k < M.n, 0 < M.V k

theorem sumXV_pos (h : Good M.toMech x.toSt) (hV : PosV M) :
    0 < ∑ k ∈ Finset.range M.n, x.X k * M.V k := by
  have hne : ∃ k ∈ Finset.range M.n, 0 < x.X k := by
    by_contra hc
    push Not at hc
    have : ∑ k ∈ Finset.range M.n, x.X k ≤ 0 := Finset.sum_nonpos hc
    rw [h.sum] at this; linarith
  obtain ⟨k, hk, hx⟩ := hne
  refine Finset.sum_pos' (fun j hj => mul_nonneg (h.X j (Finset.mem_range.1 hj))
    (hV j (Finset.mem_range.1 hj)).le) ⟨k, hk, mul_pos hx (hV k (Finset.mem_range.1 hk))⟩

/-! ## IdealSolidSolnPhase -/

namespace Solid

/-- The density belongs to the composition: the molar volume is the average of the molar volumes
of the species. -/
def Dens (M : Sol) (x : St) : Prop :=
  x.ρ * (∑ k ∈ Finset.range M.n, x.X k * M.V k) = ∑ k ∈ Finset.range M.n, x.X k * M.W k

/-- Setting the pressure keeps temperature and composition, gives the pressure and the density. -/
theorem setPressure_spec (h : Good M.toMech x.toSt) (hV : PosV M) (p : ℝ) :
    ∃ y, setPressure M x p = some y ∧ y.P = p ∧ y.T = x.T ∧ y.X = x.X ∧ Dens M y ∧
      Good M.toMech y.toSt := by
  have hm := mmw_pos h
  have hv := sumXV_pos h hV
  have hmean := meanX_eq h M.V
  have hρ : 0 < mmw M.toMech x.toSt / meanX M.toMech x.toSt M.V := by rw [hmean]; positivity
  refine ⟨⟨⟨x.T, mmw M.toMech x.toSt / meanX M.toMech x.toSt M.V, x.X⟩, p⟩, ?_, rfl, rfl, rfl, ?_,
    ⟨h.R, h.p0, h.W, h.T, hρ, h.X, h.sum⟩⟩
  · show assignDensity _ _ = _
    have : assignDensity { x with P := p } (mmw M.toMech x.toSt / meanX M.toMech x.toSt M.V) = _ :=
      if_pos hρ
    exact this
  · show mmw M.toMech x.toSt / meanX M.toMech x.toSt M.V * _ = mmw M.toMech x.toSt
    rw [hmean]; field_simp

/-- Setting the composition. -/
theorem setX_spec (h : Good M.toMech x.toSt) (hV : PosV M) (X : ℕ → ℝ)
    (hX : ∀ k < M.n, 0 ≤ X k) (hs : ∑ k ∈ Finset.range M.n, X k = 1) :
    ∃ y, setX M x X = some y ∧ y.P = x.P ∧ y.T = x.T ∧ y.X = X ∧ Dens M y ∧
      Good M.toMech y.toSt := by
  have h' : Good M.toMech ({ x with X := X } : St).toSt := ⟨h.R, h.p0, h.W, h.T, h.ρ, hX, hs⟩
  exact setPressure_spec h' hV x.P

variable (h : Good M.toMech x.toSt) (hd : Dens M x)

include h hd

theorem volume_eq : molarVolume M.toMech x.toSt = ∑ k ∈ Finset.range M.n, x.X k * pmVolume M k := by
  have hm := mmw_pos h
  have hρ := h.ρ
  have e : mmw M.toMech x.toSt = ∑ k ∈ Finset.range M.n, x.X k * M.W k := rfl
  unfold molarVolume molarDensity pmVolume
  unfold Dens at hd
  rw [e, ← hd]; field_simp

omit hd in
theorem enthalpy_eq : enthalpyMole M x = ∑ k ∈ Finset.range M.n, x.X k * pmEnthalpy M x k :=
  meanX_eq h _

/-- `h = R T sum X h + (P - Pref) v`. -/
theorem enthalpy_explicit : enthalpyMole M x =
    M.R * x.T * (∑ k ∈ Finset.range M.n, x.X k * M.h k x.T) +
      (x.P - M.p0) * molarVolume M.toMech x.toSt := by
  rw [enthalpy_eq h, volume_eq h hd, Finset.mul_sum, Finset.mul_sum, ← Finset.sum_add_distrib]
  exact Finset.sum_congr rfl (fun k _ => by unfold pmEnthalpy pmVolume RT; ring)

/-- `u = h - P v`; it does not depend on the pressure. -/
theorem intEnergy_explicit : intEnergyMole M x =
    M.R * x.T * (∑ k ∈ Finset.range M.n, x.X k * M.h k x.T) -
      M.p0 * (∑ k ∈ Finset.range M.n, x.X k * M.V k) := by
  unfold intEnergyMole
  rw [enthalpy_explicit h hd, volume_eq h hd]
  unfold pmVolume; ring

omit hd in
theorem entropy_eq (ht : NoTrace M.toMech x.toSt) :
    entropyMole M x = ∑ k ∈ Finset.range M.n, x.X k * pmEntropy M x k := by
  unfold entropyMole pmEntropy
  rw [meanX_eq h, sumXLogX_eq h ht, ← Finset.sum_sub_distrib, Finset.mul_sum]
  refine Finset.sum_congr rfl (fun k hk => ?_)
  have := log_max ht k (Finset.mem_range.1 hk)
  have e : x.toSt.X k = x.X k := rfl
  linear_combination M.R * this

omit hd in
/-- The entropy in full. -/
theorem entropy_explicit (ht : NoTrace M.toMech x.toSt) :
    entropyMole M x = M.R * ∑ k ∈ Finset.range M.n, x.X k * (M.s k x.T - Real.log (x.X k)) := by
  unfold entropyMole
  rw [meanX_eq h, sumXLogX_eq h ht, ← Finset.sum_sub_distrib]
  exact congrArg _ (Finset.sum_congr rfl (fun k _ => by ring))

omit hd in
theorem cp_eq : cpMole M x = ∑ k ∈ Finset.range M.n, x.X k * pmCp M x k := by
  unfold cpMole pmCp
  rw [meanX_eq h, Finset.mul_sum]
  exact Finset.sum_congr rfl (fun k _ => by ring)

omit h hd in
/-- `mu = h - T s` for each species. -/
theorem chemPot_eq (k : ℕ) : chemPot M x k = pmEnthalpy M x k - x.T * pmEntropy M x k := by
  unfold chemPot pmEnthalpy pmEntropy RT g0; ring

/-- `g = sum X mu`. -/
theorem gibbs_eq (ht : NoTrace M.toMech x.toSt) :
    gibbsMole M x = ∑ k ∈ Finset.range M.n, x.X k * chemPot M x k := by
  have hv := volume_eq h hd
  have hmv : (x.P - M.p0) / molarDensity M.toMech x.toSt =
      (x.P - M.p0) * molarVolume M.toMech x.toSt := by unfold molarVolume; ring
  unfold gibbsMole
  simp only
  rw [hmv, hv, meanX_eq h, sumXLogX_eq h ht, ← Finset.sum_add_distrib, Finset.mul_sum,
    Finset.mul_sum, ← Finset.sum_add_distrib]
  refine Finset.sum_congr rfl (fun k hk => ?_)
  have := log_max ht k (Finset.mem_range.1 hk)
  unfold chemPot pmVolume
  linear_combination -(RT M.toMech x.toSt) * this

/-- `g = h - T s`. -/
theorem gibbs_hs (ht : NoTrace M.toMech x.toSt) :
    gibbsMole M x = enthalpyMole M x - x.T * entropyMole M x := by
  rw [gibbs_eq h hd ht, enthalpy_eq h, entropy_eq h ht, Finset.mul_sum, ← Finset.sum_sub_distrib]
  exact Finset.sum_congr rfl (fun k _ => by rw [chemPot_eq]; ring)

omit h hd in
/-- Activity: concentration over standard concentration is the mole fraction, for each of the
three forms. -/
theorem activity_eq (hV : PosV M) (hf : M.form ≤ 2) (k : ℕ) (hk : k < M.n) :
    actConc M x k / stdConc M k = x.X k := by
  have h1 := hV k hk
  have h2 := hV (M.n - 1) (by omega)
  unfold actConc stdConc
  have : M.form = 0 ∨ M.form = 1 ∨ M.form = 2 := by omega
  rcases this with e | e | e <;> simp [e] <;> field_simp

omit h hd in
/-- `mu = mu0 + R T ln X`, where `mu0 = R T g_RT`, `g = h - s` and `u = h - P V / R T` hold for the
standard states. -/
theorem standard_state (hT : 0 < x.T) (hR : 0 < M.R) (k : ℕ) :
    (small ≤ x.X k → chemPot M x k = pureGibbs M x k + M.R * x.T * Real.log (x.X k)) ∧
    pureGibbs M x k = M.R * x.T * gibbsRT M x k ∧
    gibbsRT M x k = enthalpyRT M x k - entropyR M x k ∧
    intEnergyRT M x k = enthalpyRT M x k - x.P * pmVolume M k / (M.R * x.T) ∧
    pmEnthalpy M x k = M.R * x.T * enthalpyRT M x k ∧ entropyR M x k = M.s k x.T := by
  refine ⟨fun hx => ?_, ?_, ?_, ?_, ?_, rfl⟩
  · unfold chemPot pureGibbs RT; rw [max_eq_right hx]; ring
  · unfold pureGibbs gibbsRT RT; field_simp
  · unfold gibbsRT enthalpyRT entropyR g0; ring
  · unfold intEnergyRT enthalpyRT pmVolume RT; field_simp; ring
  · unfold pmEnthalpy enthalpyRT RT; field_simp

omit h hd in
/-- The standard chemical potential in full. -/
theorem pureGibbs_explicit (k : ℕ) :
    pureGibbs M x k = M.R * x.T * (M.h k x.T - M.s k x.T) + (x.P - M.p0) * M.V k := by
  unfold pureGibbs RT g0; ring

end Solid

/-! ### Derivatives -/

namespace Solid

variable {X : ℕ → ℝ} {T p : ℝ}

/-- The state at temperature, pressure and composition. -/
noncomputable def tp (M : Sol) (X : ℕ → ℝ) (T p : ℝ) : St :=
  ⟨⟨T, (∑ k ∈ Finset.range M.n, X k * M.W k) / (∑ k ∈ Finset.range M.n, X k * M.V k), X⟩, p⟩

theorem tp_good (h : Comp M.toMech X) (hV : PosV M) (hT : 0 < T) :
    Good M.toMech (tp M X T p).toSt ∧ Dens M (tp M X T p) := by
  have hw := IdealGas.comp_mmw h
  have hg := comp_good h T 1 hT one_pos
  have hv : 0 < ∑ k ∈ Finset.range M.n, X k * M.V k :=
    sumXV_pos (x := ⟨⟨T, 1, X⟩, p⟩) hg hV
  refine ⟨comp_good h _ _ hT (by positivity), ?_⟩
  exact div_mul_cancel₀ _ hv.ne'

theorem deriv_enthalpy (h : Comp M.toMech X) (hV : PosV M) (hT : 0 < T)
    (hc : Consistent M.toMech T) :
    HasDerivAt (fun t => enthalpyMole M (tp M X t p)) (cpMole M (tp M X T p)) T ∧
    HasDerivAt (fun t => intEnergyMole M (tp M X t p)) (cpMole M (tp M X T p)) T ∧
    HasDerivAt (fun q => enthalpyMole M (tp M X T q)) (molarVolume M.toMech (tp M X T p).toSt) p := by
  have hcp : cpMole M (tp M X T p) = M.R * ∑ k ∈ Finset.range M.n, X k * M.cp k T := by
    unfold cpMole; rw [meanX_eq (tp_good h hV hT).1]; rfl
  have hvol : ∀ t q, molarVolume M.toMech (tp M X t q).toSt =
      molarVolume M.toMech (tp M X T p).toSt := fun t q => rfl
  have e : ∀ t, 0 < t → M.R * t * (∑ k ∈ Finset.range M.n, X k * M.h k t) =
      M.R * ∑ k ∈ Finset.range M.n, X k * (M.h k t * t) := by
    intro t _
    rw [Finset.mul_sum, Finset.mul_sum]
    exact Finset.sum_congr rfl (fun k _ => by ring)
  rw [hcp]
  refine ⟨?_, ?_, ?_⟩
  · have h1 := (IdealGas.hderiv (M := M.toMech) (X := X) hc).add_const
      ((p - M.p0) * molarVolume M.toMech (tp M X T p).toSt)
    refine h1.congr_of_eventuallyEq ?_
    filter_upwards [lt_mem_nhds hT] with t ht
    obtain ⟨hg, hd⟩ := tp_good (p := p) h hV ht
    rw [enthalpy_explicit hg hd, hvol t p]
    show M.R * t * (∑ k ∈ Finset.range M.n, X k * M.h k t) + (p - M.p0) * _ = _
    rw [e t ht]
  · have h1 := (IdealGas.hderiv (M := M.toMech) (X := X) hc).sub_const
      (M.p0 * ∑ k ∈ Finset.range M.n, X k * M.V k)
    refine h1.congr_of_eventuallyEq ?_
    filter_upwards [lt_mem_nhds hT] with t ht
    obtain ⟨hg, hd⟩ := tp_good (p := p) h hV ht
    rw [intEnergy_explicit hg hd]
    show M.R * t * (∑ k ∈ Finset.range M.n, X k * M.h k t) - _ = _
    rw [e t ht]; rfl
  · have h1 := (((hasDerivAt_id' p).sub_const M.p0).mul_const
      (molarVolume M.toMech (tp M X T p).toSt)).const_add
      (M.R * T * (∑ k ∈ Finset.range M.n, X k * M.h k T))
    rw [one_mul] at h1
    have : (fun q => enthalpyMole M (tp M X T q)) = fun q =>
        M.R * T * (∑ k ∈ Finset.range M.n, X k * M.h k T) +
          (q - M.p0) * molarVolume M.toMech (tp M X T p).toSt := by
      funext q
      obtain ⟨hg, hd⟩ := tp_good (p := q) h hV hT
      rw [enthalpy_explicit hg hd, hvol T q]; rfl
    rw [this]; exact h1

theorem deriv_entropy (h : Comp M.toMech X) (hV : PosV M) (hT : 0 < T)
    (hc : Consistent M.toMech T) :
    HasDerivAt (fun t => entropyMole M (tp M X t p)) (cpMole M (tp M X T p) / T) T ∧
    ∀ q, entropyMole M (tp M X T q) = entropyMole M (tp M X T p) := by
  have hcp : cpMole M (tp M X T p) = M.R * ∑ k ∈ Finset.range M.n, X k * M.cp k T := by
    unfold cpMole; rw [meanX_eq (tp_good h hV hT).1]; rfl
  refine ⟨?_, fun q => rfl⟩
  rw [hcp]
  have h1 := ((IdealGas.sderiv (M := M.toMech) (X := X) hc).sub_const
    (sumXLogX M.toMech (tp M X T p).toSt)).const_mul M.R
  refine (h1.congr_deriv (by ring)).congr_of_eventuallyEq ?_
  filter_upwards [lt_mem_nhds hT] with t ht
  unfold entropyMole
  rw [meanX_eq (tp_good (p := p) h hV ht).1]
  rfl

theorem deriv_chemPot (hT : 0 < T) (hc : Consistent M.toMech T) (k : ℕ) (hk : k < M.n) :
    HasDerivAt (fun t => chemPot M (tp M X t p) k) (-pmEntropy M (tp M X T p) k) T ∧
    HasDerivAt (fun q => chemPot M (tp M X T q) k) (pmVolume M k) p := by
  obtain ⟨c1, c2⟩ := hc k hk
  constructor
  · have e : ∀ t, chemPot M (tp M X t p) k = M.R * (M.h k t * t - t * M.s k t +
        t * Real.log (max small (X k))) + (p - M.p0) * M.V k := by
      intro t
      unfold chemPot RT g0
      show t * M.R * (M.h k t - M.s k t + Real.log (max small (X k))) + (p - M.p0) * M.V k = _
      ring
    simp only [e]
    have h1 := (((c1.sub ((hasDerivAt_id' T).mul c2)).add ((hasDerivAt_id' T).mul_const
      (Real.log (max small (X k))))).const_mul M.R).add_const ((p - M.p0) * M.V k)
    refine h1.congr_deriv ?_
    unfold pmEntropy
    show _ = -(M.R * (M.s k T - Real.log (max small (X k))))
    field_simp; ring
  · have h1 := (((hasDerivAt_id' p).sub_const M.p0).mul_const (M.V k)).const_add
      (RT M.toMech (tp M X T p).toSt * (g0 M (tp M X T p) k + Real.log (max small (X k))))
    rw [one_mul] at h1
    exact h1

/-- Gibbs-Duhem at constant temperature and pressure. -/
theorem gibbs_duhem (Xt : ℝ → ℕ → ℝ) (X' : ℕ → ℝ) (t0 : ℝ)
    (hcomp : ∀ t, Comp M.toMech (Xt t)) (hX : ∀ k < M.n, small < Xt t0 k)
    (hd : ∀ k < M.n, HasDerivAt (fun t => Xt t k) (X' k) t0) :
    ∃ μ' : ℕ → ℝ, (∀ k < M.n, HasDerivAt (fun t => chemPot M (tp M (Xt t) T p) k) (μ' k) t0) ∧
      ∑ k ∈ Finset.range M.n, Xt t0 k * μ' k = 0 := by
  refine ⟨fun k => M.R * T * (X' k / Xt t0 k), ?_, ?_⟩
  · intro k hk
    have hx := hX k hk
    have hpos : 0 < Xt t0 k := small_pos.trans hx
    have h1 := (((hd k hk).log hpos.ne').const_mul (M.R * T)).const_add
      (M.R * T * (M.h k T - M.s k T) + (p - M.p0) * M.V k)
    refine h1.congr_of_eventuallyEq ?_
    filter_upwards [(hd k hk).continuousAt.eventually (lt_mem_nhds hx)] with t ht
    unfold chemPot RT g0
    show T * M.R * (M.h k T - M.s k T + Real.log (max small (Xt t k))) + (p - M.p0) * M.V k = _
    rw [max_eq_right (le_of_lt ht)]; ring
  · have hs : ∑ k ∈ Finset.range M.n, X' k = 0 := by
      have h1 := HasDerivAt.fun_sum (u := Finset.range M.n)
        (fun k hk => hd k (Finset.mem_range.1 hk))
      have h2 : (fun t => ∑ k ∈ Finset.range M.n, Xt t k) = fun _ => (1 : ℝ) :=
        funext fun t => (hcomp t).sum
      rw [h2] at h1
      exact h1.unique (hasDerivAt_const _ _)
    have : ∀ k ∈ Finset.range M.n, Xt t0 k * (M.R * T * (X' k / Xt t0 k)) = M.R * T * X' k := by
      intro k hk
      have hpos : 0 < Xt t0 k := small_pos.trans (hX k (Finset.mem_range.1 hk))
      field_simp
    rw [Finset.sum_congr rfl this, ← Finset.mul_sum, hs, mul_zero]

/-! ### Composition from chemical potentials -/

/-- What `setToEquilState` gives for potentials in range: mole fractions proportional to
`exp (mu - g)`, the pressure `Pref * sum exp (mu - g)`.  The chemical potentials are the ones asked
for, less the logarithm of the sum, plus the effect of the new pressure. -/
theorem setToEquilState_spec (h : Good M.toMech x.toSt) (hV : PosV M) (hn : 0 < M.n) (mu : ℕ → ℝ)
    (hr : ∀ k < M.n, -600 ≤ mu k - (M.h k x.T - M.s k x.T) ∧
      mu k - (M.h k x.T - M.s k x.T) ≤ 500) :
    ∃ y, setToEquilState M x mu = some y ∧ y.T = x.T ∧
      let S := ∑ k ∈ Finset.range M.n, Real.exp (mu k - (M.h k x.T - M.s k x.T))
      y.P = M.p0 * S ∧
      (∀ k < M.n, y.X k = Real.exp (mu k - (M.h k x.T - M.s k x.T)) / S) ∧
      (∀ k < M.n, small ≤ y.X k → chemPot M y k =
        M.R * x.T * (mu k - Real.log S) + M.p0 * (S - 1) * M.V k) := by
  have hp0 := h.p0
  have heq : ∀ k < M.n, eqPressure M x mu k =
      M.p0 * Real.exp (mu k - (M.h k x.T - M.s k x.T)) := by
    intro k hk
    obtain ⟨h1, h2⟩ := hr k hk
    have e : -g0 M x k + mu k = mu k - (M.h k x.T - M.s k x.T) := by unfold g0; ring
    unfold eqPressure
    simp only [e, not_lt.2 h1, not_lt.2 h2, if_false]
  set S := ∑ k ∈ Finset.range M.n, Real.exp (mu k - (M.h k x.T - M.s k x.T)) with hS
  have hpres : ∑ k ∈ Finset.range M.n, eqPressure M x mu k = M.p0 * S := by
    rw [hS, Finset.mul_sum]
    exact Finset.sum_congr rfl (fun k hk => heq k (Finset.mem_range.1 hk))
  have hSpos : 0 < S := Finset.sum_pos (fun k _ => Real.exp_pos _) ⟨0, Finset.mem_range.2 hn⟩
  have hX0 : ∀ k < M.n, 0 ≤ eqPressure M x mu k / (M.p0 * S) := fun k hk => by
    rw [heq k hk]; positivity
  have hX1 : ∑ k ∈ Finset.range M.n, eqPressure M x mu k / (M.p0 * S) = 1 := by
    rw [← Finset.sum_div, hpres]; exact div_self (by positivity)
  obtain ⟨y, e1, -, e3, e4, -, hg⟩ := setX_spec h hV _ hX0 hX1
  obtain ⟨z, f1, f2, f3, f4, -, -⟩ := setPressure_spec hg hV (M.p0 * S)
  have hzX : ∀ k < M.n, z.X k = Real.exp (mu k - (M.h k x.T - M.s k x.T)) / S := fun k hk => by
    rw [f4, e4]
    show eqPressure M x mu k / (M.p0 * S) = _
    rw [heq k hk]; field_simp
  refine ⟨z, ?_, f3.trans e3, f2, hzX, ?_⟩
  · unfold setToEquilState
    simp only [hpres]
    rw [e1]; exact f1
  · intro k hk hs
    have hT : z.T = x.T := f3.trans e3
    unfold chemPot RT g0
    rw [max_eq_right hs, hzX k hk, f2, hT, Real.log_div (Real.exp_pos _).ne' hSpos.ne',
      Real.log_exp]
    ring

/-- The potentials are reproduced when the potentials belong to the reference pressure. -/
theorem setToEquilState_exact (h : Good M.toMech x.toSt) (hV : PosV M) (hn : 0 < M.n) (mu : ℕ → ℝ)
    (hr : ∀ k < M.n, -600 ≤ mu k - (M.h k x.T - M.s k x.T) ∧
      mu k - (M.h k x.T - M.s k x.T) ≤ 500)
    (hS : ∑ k ∈ Finset.range M.n, Real.exp (mu k - (M.h k x.T - M.s k x.T)) = 1) :
    ∃ y, setToEquilState M x mu = some y ∧ y.P = M.p0 ∧
      ∀ k < M.n, small ≤ y.X k → chemPot M y k = M.R * x.T * mu k := by
  obtain ⟨y, e1, -, e2, -, e4⟩ := setToEquilState_spec h hV hn mu hr
  rw [hS] at e2 e4
  refine ⟨y, e1, by rw [e2, mul_one], fun k hk hs => ?_⟩
  rw [e4 k hk hs, Real.log_one]; ring

theorem eqPressure_range (mu : ℕ → ℝ) (k : ℕ) :
    (mu k - (M.h k x.T - M.s k x.T) < -600 → eqPressure M x mu k = 0) ∧
    (500 < mu k - (M.h k x.T - M.s k x.T) → eqPressure M x mu k =
      M.p0 * Real.exp 500 * ((mu k - (M.h k x.T - M.s k x.T)) / 500) ^ 2) := by
  have e : -g0 M x k + mu k = mu k - (M.h k x.T - M.s k x.T) := by unfold g0; ring
  constructor
  · intro h; unfold eqPressure; simp only [e, h, if_true]
  · intro h
    have : ¬ (mu k - (M.h k x.T - M.s k x.T) < -600) := by linarith
    unfold eqPressure; simp only [e, h, this, if_true, if_false]; ring

end Solid

/-! ## LatticePhase -/

namespace Lattice

/-- The molar density is the site density. -/
def Dens (M : Sol) (x : St) : Prop :=
  x.ρ = M.site * ∑ k ∈ Finset.range M.n, x.X k * M.W k

theorem setPressure_spec (h : Good M.toMech x.toSt)
    (hs : small ≤ (∑ k ∈ Finset.range M.n, x.X k * M.W k) * M.site) (p : ℝ) :
    ∃ y, setPressure M x p = some y ∧ y.P = p ∧ y.T = x.T ∧ y.X = x.X ∧ Dens M y ∧
      Good M.toMech y.toSt := by
  have hs' : small ≤ mmw M.toMech x.toSt * M.site := hs
  have hρ : 0 < max (mmw M.toMech x.toSt * M.site) small := lt_max_of_lt_right small_pos
  refine ⟨⟨⟨x.T, max (mmw M.toMech x.toSt * M.site) small, x.X⟩, p⟩, ?_, rfl, rfl, rfl, ?_,
    ⟨h.R, h.p0, h.W, h.T, hρ, h.X, h.sum⟩⟩
  · have : assignDensity { x with P := p } (max (mmw M.toMech x.toSt * M.site) small) = _ :=
      if_pos hρ
    exact this
  · show max (mmw M.toMech x.toSt * M.site) small = M.site * mmw M.toMech x.toSt
    rw [max_eq_left hs']; ring

theorem setX_spec (h : Good M.toMech x.toSt) (X : ℕ → ℝ)
    (hX : ∀ k < M.n, 0 ≤ X k) (hs1 : ∑ k ∈ Finset.range M.n, X k = 1)
    (hs : small ≤ (∑ k ∈ Finset.range M.n, X k * M.W k) * M.site) :
    ∃ y, setX M x X = some y ∧ y.P = x.P ∧ y.T = x.T ∧ y.X = X ∧ Dens M y ∧
      Good M.toMech y.toSt := by
  have h' : Good M.toMech ({ x with X := X } : St).toSt := ⟨h.R, h.p0, h.W, h.T, h.ρ, hX, hs1⟩
  exact setPressure_spec h' hs x.P

variable (h : Good M.toMech x.toSt) (hd : Dens M x) (hsite : 0 < M.site)

include h hd hsite

theorem volume_eq : molarVolume M.toMech x.toSt = 1 / M.site ∧
    molarDensity M.toMech x.toSt = M.site := by
  have hm := mmw_pos h
  have e : mmw M.toMech x.toSt = ∑ k ∈ Finset.range M.n, x.X k * M.W k := rfl
  unfold Dens at hd
  rw [← e] at hd
  have : molarDensity M.toMech x.toSt = M.site := by
    unfold molarDensity; rw [hd]; field_simp
  refine ⟨by unfold molarVolume; rw [this], this⟩

theorem enthalpy_explicit : enthalpyMole M x =
    M.R * x.T * (∑ k ∈ Finset.range M.n, x.X k * M.h k x.T) + (x.P - M.p0) / M.site := by
  unfold enthalpyMole
  rw [(volume_eq h hd hsite).2, meanX_eq h]
  unfold RT; ring

omit hd hsite in
theorem entropy_eq (ht : NoTrace M.toMech x.toSt) :
    entropyMole M x = ∑ k ∈ Finset.range M.n, x.X k * pmEntropy M x k :=
  Solid.entropy_eq h ht

omit hd hsite in
theorem entropy_explicit (ht : NoTrace M.toMech x.toSt) :
    entropyMole M x = M.R * ∑ k ∈ Finset.range M.n, x.X k * (M.s k x.T - Real.log (x.X k)) := by
  unfold entropyMole
  rw [meanX_eq h, sumXLogX_eq h ht, ← Finset.sum_sub_distrib]
  exact congrArg _ (Finset.sum_congr rfl (fun k _ => by ring))

omit hd hsite in
theorem cp_eq : cpMole M x = ∑ k ∈ Finset.range M.n, x.X k * pmCp M x k :=
  Solid.cp_eq h

/-- The Gibbs function against the chemical potentials: they differ by the pressure times the
difference between the site volume and the average molar volume. -/
theorem gibbs_diff (ht : NoTrace M.toMech x.toSt) :
    gibbsMole M x - ∑ k ∈ Finset.range M.n, x.X k * chemPot M x k =
      (x.P - M.p0) * (1 / M.site - ∑ k ∈ Finset.range M.n, x.X k * pmVolume M k) := by
  unfold gibbsMole
  rw [enthalpy_explicit h hd hsite, entropy_eq h ht]
  have : ∀ k ∈ Finset.range M.n, x.X k * chemPot M x k =
      M.R * x.T * (x.X k * M.h k x.T) - x.T * (x.X k * pmEntropy M x k) +
        (x.P - M.p0) * (x.X k * pmVolume M k) := fun k _ => by
    unfold chemPot pmEntropy pmVolume RT g0; ring
  rw [Finset.sum_congr rfl this, Finset.sum_add_distrib, Finset.sum_sub_distrib, ← Finset.mul_sum,
    ← Finset.mul_sum, ← Finset.mul_sum]
  ring

/-- With the default molar volumes (one over the site density) `g = sum X mu` and
`v = sum X V`. -/
theorem gibbs_eq_partial (ht : NoTrace M.toMech x.toSt) (hV : ∀ k < M.n, M.V k = 1 / M.site) :
    gibbsMole M x = ∑ k ∈ Finset.range M.n, x.X k * chemPot M x k ∧
    molarVolume M.toMech x.toSt = ∑ k ∈ Finset.range M.n, x.X k * pmVolume M k := by
  have hv : ∑ k ∈ Finset.range M.n, x.X k * pmVolume M k = 1 / M.site := by
    rw [Finset.sum_congr rfl (fun k hk => by
      show x.X k * pmVolume M k = x.X k * (1 / M.site)
      unfold pmVolume; rw [hV k (Finset.mem_range.1 hk)]), ← Finset.sum_mul, h.sum, one_mul]
  have := gibbs_diff h hd hsite ht
  rw [hv] at this
  refine ⟨by linarith, by rw [hv]; exact (volume_eq h hd hsite).1⟩

/-- Refuted for the others: the partial molar enthalpies lack the term of the pressure, so they do
not add up to the enthalpy, nor give the chemical potentials. -/
theorem enthalpy_diff : enthalpyMole M x - ∑ k ∈ Finset.range M.n, x.X k * pmEnthalpy M x k =
    (x.P - M.p0) / M.site := by
  rw [enthalpy_explicit h hd hsite]
  have : ∀ k ∈ Finset.range M.n, x.X k * pmEnthalpy M x k = M.R * x.T * (x.X k * M.h k x.T) :=
    fun k _ => by unfold pmEnthalpy RT; ring
  rw [Finset.sum_congr rfl this, ← Finset.mul_sum]
  ring

omit h hd hsite in
theorem chemPot_diff (k : ℕ) :
    chemPot M x k - (pmEnthalpy M x k - x.T * pmEntropy M x k) = (x.P - M.p0) * M.V k := by
  unfold chemPot pmEnthalpy pmEntropy RT g0; ring

omit h hd hsite in
/-- The standard chemical potentials lack it too: they are not the Gibbs functions of the pure
species, and `mu = mu0 + R T ln X` fails by the same amount. -/
theorem stdChemPot_diff (k : ℕ) (hx : small ≤ x.X k) :
    pureGibbs M x k - stdChemPot M x k = (x.P - M.p0) * M.V k ∧
    chemPot M x k - (stdChemPot M x k + M.R * x.T * Real.log (x.X k)) = (x.P - M.p0) * M.V k ∧
    chemPot M x k = pureGibbs M x k + M.R * x.T * Real.log (x.X k) := by
  unfold pureGibbs stdChemPot chemPot RT
  rw [max_eq_right hx]
  refine ⟨by ring, by ring, by ring⟩

omit hd hsite in
theorem standard_state (k : ℕ) :
    pureGibbs M x k = M.R * x.T * gibbsRT M x k ∧ gibbsRT M x k = enthalpyRT M x k - M.s k x.T ∧
    M.R * x.T * enthalpyRT M x k = pmEnthalpy M x k + (x.P - M.p0) * pmVolume M k := by
  have := h.R
  have := h.T
  refine ⟨?_, ?_, ?_⟩
  · unfold pureGibbs gibbsRT RT; field_simp
  · unfold gibbsRT enthalpyRT g0; ring
  · unfold pmEnthalpy enthalpyRT pmVolume RT; field_simp

omit h hd hsite in
/-- The site density set; the density of the state still belongs to the old one. -/
theorem setSiteDensity_spec (given : ℕ → Bool) (d : ℝ) :
    (setSiteDensity M given d).site = d ∧ (setSiteDensity M given d).toMech = M.toMech ∧
    (∀ k, given k = false → (setSiteDensity M given d).V k = 1 / d) ∧
    (∀ k, given k = true → (setSiteDensity M given d).V k = M.V k) := by
  refine ⟨rfl, rfl, fun k hk => ?_, fun k hk => ?_⟩ <;> simp [setSiteDensity, hk]

/-- The molar density read after `setSiteDensity` is the old site density. -/
theorem setSiteDensity_stale (given : ℕ → Bool) (d : ℝ) :
    molarDensity (setSiteDensity M given d).toMech x.toSt = M.site ∧
    (Dens (setSiteDensity M given d) x ↔ d = M.site) := by
  refine ⟨(volume_eq h hd hsite).2, ?_⟩
  have hm := mmw_pos h
  have e : mmw M.toMech x.toSt = ∑ k ∈ Finset.range M.n, x.X k * M.W k := rfl
  unfold Dens at hd ⊢
  rw [← e] at hd
  show x.ρ = d * mmw M.toMech x.toSt ↔ _
  rw [hd]
  constructor
  · intro h'; exact (mul_right_cancel₀ hm.ne' h').symm
  · intro h'; rw [h']

end Lattice

/-! ## Examples -/

/-- One species; at two reference pressures. -/
noncomputable def one : Sol :=
  ⟨⟨1, fun _ => 10, fun _ _ => 1, fun _ _ => 1, fun _ _ => 1, 1, 1⟩, fun _ => 2, 0, 1 / 4⟩

noncomputable def oneSt : St := ⟨⟨1, 10 / 4, fun _ => 1⟩, 2⟩

theorem one_good : Good one.toMech oneSt.toSt :=
  ⟨by norm_num [one], by norm_num [one], fun _ _ => by norm_num [one], by norm_num [oneSt],
   by norm_num [oneSt], fun _ _ => by norm_num [oneSt], by norm_num [one, oneSt]⟩

theorem one_dens : Lattice.Dens one oneSt := by
  norm_num [Lattice.Dens, one, oneSt]

theorem one_noTrace : NoTrace one.toMech oneSt.toSt := by
  intro k _
  right
  have h1 : small ≤ 1 / 100 := by
    unfold small
    exact one_div_le_one_div_of_le (by norm_num)
      (le_trans (by norm_num) (pow_le_pow_right₀ (by norm_num : (1:ℝ) ≤ 10) (by norm_num : 2 ≤ 300)))
  have hm : mmw one.toMech oneSt.toSt = 10 := by norm_num [mmw, one, oneSt]
  rw [hm]
  show small ≤ 1 ∧ small ≤ 1 / 10
  constructor <;> linarith

/-- Refuted: a lattice whose species has its own molar volume, at twice the reference pressure:
`g` is not `sum X mu`, `h` is not the sum of the partial molar enthalpies, the standard chemical
potential is not that of the pure species. -/
theorem lattice_witness :
    Lattice.gibbsMole one oneSt ≠ ∑ k ∈ Finset.range one.n, oneSt.X k * Lattice.chemPot one oneSt k ∧
    Lattice.enthalpyMole one oneSt ≠
      ∑ k ∈ Finset.range one.n, oneSt.X k * Lattice.pmEnthalpy one oneSt k ∧
    Lattice.stdChemPot one oneSt 0 ≠ Lattice.pureGibbs one oneSt 0 := by
  have hs : 0 < one.site := by norm_num [one]
  refine ⟨fun e => ?_, fun e => ?_, fun e => ?_⟩
  · have := Lattice.gibbs_diff one_good one_dens hs one_noTrace
    rw [e] at this
    norm_num [one, oneSt, Lattice.pmVolume] at this
  · have := Lattice.enthalpy_diff one_good one_dens hs
    rw [e] at this
    norm_num [one, oneSt] at this
  · norm_num [Lattice.stdChemPot, Lattice.pureGibbs, g0, RT, one, oneSt] at e

/-- Refuted: `setToEquilState` of a pure solid for the potential `g + ln 2` gives another one. -/
theorem setToEquilState_witness : ∃ y, Solid.setToEquilState one oneSt (fun _ => Real.log 2) = some y ∧
    Solid.chemPot one y 0 = 2 ∧ (2 : ℝ) ≠ one.R * oneSt.T * Real.log 2 := by
  have hl : Real.log 2 ≤ 1 := by
    have := Real.log_le_sub_one_of_pos (show (0:ℝ) < 2 by norm_num); linarith
  have hl0 : 0 ≤ Real.log 2 := Real.log_nonneg (by norm_num)
  have hr : ∀ k < one.n, -600 ≤ Real.log 2 - (one.h k oneSt.T - one.s k oneSt.T) ∧
      Real.log 2 - (one.h k oneSt.T - one.s k oneSt.T) ≤ 500 := by
    intro k _
    have : one.h k oneSt.T - one.s k oneSt.T = 0 := by norm_num [one]
    rw [this]; constructor <;> linarith
  obtain ⟨y, e1, -, -, e3, e4⟩ := Solid.setToEquilState_spec one_good
    (fun _ _ => by norm_num [one]) (by norm_num [one]) (fun _ => Real.log 2) hr
  have hS : ∑ k ∈ Finset.range one.n, Real.exp (Real.log 2 - (one.h k oneSt.T - one.s k oneSt.T))
      = 2 := by
    norm_num [one, Real.exp_log]
  have hn : 0 < one.n := by norm_num [one]
  rw [hS] at e3 e4
  have hx : y.X 0 = 1 := by
    rw [e3 0 hn]
    norm_num [one, Real.exp_log]
  refine ⟨y, e1, ?_, ?_⟩
  · rw [e4 0 hn (by
      rw [hx]
      unfold small
      exact (div_le_one (by positivity)).2 (one_le_pow₀ (by norm_num)))]
    norm_num [one, oneSt]
  · have : one.R * oneSt.T * Real.log 2 = Real.log 2 := by norm_num [one, oneSt]
    rw [this]; intro h; linarith

example : Solid.Dens one (Solid.tp one (fun _ => 1) 1 2) ∧
    Good one.toMech (Solid.tp one (fun _ => 1) 1 2).toSt := by
  have h : Comp one.toMech (fun _ => 1) :=
    ⟨by norm_num [one], by norm_num [one], fun _ _ => by norm_num [one],
     fun _ _ => by norm_num, by norm_num [one]⟩
  obtain ⟨a, b⟩ := Solid.tp_good (p := 2) h (fun _ _ => by norm_num [one]) one_pos
  exact ⟨b, a⟩

end Verif.IdealSoln
