import Verif.Thermo.Iapws
import Verif.Thermo.IapwsPhiProps2

/-!
# Dimensional water properties: thermodynamic consistency
-/

namespace Verif.Iapws

theorem Tc_pos : 0 < Tc := by norm_num [Tc]
theorem Rhoc_pos : 0 < Rhoc := by norm_num [Rhoc]
theorem Rw_pos : 0 < Rw := by norm_num [Rw]

/-- Critical constants and gas constant as published (IAPWS-95, J/(kg K), K, kg/m³, Pa). -/
theorem constants : Tc = 647096 / 1000 ∧ Rhoc = 322 ∧ Pc = 22064000 ∧
    Rw = 46151805 / 100000 := by
  norm_num [Tc, Rhoc, Pc, Rw]

/-- `setState_TD` can be read back. -/
theorem setTD_roundtrip {T : ℝ} (hT : T ≠ 0) (ρ : ℝ) :
    temperatureOf (setTD T ρ) = T ∧ densityOf (setTD T ρ) = ρ := by
  have := Tc_pos
  have := Rhoc_pos
  constructor
  · simp only [temperatureOf, setTD]
    field_simp
  · simp only [densityOf, setTD]
    field_simp

/-- The stored phase flag. -/
theorem setTD_phase (T ρ : ℝ) : (setTD T ρ).st =
    if T > 647.096 then .supercrit else if ρ < 322 then .gas else .liquid := by
  simp only [setTD, Tc]
  have : ρ / Rhoc < 1 ↔ ρ < 322 := by
    rw [div_lt_one Rhoc_pos]; norm_num [Rhoc]
  simp only [this]

/-! ## Chain rule -/

theorem hasDerivAt_tau {T : ℝ} (hT : 0 < T) : HasDerivAt (fun x => Tc / x) (-(Tc / T ^ 2)) T := by
  refine ((hasDerivAt_const T Tc).fun_div (hasDerivAt_id' T) hT.ne').congr_deriv ?_
  field_simp
  ring

theorem hasDerivAt_delta (ρ : ℝ) : HasDerivAt (fun x => x / Rhoc) (1 / Rhoc) ρ :=
  (hasDerivAt_id' ρ).div_const Rhoc

/-! ## Pressure -/

theorem pressure_formula (K : Coef) {T ρ : ℝ} (hT : T ≠ 0) :
    pressure K T ρ = (phiR_d K (Tc / T) (ρ / Rhoc)).map
      fun r => ρ * Rw * T * (1 + ρ / Rhoc * r) := by
  have h1 := Tc_pos
  have h2 := Rhoc_pos
  unfold pressure pressureM setTD
  simp only [Option.map_map]
  congr 1
  funext r
  simp only [Function.comp]
  field_simp

theorem triag_ne_of_some {K : Coef} {τ δ v : ℝ} (h : phiR_d K τ δ = some v) :
    0 < τ ∧ δ ≠ 0 ∧ ∀ j < 2, triag K j τ δ ≠ 0 := by
  unfold phiR_d at h
  split_ifs at h with hc
  exact hc

/-- `dpdrho` is the derivative of the pressure with respect to density at fixed temperature. -/
theorem dpdrho_is_derivative {K : Coef} (hK : Good K) {T ρ v : ℝ} (hT : 0 < T)
    (h : dpdrho K T ρ = some v) : HasDerivAt (fun x => (pressure K T x).getD 0) v ρ := by
  have h1 := Tc_pos
  have h2 := Rhoc_pos
  unfold dpdrho dimdpdrho setTD at h
  simp only at h
  cases hd : phiR_d K (Tc / T) (ρ / Rhoc) with
  | none => rw [hd] at h; simp at h
  | some r1 =>
  cases hdd : phiR_dd K (Tc / T) (ρ / Rhoc) with
  | none => rw [hd, hdd] at h; simp at h
  | some r2 =>
  rw [hd, hdd] at h
  simp only [Option.map_some, Option.some.injEq] at h
  obtain ⟨hτ, hδ, ht⟩ := triag_ne_of_some hd
  have hev := (hasDerivAt_delta ρ).continuousAt.eventually (eventually_delta hK hτ hδ ht)
  have hder : HasDerivAt (fun x => (phiR_d K (Tc / T) (x / Rhoc)).getD 0) (r2 * (1 / Rhoc)) ρ :=
    HasDerivAt.comp ρ (phiR_d_hasDeriv_delta hK hdd) (hasDerivAt_delta ρ)
  have hw := ((hasDerivAt_id' ρ).mul_const (Rw * T)).fun_mul
    (((hasDerivAt_delta ρ).fun_mul hder).const_add 1)
  refine (hw.congr_of_eventuallyEq (f₁ := fun x => (pressure K T x).getD 0) ?_).congr_deriv ?_
  · filter_upwards [hev] with x hx
    rw [pressure_formula K hT.ne', hx]
    simp only [Option.map_some, Option.getD_some]
    ring
  · rw [hd, ← h]
    simp only [Option.getD_some]
    field_simp
    ring

/-- `ρ R coeffPresExp` is the derivative of the pressure with respect to temperature at fixed
density. -/
theorem dpdT_is_derivative {K : Coef} {T ρ v : ℝ} (hT : 0 < T)
    (h : coeffPresExp K T ρ = some v) :
    HasDerivAt (fun x => (pressure K x ρ).getD 0) (ρ * Rw * v) T := by
  have h1 := Tc_pos
  have h2 := Rhoc_pos
  unfold coeffPresExp dimdpdT setTD at h
  simp only at h
  cases hd : phiR_d K (Tc / T) (ρ / Rhoc) with
  | none => rw [hd] at h; simp at h
  | some r1 =>
  cases hdt : phiR_dt K (Tc / T) (ρ / Rhoc) with
  | none => rw [hd, hdt] at h; simp at h
  | some r2 =>
  rw [hd, hdt] at h
  simp only [Option.some.injEq] at h
  obtain ⟨hτ, hδ, ht⟩ := triag_ne_of_some hd
  have hev := (hasDerivAt_tau hT).continuousAt.eventually (eventually_tau hτ ht)
  have hder : HasDerivAt (fun x => (phiR_d K (Tc / x) (ρ / Rhoc)).getD 0)
      (r2 * -(Tc / T ^ 2)) T :=
    HasDerivAt.comp (h₂ := fun y => (phiR_d K y (ρ / Rhoc)).getD 0) T
      (phiR_d_hasDeriv_tau hdt) (hasDerivAt_tau hT)
  have hw := ((hasDerivAt_id' T).const_mul (ρ * Rw)).fun_mul
    ((hder.const_mul (ρ / Rhoc)).const_add 1)
  refine (hw.congr_of_eventuallyEq (f₁ := fun x => (pressure K x ρ).getD 0) ?_).congr_deriv ?_
  · filter_upwards [hev, eventually_gt_nhds hT] with x hx hx0
    have e : phiR_d K (Tc / x) (ρ / Rhoc) = some (phiR_dV K (Tc / x) (ρ / Rhoc)) := by
      unfold phiR_d; rw [if_pos ⟨hx.1, hδ, hx.2⟩]
    rw [pressure_formula K hx0.ne', e]
    simp only [Option.map_some, Option.getD_some]
  · rw [hd, ← h]
    simp only [Option.getD_some]
    field_simp
    ring

/-- Isothermal compressibility `1/(ρ ∂p/∂ρ)` and thermal expansion
`(∂p/∂T)_ρ / (ρ (∂p/∂ρ)_T) = -(1/ρ)(∂ρ/∂T)_p`. -/
theorem expansion_formulas {K : Coef} {T ρ a b : ℝ} (hρ : ρ ≠ 0)
    (ha : dpdrho K T ρ = some a) (hb : coeffPresExp K T ρ = some b) :
    isoComp K T ρ = some (1 / (ρ * a)) ∧
    coeffThermExp K T ρ = some (ρ * Rw * b / (ρ * a)) := by
  have h2 := Rhoc_pos
  have e : isoComp K T ρ = some (1 / (ρ * a)) := by
    unfold isoComp
    rw [ha]
    simp only [setTD, Option.map_some]
    congr 2
    field_simp
  refine ⟨e, ?_⟩
  unfold coeffThermExp
  rw [e, hb]
  simp only [setTD]
  congr 1
  by_cases h0 : a = 0
  · subst h0; simp
  · field_simp

/-! ## Energies -/

/-- `h = u + p/ρ`. -/
theorem enthalpy_eq {K : Coef} {T ρ u p : ℝ} (hT : T ≠ 0) (hρ : ρ ≠ 0)
    (hu : intEnergyMass K T ρ = some u) (hp : pressure K T ρ = some p) :
    enthalpyMass K T ρ = some (u + p / ρ) := by
  have h1 := Tc_pos
  have h2 := Rhoc_pos
  rw [pressure_formula K hT] at hp
  unfold intEnergyMass intEnergyRT setTD at hu
  unfold enthalpyMass enthalpyRT setTD
  simp only at hu ⊢
  cases hd : phiR_d K (Tc / T) (ρ / Rhoc) with
  | none => rw [hd] at hp; simp at hp
  | some rd =>
  cases ht : phiR_t K (Tc / T) (ρ / Rhoc) with
  | none => rw [ht] at hu; simp at hu
  | some rt =>
  rw [hd] at hp
  rw [ht] at hu
  simp only [Option.map_some, Option.some.injEq] at hu hp ⊢
  rw [← hu, ← hp]
  field_simp
  ring

/-- `g = h - T s`. -/
theorem gibbs_eq {K : Coef} {T ρ h s : ℝ} (hT : T ≠ 0)
    (hh : enthalpyMass K T ρ = some h) (hs : entropyMass K T ρ = some s) :
    gibbsMass K T ρ = some (h - T * s) := by
  have h1 := Tc_pos
  unfold entropyMass entropyR setTD at hs
  unfold enthalpyMass enthalpyRT setTD at hh
  unfold gibbsMass gibbsRT setTD
  simp only at hs hh ⊢
  cases hd : phiR_d K (Tc / T) (ρ / Rhoc) with
  | none => rw [hd] at hh; simp at hh
  | some rd =>
  cases ht : phiR_t K (Tc / T) (ρ / Rhoc) with
  | none => rw [ht] at hs; simp at hs
  | some rt =>
  rw [hd, ht] at hh
  rw [ht] at hs
  simp only [Option.map_some, Option.some.injEq] at hs hh ⊢
  rw [← hh, ← hs]
  field_simp
  ring

/-- The Helmholtz function `u - T s` is `R T (φ⁰ + φʳ)`. -/
theorem helmholtz_eq {K : Coef} {T ρ u s : ℝ} (hT : T ≠ 0)
    (hu : intEnergyMass K T ρ = some u) (hs : entropyMass K T ρ = some s) :
    u - T * s = Rw * T * (phi0 K (Tc / T) (ρ / Rhoc) + phiR K (Tc / T) (ρ / Rhoc)) := by
  have h1 := Tc_pos
  unfold entropyMass entropyR setTD at hs
  unfold intEnergyMass intEnergyRT setTD at hu
  simp only at hs hu
  cases ht : phiR_t K (Tc / T) (ρ / Rhoc) with
  | none => rw [ht] at hs; simp at hs
  | some rt =>
  rw [ht] at hs hu
  simp only [Option.map_some, Option.some.injEq] at hs hu
  rw [← hu, ← hs]
  field_simp
  ring

/-- `(∂a/∂ρ)_T = p/ρ²`. -/
theorem helmholtz_drho {K : Coef} (hK : Good K) {T ρ p : ℝ} (hT : 0 < T) (hρ : 0 < ρ)
    (hp : pressure K T ρ = some p) :
    HasDerivAt (fun x => Rw * T * (phi0 K (Tc / T) (x / Rhoc) + phiR K (Tc / T) (x / Rhoc)))
      (p / ρ ^ 2) ρ := by
  have h1 := Tc_pos
  have h2 := Rhoc_pos
  rw [pressure_formula K hT.ne'] at hp
  cases hd : phiR_d K (Tc / T) (ρ / Rhoc) with
  | none => rw [hd] at hp; simp at hp
  | some rd =>
  rw [hd] at hp
  simp only [Option.map_some, Option.some.injEq] at hp
  have hδ : 0 < ρ / Rhoc := div_pos hρ h2
  have e0 := HasDerivAt.comp (h₂ := fun y => phi0 K (Tc / T) y) ρ
    (phi0_hasDeriv_delta K (Tc / T) hδ) (hasDerivAt_delta ρ)
  have e1 := HasDerivAt.comp (h₂ := fun y => phiR K (Tc / T) y) ρ
    (phiR_hasDeriv_delta hK hd) (hasDerivAt_delta ρ)
  refine ((e0.add e1).const_mul (Rw * T)).congr_deriv ?_
  rw [← hp]
  unfold phi0_d
  field_simp

/-- `(∂a/∂T)_ρ = -s`. -/
theorem helmholtz_dT {K : Coef} {T ρ s : ℝ} (hT : 0 < T)
    (hg : ∀ i, 4 ≤ i → i ≤ 8 → 0 < K.g0 i) (hs : entropyMass K T ρ = some s) :
    HasDerivAt (fun x => Rw * x * (phi0 K (Tc / x) (ρ / Rhoc) + phiR K (Tc / x) (ρ / Rhoc)))
      (-s) T := by
  have h1 := Tc_pos
  unfold entropyMass entropyR setTD at hs
  simp only at hs
  cases ht : phiR_t K (Tc / T) (ρ / Rhoc) with
  | none => rw [ht] at hs; simp at hs
  | some rt =>
  rw [ht] at hs
  simp only [Option.map_some, Option.some.injEq] at hs
  have e0 := HasDerivAt.comp (h₂ := fun y => phi0 K y (ρ / Rhoc)) T
    (phi0_hasDeriv_tau K (ρ / Rhoc) (div_pos h1 hT) hg) (hasDerivAt_tau hT)
  have e1 := HasDerivAt.comp (h₂ := fun y => phiR K y (ρ / Rhoc)) T
    (phiR_hasDeriv_tau ht) (hasDerivAt_tau hT)
  refine (((hasDerivAt_id' T).const_mul Rw).fun_mul (e0.add e1)).congr_deriv ?_
  rw [← hs]
  simp only [Pi.add_apply, Function.comp]
  field_simp
  ring

/-- `cv = (∂u/∂T)_ρ = T (∂s/∂T)_ρ`. -/
theorem cv_is_derivative {K : Coef} (hK : Good K) {T ρ c : ℝ} (hT : 0 < T)
    (hg : ∀ i, 4 ≤ i → i ≤ 8 → 0 < K.g0 i) (hc : cvMass K T ρ = some c) :
    HasDerivAt (fun x => (intEnergyMass K x ρ).getD 0) c T ∧
    HasDerivAt (fun x => (entropyMass K x ρ).getD 0) (c / T) T := by
  have h1 := Tc_pos
  unfold cvMass cvR setTD at hc
  simp only at hc
  cases htt : phiR_tt K (Tc / T) (ρ / Rhoc) with
  | none => rw [htt] at hc; simp at hc
  | some rtt =>
  rw [htt] at hc
  simp only [Option.map_some, Option.some.injEq] at hc
  have hcond : 0 < Tc / T ∧ ∀ j < 2, triag K j (Tc / T) (ρ / Rhoc) ≠ 0 := by
    unfold phiR_tt at htt
    split_ifs at htt with h
    exact h
  have ht0 : phiR_t K (Tc / T) (ρ / Rhoc) = some (phiR_tV K (Tc / T) (ρ / Rhoc)) := by
    unfold phiR_t; rw [if_pos hcond]
  have hev := (hasDerivAt_tau hT).continuousAt.eventually (eventually_tau hcond.1 hcond.2)
  have hev' : ∀ᶠ x in nhds T, phiR_t K (Tc / x) (ρ / Rhoc)
      = some (phiR_tV K (Tc / x) (ρ / Rhoc)) := by
    filter_upwards [hev] with x hx
    unfold phiR_t; rw [if_pos hx]
  have d0 := HasDerivAt.comp (h₂ := fun y => phi0 K y (ρ / Rhoc)) T
    (phi0_hasDeriv_tau K (ρ / Rhoc) (div_pos h1 hT) hg) (hasDerivAt_tau hT)
  have d1 := HasDerivAt.comp (h₂ := fun y => phiR K y (ρ / Rhoc)) T
    (phiR_hasDeriv_tau ht0) (hasDerivAt_tau hT)
  have e0 := HasDerivAt.comp (h₂ := fun y => phi0_t K y) T
    (phi0_t_hasDeriv_tau K (div_pos h1 hT) hg) (hasDerivAt_tau hT)
  have e1 := HasDerivAt.comp (h₂ := fun y => (phiR_t K y (ρ / Rhoc)).getD 0) T
    (phiR_t_hasDeriv_tau hK htt) (hasDerivAt_tau hT)
  constructor
  · have hw := (e0.add e1).const_mul (Rw * Tc)
    refine (hw.congr_of_eventuallyEq (f₁ := fun x => (intEnergyMass K x ρ).getD 0) ?_).congr_deriv ?_
    · filter_upwards [hev', eventually_gt_nhds hT] with x hx hx0
      unfold intEnergyMass intEnergyRT setTD
      simp only [Pi.add_apply, Function.comp, hx, Option.map_some, Option.getD_some]
      field_simp
    · rw [← hc]
      field_simp
      ring
  · have hw := (((hasDerivAt_tau hT).fun_mul (e0.add e1)).fun_sub (d0.add d1)).mul_const Rw
    refine (hw.congr_of_eventuallyEq (f₁ := fun x => (entropyMass K x ρ).getD 0) ?_).congr_deriv ?_
    · filter_upwards [hev'] with x hx
      unfold entropyMass entropyR setTD
      simp only [Pi.add_apply, Function.comp, hx, Option.map_some, Option.getD_some]
      ring
    · rw [← hc]
      simp only [Pi.add_apply, Function.comp, ht0, Option.getD_some]
      field_simp
      ring

/-- `cp = cv + T (∂p/∂T)² / (ρ² ∂p/∂ρ)`, with the derivatives of `dpdrho` and `coeffPresExp`. -/
theorem cp_formula {K : Coef} {T ρ c a b : ℝ} (hT : 0 < T) (hρ : ρ ≠ 0)
    (hc : cvMass K T ρ = some c)
    (ha : dpdrho K T ρ = some a) (hb : coeffPresExp K T ρ = some b) :
    cpMass K T ρ = some (c + T * (ρ * Rw * b) ^ 2 / (ρ ^ 2 * a)) := by
  have h1 := Tc_pos
  have h2 := Rhoc_pos
  have h3 := Rw_pos
  unfold cvMass setTD at hc
  unfold dpdrho dimdpdrho setTD at ha
  unfold coeffPresExp dimdpdT setTD at hb
  unfold cpMass cpR setTD
  simp only at hc ha hb ⊢
  cases hcv : cvR K (Tc / T) (ρ / Rhoc) with
  | none => rw [hcv] at hc; simp at hc
  | some cv =>
  cases hd : phiR_d K (Tc / T) (ρ / Rhoc) with
  | none => rw [hd] at ha; simp at ha
  | some r1 =>
  cases hdd : phiR_dd K (Tc / T) (ρ / Rhoc) with
  | none => rw [hd, hdd] at ha; simp at ha
  | some r2 =>
  cases hdt : phiR_dt K (Tc / T) (ρ / Rhoc) with
  | none => rw [hd, hdt] at hb; simp at hb
  | some r3 =>
  rw [hcv] at hc
  rw [hd, hdd] at ha
  rw [hd, hdt] at hb
  simp only [Option.map_some, Option.some.injEq] at hc ha hb ⊢
  have eτ : Tc / (Tc / T) = T := by field_simp
  rw [eτ] at ha
  rw [← hc, ← ha, ← hb, add_mul]
  congr 1
  have e2 : (1 + 2 * (ρ / Rhoc) * r1 + ρ / Rhoc * (ρ / Rhoc) * r2)
      = 1 + ρ / Rhoc * (2 * r1 + ρ / Rhoc * r2) := by ring
  rw [e2]
  generalize 1 + ρ / Rhoc * (2 * r1 + ρ / Rhoc * r2) = X
  by_cases hX : X = 0
  · subst hX; simp
  · field_simp

/-- Every property is a number at every state away from the critical isochore. -/
theorem defined {K : Coef} (hK : Good K) {T ρ : ℝ} (hT : 0 < T) (hρ : 0 < ρ) (h : ρ ≠ 322) :
    (pressure K T ρ).isSome ∧ (dpdrho K T ρ).isSome ∧ (coeffPresExp K T ρ).isSome ∧
    (isoComp K T ρ).isSome ∧ (coeffThermExp K T ρ).isSome ∧ (gibbsMass K T ρ).isSome ∧
    (enthalpyMass K T ρ).isSome ∧ (intEnergyMass K T ρ).isSome ∧ (entropyMass K T ρ).isSome ∧
    (cvMass K T ρ).isSome ∧ (cpMass K T ρ).isSome := by
  have h1 := Tc_pos
  have h2 := Rhoc_pos
  have hτ : 0 < Tc / T := div_pos h1 hT
  have hδ : ρ / Rhoc ≠ 0 := (div_pos hρ h2).ne'
  have hδ1 : ρ / Rhoc ≠ 1 := by
    intro h'; rw [div_eq_one_iff_eq h2.ne'] at h'; exact h (by rw [h']; rfl)
  have hn : ¬(ρ / Rhoc = 1 ∧ Tc / T = 1) := fun h' => hδ1 h'.1
  obtain ⟨rd, hd⟩ := Option.isSome_iff_exists.1 ((phiR_d_some_iff hK (Tc / T) (ρ / Rhoc)).2
    ⟨hτ, hδ, hn⟩)
  obtain ⟨rdd, hdd⟩ := Option.isSome_iff_exists.1 ((phiR_dd_some_iff hK (Tc / T) (ρ / Rhoc)).2
    ⟨hτ, hδ, hδ1⟩)
  obtain ⟨rdt, hdt⟩ := Option.isSome_iff_exists.1 ((phiR_dt_some_iff hK (Tc / T) (ρ / Rhoc)).2
    ⟨hτ, hδ, hn⟩)
  obtain ⟨rt, ht⟩ := Option.isSome_iff_exists.1 ((phiR_t_some_iff hK (Tc / T) (ρ / Rhoc)).1.2
    ⟨hτ, hn⟩)
  obtain ⟨rtt, htt⟩ := Option.isSome_iff_exists.1 ((phiR_t_some_iff hK (Tc / T) (ρ / Rhoc)).2.2
    ⟨hτ, hn⟩)
  simp [pressure, pressureM, dpdrho, dimdpdrho, coeffPresExp, dimdpdT, isoComp, coeffThermExp,
    gibbsMass, gibbsRT, enthalpyMass, enthalpyRT, intEnergyMass, intEnergyRT, entropyMass, entropyR,
    cvMass, cvR, cpMass, cpR, setTD, hd, hdd, hdt, ht, htt]

/-- At 300 K and 1000 kg/m³ all of these hypotheses hold for the coefficients of water. -/
example (n n0 g0 : ℕ → ℝ) : ∃ p, pressure (water n n0 g0) 300 1000 = some p ∧
    HasDerivAt (fun x => Rw * 300 * (phi0 (water n n0 g0) (Tc / 300) (x / Rhoc)
      + phiR (water n n0 g0) (Tc / 300) (x / Rhoc))) (p / 1000 ^ 2) 1000 := by
  obtain ⟨p, hp⟩ := Option.isSome_iff_exists.1
    (defined (water_good n n0 g0) (T := 300) (ρ := 1000) (by norm_num) (by norm_num)
      (by norm_num)).1
  exact ⟨p, hp, helmholtz_drho (water_good n n0 g0) (by norm_num) (by norm_num) hp⟩

example (n n0 g0 : ℕ → ℝ) : ∃ v, HasDerivAt (fun x => (pressure (water n n0 g0) 300 x).getD 0) v 1000 := by
  obtain ⟨p, hp⟩ := Option.isSome_iff_exists.1
    (defined (water_good n n0 g0) (T := 300) (ρ := 1000) (by norm_num) (by norm_num)
      (by norm_num)).2.1
  exact ⟨p, dpdrho_is_derivative (water_good n n0 g0) (by norm_num) hp⟩

/-- On the critical isochore `cp`, the compressibility and the expansion coefficient are NaN at
every temperature, although the pressure is differentiable there when `T ≠ T_c`. -/
theorem critical_isochore {K : Coef} (hK : Good K) {T : ℝ} (hT : 0 < T) (h : T ≠ 647.096) :
    dpdrho K T 322 = none ∧ isoComp K T 322 = none ∧ coeffThermExp K T 322 = none ∧
    cpMass K T 322 = none ∧ DifferentiableAt ℝ (fun x => (pressure K T x).getD 0) 322 := by
  have h1 := Tc_pos
  have h2 := Rhoc_pos
  have hτ : 0 < Tc / T := div_pos h1 hT
  have hτ1 : Tc / T ≠ 1 := by
    intro h'; rw [div_eq_one_iff_eq hT.ne'] at h'; exact h (by rw [← h']; rfl)
  have e : (322 : ℝ) / Rhoc = 1 := by norm_num [Rhoc]
  obtain ⟨hn, hdiff⟩ := critical_density hK hτ hτ1
  have h3 : dpdrho K T 322 = none := by
    simp only [dpdrho, dimdpdrho, setTD, e, hn]
    cases phiR_d K (Tc / T) 1 <;> rfl
  have h4 : isoComp K T 322 = none := by
    unfold isoComp; rw [h3]; rfl
  refine ⟨h3, h4, ?_, ?_, ?_⟩
  · unfold coeffThermExp; rw [h4]
  · simp only [cpMass, cpR, setTD, e, hn]
    cases cvR K (Tc / T) 1 <;> cases phiR_d K (Tc / T) 1 <;> rfl
  · have ht : ∀ j < 2, triag K j (Tc / T) (322 / Rhoc) ≠ 0 := fun j hj h0 =>
      hτ1 ((triag_eq_zero_iff hK hj _ _).1 h0).2
    have hev := (hasDerivAt_delta 322).continuousAt.eventually
      (eventually_delta hK hτ (show (322 : ℝ) / Rhoc ≠ 0 by rw [e]; exact one_ne_zero) ht)
    have hc : DifferentiableAt ℝ (fun x => (phiR_d K (Tc / T) (x / Rhoc)).getD 0) 322 := by
      have hd' : DifferentiableAt ℝ (fun x => (phiR_d K (Tc / T) x).getD 0) (322 / Rhoc) := by
        rw [e]; exact hdiff
      exact DifferentiableAt.comp (f := fun x => x / Rhoc) (322 : ℝ) hd'
        (hasDerivAt_delta 322).differentiableAt
    have hw : DifferentiableAt ℝ (fun x => x * Rw * T
        * (1 + x / Rhoc * (phiR_d K (Tc / T) (x / Rhoc)).getD 0)) 322 := by
      refine ((differentiableAt_id.mul_const Rw).mul_const T).mul ?_
      exact ((hasDerivAt_delta 322).differentiableAt.mul hc).const_add 1
    refine hw.congr_of_eventuallyEq ?_
    filter_upwards [hev] with x hx
    rw [pressure_formula K hT.ne', hx]
    simp

end Verif.Iapws
