import Verif.Thermo.Pdss
import Mathlib.Analysis.Calculus.Deriv.Add
import Mathlib.Analysis.Calculus.Deriv.Mul
import Mathlib.Analysis.Calculus.Deriv.Inv
import Mathlib.Analysis.Calculus.Deriv.Pow
import Mathlib.Tactic.FieldSimp
import Mathlib.Tactic.Linarith
import Mathlib.Tactic.LinearCombination
import Mathlib.Tactic.Positivity

/-!
# Properties of pressure dependent standard states
-/

namespace Verif.Pdss

open Filter Topology

variable (D : Ref)

/-- The reference thermodynamics belong together. -/
structure Consistent (D : Ref) : Prop where
  h : ∀ T, 0 < T → HasDerivAt (fun T => D.h T * T) (D.cp T) T
  s : ∀ T, 0 < T → HasDerivAt D.s (D.cp T / T) T

theorem consistent_exists : ∃ D : Ref, Consistent D ∧ 1 < D.R := by
  refine ⟨⟨8314, 100000, fun _ => 0, fun _ => 0, fun _ => 0⟩, ⟨fun T _ => ?_, fun T _ => ?_⟩,
    by norm_num⟩
  · simpa using hasDerivAt_const T (0 : ℝ)
  · simpa using hasDerivAt_const T (0 : ℝ)

/-! ## Constant volume -/
namespace ConstVol

/-- Values which belong to the temperature and pressure of the state. -/
def Fresh (V : ℝ) (x : St) : Prop :=
  x.Vss = V ∧ x.h0 = D.h x.T ∧ x.sss = D.s x.T ∧ x.cpss = D.cp x.T ∧
  x.hss = D.h x.T + (x.P - D.p0) * V / (D.R * x.T) ∧ x.gss = x.hss - x.sss

theorem fresh_setTemperature (V : ℝ) (x : St) (hV : x.Vss = V) (T : ℝ) :
    Fresh D V (setTemperature D x T) ∧ (setTemperature D x T).T = T ∧
      (setTemperature D x T).P = x.P := by
  subst hV
  refine ⟨⟨rfl, rfl, rfl, rfl, ?_, rfl⟩, rfl, rfl⟩
  simp only [setTemperature]
  ring

/-- Setting only the pressure keeps the values of the temperature. -/
theorem fresh_setPressure (V : ℝ) (x : St) (h : Fresh D V x) (p : ℝ) :
    Fresh D V (setPressure D x p) ∧ (setPressure D x p).T = x.T ∧ (setPressure D x p).P = p := by
  obtain ⟨h1, h2, h3, h4, h5, h6⟩ := h
  refine ⟨⟨h1, h2, h3, h4, ?_, rfl⟩, rfl, rfl⟩
  simp only [setPressure, h1, h2]
  ring

theorem fresh_setTP (V : ℝ) (x : St) (hV : x.Vss = V) (T p : ℝ) :
    Fresh D V (setTP D x T p) ∧ (setTP D x T p).T = T ∧ (setTP D x T p).P = p := by
  obtain ⟨a, b, _⟩ := fresh_setTemperature D V x hV T
  obtain ⟨c, d, e⟩ := fresh_setPressure D V _ a p
  exact ⟨c, d.trans b, e⟩

/-- The values by temperature and pressure alone. -/
theorem values (hR : D.R ≠ 0) (V : ℝ) (x : St) (hV : x.Vss = V) (T p : ℝ) (hT : T ≠ 0) :
    enthalpy D (setTP D x T p) = D.R * (D.h T * T) + (p - D.p0) * V ∧
    entropy D (setTP D x T p) = D.R * D.s T ∧
    gibbs D (setTP D x T p) = D.R * (D.h T * T) - D.R * T * D.s T + (p - D.p0) * V ∧
    cp D (setTP D x T p) = D.R * D.cp T := by
  obtain ⟨⟨h1, h2, h3, h4, h5, h6⟩, hT', hP⟩ := fresh_setTP D V x hV T p
  rw [hT', hP] at h5
  rw [hT'] at h2 h3 h4
  unfold enthalpy entropy gibbs cp
  rw [h6, h5, h3, h4, hT']
  refine ⟨?_, ?_, ?_, ?_⟩
  · field_simp
  · ring
  · field_simp; ring
  · ring

/-- `g = h - T s`, and the derivatives: `dg/dT = -s`, `dg/dp = V`, `dh/dT = cp`. -/
theorem deriv_gibbs (hD : Consistent D) (hR : D.R ≠ 0) (V : ℝ) (x : St) (hV : x.Vss = V) (T p : ℝ)
    (hT : 0 < T) :
    gibbs D (setTP D x T p) = enthalpy D (setTP D x T p) - T * entropy D (setTP D x T p) ∧
    HasDerivAt (fun T => gibbs D (setTP D x T p)) (-entropy D (setTP D x T p)) T ∧
    HasDerivAt (fun p => gibbs D (setTP D x T p)) (setTP D x T p).Vss p ∧
    HasDerivAt (fun T => enthalpy D (setTP D x T p)) (cp D (setTP D x T p)) T ∧
    HasDerivAt (fun T => entropy D (setTP D x T p)) (cp D (setTP D x T p) / T) T := by
  obtain ⟨v1, v2, v3, v4⟩ := values D hR V x hV T p hT.ne'
  have ev : ∀ᶠ T' in 𝓝 T, 0 < T' := lt_mem_nhds hT
  refine ⟨by rw [v1, v2, v3]; ring, ?_, ?_, ?_, ?_⟩
  · have := (((hD.h T hT).const_mul D.R).fun_sub
      (((hasDerivAt_id' T).const_mul D.R).fun_mul (hD.s T hT))).add_const ((p - D.p0) * V)
    rw [v2]
    refine (this.congr_deriv ?_).congr_of_eventuallyEq ?_
    · field_simp; ring
    · filter_upwards [ev] with T' h
      exact (values D hR V x hV T' p h.ne').2.2.1
  · have : HasDerivAt (fun p => D.R * (D.h T * T) - D.R * T * D.s T + (p - D.p0) * V) (1 * V) p :=
      (((hasDerivAt_id' p).sub_const D.p0).mul_const V).const_add _
    rw [(fresh_setTP D V x hV T p).1.1]
    refine (this.congr_deriv (one_mul V)).congr_of_eventuallyEq (Eventually.of_forall fun p' => ?_)
    exact (values D hR V x hV T p' hT.ne').2.2.1
  · have := ((hD.h T hT).const_mul D.R).add_const ((p - D.p0) * V)
    rw [v4]
    refine this.congr_of_eventuallyEq ?_
    filter_upwards [ev] with T' h
    exact (values D hR V x hV T' p h.ne').1
  · have := (hD.s T hT).const_mul D.R
    rw [v4, mul_div_assoc]
    refine this.congr_of_eventuallyEq ?_
    filter_upwards [ev] with T' h
    exact (values D hR V x hV T' p h.ne').2.1

/-- The internal energy is off by `(p - p0) V`. -/
theorem intEnergy_defect (hR : D.R ≠ 0) (V : ℝ) (x : St) (hV : x.Vss = V) (T p : ℝ) (hT : T ≠ 0) :
    intEnergy D (setTP D x T p)
      = enthalpy D (setTP D x T p) - p * V - (p - D.p0) * V := by
  rw [(values D hR V x hV T p hT).1]
  obtain ⟨⟨h1, h2, -⟩, hT', hP⟩ := fresh_setTP D V x hV T p
  unfold intEnergy
  rw [h1, h2, hT', hP]
  ring

/-- The heat capacity at constant volume, which equals the one at constant pressure for an
incompressible substance, is off by the number of the molar volume. -/
theorem cv_defect (x : St) (T p : ℝ) :
    cv D (setTP D x T p) = cp D (setTP D x T p) - x.V0 := rfl

theorem refuted : ∃ (D : Ref) (x : St) (T p : ℝ), 0 < T ∧ 0 < D.R ∧ Consistent D ∧
    intEnergy D (setTP D x T p) ≠ enthalpy D (setTP D x T p) - p * x.Vss ∧
    cv D (setTP D x T p) ≠ cp D (setTP D x T p) := by
  obtain ⟨D, hD, hR⟩ := consistent_exists
  refine ⟨D, ⟨0, 0, 0, 0, 0, 0, 0, 0, 0, 0, 1, 1, 0, 0⟩, 1, D.p0 + 1, by norm_num, by linarith, hD,
    ?_, ?_⟩
  · rw [intEnergy_defect D (by linarith) 1 _ rfl 1 _ (by norm_num)]
    intro h
    linarith
  · rw [cv_defect]
    intro h
    norm_num at h

end ConstVol

/-! ## Volume from a polynomial -/
namespace SSVol

theorem poly_deriv (v : Vol) (T : ℝ) : HasDerivAt (poly v) (dpoly v T) T := by
  have h := hasDerivAt_id' T
  have := ((h.fun_mul ((h.fun_mul ((h.mul_const v.t3).const_add v.t2)).const_add v.t1)).const_add
    v.t0)
  refine HasDerivAt.congr_deriv (f := poly v) this ?_
  unfold dpoly
  ring

theorem dpoly_deriv (v : Vol) (T : ℝ) : HasDerivAt (dpoly v) (d2poly v T) T := by
  have h := hasDerivAt_id' T
  have := (((h.const_mul 2).mul_const v.t2).const_add v.t1).fun_add
    (((h.const_mul 3).fun_mul h).mul_const v.t3)
  refine HasDerivAt.congr_deriv (f := dpoly v) this ?_
  unfold d2poly
  ring

/-- The derivatives of the molar volume are its derivatives. -/
theorem vol_deriv (v : Vol) (T : ℝ) (h : v.dens = true → poly v T ≠ 0) :
    HasDerivAt (vol v) (dvol v T) T ∧ HasDerivAt (dvol v) (d2vol v T) T := by
  unfold vol dvol d2vol
  cases hd : v.dens with
  | false =>
    simp only [Bool.false_eq_true, if_false]
    exact ⟨poly_deriv v T, dpoly_deriv v T⟩
  | true =>
    have hp := h hd
    simp only [if_true]
    have p1 := poly_deriv v T
    have p2 := dpoly_deriv v T
    constructor
    · have := (hasDerivAt_const T v.mw).fun_div p1 hp
      refine this.congr_deriv ?_
      field_simp
      ring
    · have := ((hasDerivAt_const T (-v.mw)).fun_div (p1.fun_mul p1) (mul_ne_zero hp hp)).fun_mul p2
      refine this.congr_deriv ?_
      field_simp
      ring

/-- The molar volume itself. -/
theorem vol_formula (v : Vol) (T : ℝ) : vol v T =
    if v.dens then v.mw / (v.t0 + v.t1 * T + v.t2 * T ^ 2 + v.t3 * T ^ 3)
    else v.t0 + v.t1 * T + v.t2 * T ^ 2 + v.t3 * T ^ 3 := by
  have : poly v T = v.t0 + v.t1 * T + v.t2 * T ^ 2 + v.t3 * T ^ 3 := by unfold poly; ring
  unfold vol
  rw [this]

/-- Values which belong to the temperature of the state. -/
def Fresh (v : Vol) (x : St) : Prop :=
  x.h0 = D.h x.T ∧ x.s0 = D.s x.T ∧ x.cp0 = D.cp x.T ∧ x.Vss = vol v x.T ∧ x.V0 = vol v x.T ∧
  x.dV = dvol v x.T ∧ x.d2V = d2vol v x.T

/-- The values by temperature and pressure alone, away from the reference pressure. -/
theorem terms_far (hR : D.R ≠ 0) (v : Vol) (x : St) (h : Fresh D v x) (hT : x.T ≠ 0)
    (hp : ¬ |x.P - D.p0| < 1 / 10 ^ 10) :
    enthalpy D (pressureTerms D x)
      = D.R * (D.h x.T * x.T) + (x.P - D.p0) * (vol v x.T - x.T * dvol v x.T) ∧
    entropy D (pressureTerms D x) = D.R * D.s x.T - (x.P - D.p0) * dvol v x.T ∧
    gibbs D (pressureTerms D x)
      = D.R * (D.h x.T * x.T) - D.R * x.T * D.s x.T + (x.P - D.p0) * vol v x.T ∧
    cp D (pressureTerms D x) = D.R * (D.cp x.T - x.T * (x.P - D.p0) * d2vol v x.T) ∧
    intEnergy D (pressureTerms D x) = D.R * (D.h x.T * x.T) - x.P * vol v x.T := by
  obtain ⟨h1, h2, h3, h4, h5, h6, h7⟩ := h
  unfold enthalpy entropy gibbs cp intEnergy pressureTerms
  simp only [if_neg hp, h1, h2, h3, h4, h6, h7]
  refine ⟨?_, ?_, ?_, ?_, ?_⟩
  · field_simp; ring
  · field_simp; ring
  · field_simp; ring
  · ring
  · ring

/-- Next to the reference pressure the reference values are used. -/
theorem terms_near (v : Vol) (x : St) (h : Fresh D v x) (hp : |x.P - D.p0| < 1 / 10 ^ 10) :
    enthalpy D (pressureTerms D x) = D.R * (D.h x.T * x.T) ∧
    entropy D (pressureTerms D x) = D.R * D.s x.T ∧
    gibbs D (pressureTerms D x) = D.R * (D.h x.T * x.T) - D.R * x.T * D.s x.T ∧
    cp D (pressureTerms D x) = D.R * D.cp x.T := by
  obtain ⟨h1, h2, h3, h4, h5, h6, h7⟩ := h
  unfold enthalpy entropy gibbs cp pressureTerms
  simp only [if_pos hp, h1, h2, h3]
  refine ⟨?_, ?_, ?_, ?_⟩ <;> ring

theorem pressureTerms_keep (v : Vol) (x : St) (h : Fresh D v x) :
    Fresh D v (pressureTerms D x) ∧ (pressureTerms D x).T = x.T ∧ (pressureTerms D x).P = x.P ∧
    (pressureTerms D x).Vss = vol v x.T := by
  have h4 := h.2.2.2.1
  unfold pressureTerms
  by_cases hp : |x.P - D.p0| < 1 / 10 ^ 10
  · simp only [if_pos hp]; exact ⟨h, by trivial, by trivial, h4⟩
  · simp only [if_neg hp]; exact ⟨h, by trivial, by trivial, h4⟩

/-- Setting temperature and pressure, the temperature alone, and the pressure alone all lead to the
same values. -/
theorem set_eq (v : Vol) (x : St) (T p : ℝ) :
    ∃ y, Fresh D v y ∧ y.T = T ∧ y.P = p ∧ setTP D v x T p = pressureTerms D y :=
  ⟨_, ⟨rfl, rfl, rfl, rfl, rfl, rfl, rfl⟩, rfl, rfl, rfl⟩

theorem setTemperature_eq (v : Vol) (x : St) (T : ℝ) :
    ∃ y, Fresh D v y ∧ y.T = T ∧ y.P = x.P ∧ setTemperature D v x T = pressureTerms D y :=
  ⟨{ x with
      T := T, cp0 := D.cp T, h0 := D.h T, s0 := D.s T, g0 := D.h T - D.s T,
      Vss := vol v T, V0 := vol v T, dV := dvol v T, d2V := d2vol v T }, ⟨rfl, rfl, rfl, rfl, rfl, rfl, rfl⟩, rfl, rfl, rfl⟩

theorem setPressure_eq (v : Vol) (x : St) (h : Fresh D v x) (p : ℝ) :
    ∃ y, Fresh D v y ∧ y.T = x.T ∧ y.P = p ∧ setPressure D x p = pressureTerms D y :=
  ⟨{ x with P := p }, h, rfl, rfl, rfl⟩

theorem values (hR : D.R ≠ 0) (v : Vol) (x : St) (T p : ℝ) (hT : T ≠ 0)
    (hp : 1 / 10 ^ 10 < |p - D.p0|) :
    enthalpy D (setTP D v x T p)
      = D.R * (D.h T * T) + (p - D.p0) * (vol v T - T * dvol v T) ∧
    entropy D (setTP D v x T p) = D.R * D.s T - (p - D.p0) * dvol v T ∧
    gibbs D (setTP D v x T p) = D.R * (D.h T * T) - D.R * T * D.s T + (p - D.p0) * vol v T ∧
    cp D (setTP D v x T p) = D.R * (D.cp T - T * (p - D.p0) * d2vol v T) ∧
    intEnergy D (setTP D v x T p) = D.R * (D.h T * T) - p * vol v T := by
  obtain ⟨y, hy, hyT, hyP, he⟩ := set_eq D v x T p
  rw [he]
  have := terms_far D hR v y hy (by rw [hyT]; exact hT) (by rw [hyP]; exact not_lt.2 hp.le)
  rwa [hyT, hyP] at this

/-- The hypotheses of `values` are met. -/
example : ∃ D : Ref, D.R ≠ 0 ∧ (1 : ℝ) / 10 ^ 10 < |D.p0 + 1 - D.p0| := by
  obtain ⟨D, _, hR⟩ := consistent_exists
  exact ⟨D, by linarith, by norm_num⟩

/-- At the reference pressure. -/
theorem values_ref (v : Vol) (x : St) (T : ℝ) :
    enthalpy D (setTP D v x T D.p0) = D.R * (D.h T * T) ∧
    entropy D (setTP D v x T D.p0) = D.R * D.s T ∧
    gibbs D (setTP D v x T D.p0) = D.R * (D.h T * T) - D.R * T * D.s T ∧
    cp D (setTP D v x T D.p0) = D.R * D.cp T := by
  obtain ⟨y, hy, hyT, hyP, he⟩ := set_eq D v x T D.p0
  rw [he]
  have := terms_near D v y hy (by rw [hyP]; norm_num)
  rwa [hyT] at this

/-- `g = h - T s`, `dg/dT = -s`, `dg/dp = V`, `ds/dp = -dV/dT`. -/
theorem deriv_gibbs (hD : Consistent D) (hR : D.R ≠ 0) (v : Vol) (x : St) (T p : ℝ) (hT : 0 < T)
    (hp : 1 / 10 ^ 10 < |p - D.p0|) (hv : v.dens = true → poly v T ≠ 0) :
    gibbs D (setTP D v x T p) = enthalpy D (setTP D v x T p) - T * entropy D (setTP D v x T p) ∧
    HasDerivAt (fun T => gibbs D (setTP D v x T p)) (-entropy D (setTP D v x T p)) T ∧
    HasDerivAt (fun p => gibbs D (setTP D v x T p)) (setTP D v x T p).Vss p ∧
    HasDerivAt (fun p => entropy D (setTP D v x T p)) (-dvol v T) p ∧
    HasDerivAt (vol v) (dvol v T) T := by
  obtain ⟨v1, v2, v3, v4, -⟩ := values D hR v x T p hT.ne' hp
  obtain ⟨d1, d2⟩ := vol_deriv v T hv
  have ev : ∀ᶠ T' in 𝓝 T, 0 < T' := lt_mem_nhds hT
  have evp : ∀ᶠ p' in 𝓝 p, 1 / 10 ^ 10 < |p' - D.p0| := by
    have : ContinuousAt (fun p : ℝ => |p - D.p0|) p := by fun_prop
    exact this.eventually (lt_mem_nhds hp)
  refine ⟨by rw [v1, v2, v3]; ring, ?_, ?_, ?_, d1⟩
  · have := (((hD.h T hT).const_mul D.R).fun_sub
      (((hasDerivAt_id' T).const_mul D.R).fun_mul (hD.s T hT))).fun_add (d1.const_mul (p - D.p0))
    rw [v2]
    refine (this.congr_deriv ?_).congr_of_eventuallyEq ?_
    · field_simp; ring
    · filter_upwards [ev] with T' h
      exact (values D hR v x T' p h.ne' hp).2.2.1
  · have hV : (setTP D v x T p).Vss = vol v T := by
      obtain ⟨y, hy, hyT, hyP, he⟩ := set_eq D v x T p
      rw [he, (pressureTerms_keep D v y hy).2.2.2, hyT]
    have : HasDerivAt (fun p => D.R * (D.h T * T) - D.R * T * D.s T + (p - D.p0) * vol v T)
        (1 * vol v T) p :=
      (((hasDerivAt_id' p).sub_const D.p0).mul_const _).const_add _
    rw [hV]
    refine (this.congr_deriv (one_mul _)).congr_of_eventuallyEq ?_
    filter_upwards [evp] with p' h
    exact (values D hR v x T p' hT.ne' h).2.2.1
  · have : HasDerivAt (fun p => D.R * D.s T - (p - D.p0) * dvol v T) (-(1 * dvol v T)) p :=
      (((hasDerivAt_id' p).sub_const D.p0).mul_const _).const_sub _
    rw [one_mul] at this
    refine this.congr_of_eventuallyEq ?_
    filter_upwards [evp] with p' h
    exact (values D hR v x T p' hT.ne' h).2.1

/-- The derivative of the enthalpy, and what is given as heat capacity: the term with the second
derivative of the volume lacks the division by the gas constant. -/
theorem cp_defect (hD : Consistent D) (hR : D.R ≠ 0) (v : Vol) (x : St) (T p : ℝ) (hT : 0 < T)
    (hp : 1 / 10 ^ 10 < |p - D.p0|) (hv : v.dens = true → poly v T ≠ 0) :
    HasDerivAt (fun T => enthalpy D (setTP D v x T p))
      (D.R * D.cp T - T * (p - D.p0) * d2vol v T) T ∧
    cp D (setTP D v x T p) = D.R * D.cp T - T * (p - D.p0) * d2vol v T
      - (D.R - 1) * (T * (p - D.p0) * d2vol v T) := by
  obtain ⟨d1, d2⟩ := vol_deriv v T hv
  have ev : ∀ᶠ T' in 𝓝 T, 0 < T' := lt_mem_nhds hT
  constructor
  · have := ((hD.h T hT).const_mul D.R).fun_add
      ((d1.fun_sub ((hasDerivAt_id' T).fun_mul d2)).const_mul (p - D.p0))
    refine (this.congr_deriv ?_).congr_of_eventuallyEq ?_
    · ring
    · filter_upwards [ev] with T' h
      exact (values D hR v x T' p h.ne' hp).1
  · rw [(values D hR v x T p hT.ne' hp).2.2.2.1]
    ring

/-- The internal energy is off by the pressure term of the enthalpy. -/
theorem intEnergy_defect (hR : D.R ≠ 0) (v : Vol) (x : St) (T p : ℝ) (hT : T ≠ 0)
    (hp : 1 / 10 ^ 10 < |p - D.p0|) :
    intEnergy D (setTP D v x T p) = enthalpy D (setTP D v x T p) - p * vol v T
      - (p - D.p0) * (vol v T - T * dvol v T) := by
  obtain ⟨v1, -, -, -, v5⟩ := values D hR v x T p hT hp
  rw [v1, v5]
  ring

/-- Witness: a volume quadratic in the temperature. -/
theorem refuted : ∃ (D : Ref) (v : Vol) (x : St) (T p : ℝ), 0 < T ∧ Consistent D ∧
    ∃ c, HasDerivAt (fun T => enthalpy D (setTP D v x T p)) c T ∧ cp D (setTP D v x T p) ≠ c := by
  obtain ⟨D, hD, hR⟩ := consistent_exists
  have hp : (1 : ℝ) / 10 ^ 10 < |D.p0 + 1 - D.p0| := by norm_num
  obtain ⟨a, b⟩ := cp_defect D hD (by linarith) ⟨false, 0, 0, 1, 0, 1⟩
    ⟨0, 0, 0, 0, 0, 0, 0, 0, 0, 0, 0, 0, 0, 0⟩ 1 (D.p0 + 1) (by norm_num) hp (by simp)
  refine ⟨D, _, _, 1, D.p0 + 1, by norm_num, hD, _, a, ?_⟩
  rw [b]
  have : d2vol ⟨false, 0, 0, 1, 0, 1⟩ 1 = 2 := by norm_num [d2vol, d2poly]
  rw [this]
  intro h
  have : (D.R - 1) * (1 * (D.p0 + 1 - D.p0) * 2) = 0 := by linarith
  have h2 : (D.R - 1) * 2 = 0 := by linear_combination this
  linarith

end SSVol

/-! ## Water -/
namespace Water

/-- `g = h - T s` at the state. -/
theorem gibbs_eq (w : Sub) (T ρ : ℝ) :
    gibbsMole w T ρ = enthalpyMole w T ρ - T * entropyMole w T ρ := by
  unfold gibbsMole enthalpyMole entropyMole; ring

/-- At the reference pressure the entropy of the water is missing from the Gibbs energy. -/
theorem gibbsRef_defect (w : Sub) (T : ℝ) (hT : T ≠ 0) (hR : w.R ≠ 0) :
    gibbsRef w T = enthalpyRef w T - entropyRef w T
      + w.s T (w.density T w.p0) * w.mw / w.R := by
  unfold gibbsRef enthalpyRef entropyRef
  field_simp
  ring

theorem ref_values (w : Sub) (T : ℝ) (hT : T ≠ 0) (hR : w.R ≠ 0) :
    enthalpyRef w T * (w.R * T) = enthalpyMole w T (w.density T w.p0) ∧
    entropyRef w T * w.R = entropyMole w T (w.density T w.p0) := by
  unfold enthalpyRef entropyRef enthalpyMole entropyMole
  constructor <;> field_simp

theorem gibbsRef_refuted : ∃ (w : Sub) (T : ℝ), 0 < T ∧ 0 < w.R ∧
    gibbsRef w T * (w.R * T) ≠ gibbsMole w T (w.density T w.p0) := by
  refine ⟨⟨fun _ _ => 0, fun _ _ => 1, fun _ _ => 1, 1, 0, 0, 1, 1⟩, 1, by norm_num, by norm_num, ?_⟩
  norm_num [gibbsRef, gibbsMole]

end Water

/-! ## Cache -/
namespace VP

variable (sp : ℕ → Species)

/-- Values which belong to the temperature and pressure stored with them. -/
structure Ok (c : Cache) : Prop where
  h0 : ∀ k, c.h0 k = (sp k).href c.tlast
  s0 : ∀ k, c.s0 k = (sp k).sref c.tlast
  g0 : ∀ k, c.g0 k = (sp k).href c.tlast - (sp k).sref c.tlast
  cp0 : ∀ k, c.cp0 k = (sp k).cpref c.tlast
  V0 : ∀ k, c.V0 k = (sp k).Vref c.tlast
  hss : ∀ k, c.hss k = (sp k).h c.Tss c.Pss
  sss : ∀ k, c.sss k = (sp k).s c.Tss c.Pss
  gss : ∀ k, c.gss k = (sp k).h c.Tss c.Pss - (sp k).s c.Tss c.Pss
  cpss : ∀ k, c.cpss k = (sp k).cp c.Tss c.Pss
  Vss : ∀ k, c.Vss k = (sp k).V c.Tss c.Pss

theorem recompute_ok (c : Cache) (h : Ok sp c) : Ok sp (recompute sp c) := by
  unfold recompute
  by_cases ht : c.T = c.tlast
  · simp only [ht, ne_eq, not_true_eq_false, if_false]
    exact ⟨h.h0, h.s0, h.g0, h.cp0, h.V0, fun _ => rfl, fun _ => rfl, fun _ => rfl, fun _ => rfl,
      fun _ => rfl⟩
  · simp only [ne_eq, ht, not_false_eq_true, if_true]
    exact ⟨fun _ => rfl, fun _ => rfl, fun _ => rfl, fun _ => rfl, fun _ => rfl, fun _ => rfl,
      fun _ => rfl, fun _ => rfl, fun _ => rfl, fun _ => rfl⟩

theorem recompute_state (c : Cache) : (recompute sp c).tlast = c.T ∧ (recompute sp c).Tss = c.T ∧
    (recompute sp c).Pss = c.P ∧ (recompute sp c).T = c.T ∧ (recompute sp c).P = c.P := by
  unfold recompute
  by_cases ht : c.T ≠ c.tlast
  · rw [if_pos ht]; exact ⟨rfl, rfl, rfl, rfl, rfl⟩
  · rw [if_neg ht]; exact ⟨rfl, rfl, rfl, rfl, rfl⟩

/-- After an update everything belongs to the state of the phase. -/
theorem update_spec (c : Cache) (h : Ok sp c) :
    Ok sp (update sp c) ∧ (update sp c).tlast = c.T ∧ (update sp c).Tss = c.T ∧
    (update sp c).Pss = c.P ∧ (update sp c).T = c.T ∧ (update sp c).P = c.P := by
  unfold update
  by_cases hc : c.T ≠ c.Tss ∨ c.T ≠ c.tlast ∨ c.P ≠ c.Pss
  · rw [if_pos hc]
    exact ⟨recompute_ok sp c h, recompute_state sp c⟩
  · rw [if_neg hc]
    push Not at hc
    exact ⟨h, hc.2.1.symm, hc.1.symm, hc.2.2.symm, rfl, rfl⟩

/-- So every sequence of changes of the state keeps the cache good. -/
theorem setTP_spec (c : Cache) (h : Ok sp c) (T P : ℝ) :
    Ok sp (setTP sp c T P) ∧ (setTP sp c T P).T = T ∧ (setTP sp c T P).P = P := by
  have h' : Ok sp { c with T := T, P := P } :=
    ⟨h.h0, h.s0, h.g0, h.cp0, h.V0, h.hss, h.sss, h.gss, h.cpss, h.Vss⟩
  obtain ⟨a, _, _, _, b, d⟩ := update_spec sp _ h'
  exact ⟨a, b, d⟩

/-- The values read are those of the species objects at the temperature and pressure of the
phase. -/
theorem get_spec (R : ℝ) (c : Cache) (h : Ok sp c) (k : ℕ) :
    getEnthalpy sp c k = (sp k).h c.T c.P ∧ getEntropy sp c k = (sp k).s c.T c.P ∧
    getGibbs sp c k = (sp k).h c.T c.P - (sp k).s c.T c.P ∧ getCp sp c k = (sp k).cp c.T c.P ∧
    getVolume sp c k = (sp k).V c.T c.P ∧
    getIntEnergy sp R c k = (sp k).h c.T c.P - c.P * (sp k).V c.T c.P / (R * c.T) ∧
    getEnthalpyRef sp c k = (sp k).href c.T ∧ getEntropyRef sp c k = (sp k).sref c.T ∧
    getGibbsRef sp c k = (sp k).href c.T - (sp k).sref c.T ∧
    getCpRef sp c k = (sp k).cpref c.T := by
  obtain ⟨a, b, d, e, -, -⟩ := update_spec sp c h
  unfold getEnthalpy getEntropy getGibbs getCp getVolume getIntEnergy getEnthalpyRef getEntropyRef
    getGibbsRef getCpRef
  rw [a.hss, a.sss, a.gss, a.cpss, a.Vss, a.h0, a.s0, a.g0, a.cp0, b, d, e]
  refine ⟨rfl, rfl, rfl, rfl, rfl, ?_, rfl, rfl, rfl, rfl⟩
  ring

/-- The reference volumes are those at the pressure of the phase. -/
theorem volumeRef_defect (c : Cache) (h : Ok sp c) (k : ℕ) :
    getVolumeRef sp c k = (sp k).V c.T c.P := by
  obtain ⟨a, b, d, e, -, -⟩ := update_spec sp c h
  unfold getVolumeRef
  rw [a.Vss, d, e]

theorem volumeRef_refuted : ∃ (sp : ℕ → Species) (c : Cache) (k : ℕ), Ok sp c ∧
    getVolumeRef sp c k ≠ (sp k).Vref c.T := by
  have ok : Ok (fun _ => ⟨fun _ => 0, fun _ => 0, fun _ => 0, fun _ => 1, fun _ _ => 0, fun _ _ => 0,
      fun _ _ => 0, fun _ p => p⟩) ⟨300, 2, 300, 300, 2, fun _ => 0, fun _ => 0, fun _ => 0,
      fun _ => 0, fun _ => 1, fun _ => 0, fun _ => 0, fun _ => 0, fun _ => 0, fun _ => 2⟩ :=
    ⟨fun _ => rfl, fun _ => rfl, fun _ => by norm_num, fun _ => rfl, fun _ => rfl, fun _ => rfl,
      fun _ => rfl, fun _ => by norm_num, fun _ => rfl, fun _ => rfl⟩
  refine ⟨_, _, 0, ok, ?_⟩
  rw [volumeRef_defect _ _ ok]
  norm_num

/-- Every cache becomes good by a change to another temperature. -/
example (c : Cache) (T P : ℝ) (h : T ≠ c.tlast) : Ok sp (setTP sp c T P) := by
  unfold setTP update
  rw [if_pos (Or.inr (Or.inl h))]
  unfold recompute
  simp only [ne_eq, h, not_false_eq_true, if_true]
  exact ⟨fun _ => rfl, fun _ => rfl, fun _ => rfl, fun _ => rfl, fun _ => rfl, fun _ => rfl,
    fun _ => rfl, fun _ => rfl, fun _ => rfl, fun _ => rfl⟩

/-- After the cache is invalidated the species objects may have changed: the standard state values
are those of the new ones, whatever the state. -/
theorem invalidate_spec (sp' : ℕ → Species) (c : Cache) (h : c.tlast = c.Tss) (T P : ℝ) (k : ℕ) :
    (setTP sp' (invalidate c) T P).hss k = (sp' k).h T P ∧
    (setTP sp' (invalidate c) T P).Vss k = (sp' k).V T P := by
  unfold setTP update invalidate
  have : T ≠ c.Tss + 1234 / 10000000 ∨ T ≠ c.tlast + 1234 / 10000 ∨ P ≠ c.Pss := by
    by_contra hc
    push Not at hc
    have := hc.1
    rw [hc.2.1, h] at this
    norm_num at this
  rw [if_pos this]
  unfold recompute
  split_ifs <;> exact ⟨rfl, rfl⟩

/-- The reference values are too, unless the temperature is 0.1234 K above the last one. -/
theorem invalidate_ref_partial (sp' : ℕ → Species) (c : Cache) (T P : ℝ)
    (hT : T ≠ c.tlast + 1234 / 10000) (k : ℕ) :
    (setTP sp' (invalidate c) T P).h0 k = (sp' k).href T := by
  unfold setTP update invalidate
  rw [if_pos (Or.inr (Or.inl hT))]
  unfold recompute
  simp only [ne_eq, hT, not_false_eq_true, if_true]

theorem invalidate_ref_stale : ∃ (sp' : ℕ → Species) (c : Cache) (T P : ℝ) (k : ℕ),
    c.tlast = c.Tss ∧ (setTP sp' (invalidate c) T P).h0 k ≠ (sp' k).href T := by
  refine ⟨fun _ => ⟨fun _ => 1, fun _ => 0, fun _ => 0, fun _ => 0, fun _ _ => 0, fun _ _ => 0,
    fun _ _ => 0, fun _ _ => 0⟩, ⟨300, 1, 300, 300, 1, fun _ => 0, fun _ => 0, fun _ => 0,
    fun _ => 0, fun _ => 0, fun _ => 0, fun _ => 0, fun _ => 0, fun _ => 0, fun _ => 0⟩,
    300 + 1234 / 10000, 1, 0, rfl, ?_⟩
  unfold setTP update invalidate recompute
  norm_num

end VP

end Verif.Pdss
