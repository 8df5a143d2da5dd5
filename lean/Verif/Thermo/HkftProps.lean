import Verif.Thermo.Hkft
import Mathlib.Analysis.SpecialFunctions.Log.Deriv
import Mathlib.Analysis.Calculus.Deriv.Add
import Mathlib.Analysis.Calculus.Deriv.Mul
import Mathlib.Analysis.Calculus.Deriv.Inv
import Mathlib.Tactic.FieldSimp
import Mathlib.Tactic.Linarith
import Mathlib.Tactic.LinearCombination
import Mathlib.Tactic.Positivity

/-!
# Properties of the standard states of ions in water
-/

namespace Verif.Hkft

open Filter Topology

variable (A : Par) (F : Fun)

/-- The dielectric constant and the solvent function have the given derivatives at `(T, p)`. -/
structure DerivAt (T p : ℝ) : Prop where
  eT : HasDerivAt (fun T => F.e T p) (F.eT T p) T
  eTT : HasDerivAt (fun T => F.eT T p) (F.eTT T p) T
  eP : HasDerivAt (fun p => F.e T p) (F.eP T p) p
  gT : HasDerivAt (fun T => F.g T p) (F.gT T p) T
  gTT : HasDerivAt (fun T => F.gT T p) (F.gTT T p) T
  gP : HasDerivAt (fun p => F.g T p) (F.gP T p) p

/-- No denominator is zero. -/
structure NZ (T p : ℝ) : Prop where
  e : F.e T p ≠ 0
  re : A.z ≠ 0 → re A F T p ≠ 0
  rH : rH F T p ≠ 0
  T : 228 < T
  p : 0 ≤ p
  pR : 0 ≤ A.pR

/-- The hypotheses are met by constant functions. -/
example : ∃ (A : Par) (F : Fun) (T p : ℝ), DerivAt F T p ∧ NZ A F T p ∧ A.z ≠ 0 := by
  refine ⟨⟨4184, 0, 0, 0, 0, 0, 0, 0, 0, 1, 1, 1, 0, 0, 0⟩,
    ⟨fun _ _ => 78, fun _ _ => 0, fun _ _ => 0, fun _ _ => 0, fun _ _ => 0, fun _ _ => 0,
      fun _ _ => 0, fun _ _ => 0⟩, 300, 100000,
    ⟨hasDerivAt_const _ _, hasDerivAt_const _ _, hasDerivAt_const _ _, hasDerivAt_const _ _,
      hasDerivAt_const _ _, hasDerivAt_const _ _⟩,
    ⟨by norm_num, fun _ => by norm_num [re, rePr, nu], by norm_num [rH], by norm_num, by norm_num,
      by norm_num⟩, by norm_num⟩

/-- Without the solvent function the Born coefficient is the input. -/
theorem omega_g_zero (T p : ℝ) (hg : F.g T p = 0) : omega A F T p = A.ω := by
  unfold omega
  split_ifs with hz
  · rfl
  · unfold re rH rePr
    rw [hg, mul_zero, add_zero, add_zero]
    have hn : nu ≠ 0 := by norm_num [nu]
    rw [div_div_eq_mul_div, mul_comm (A.z * A.z), mul_div_assoc, div_self (mul_ne_zero hz hz)]
    field_simp
    ring

/-- Derivative along any path. -/
theorem omega_path (z r : ℝ) (γ : ℝ → ℝ) (γ' t : ℝ) (h : HasDerivAt γ γ' t)
    (h1 : r + |z| * γ t ≠ 0) (h2 : 3082 / 1000 + γ t ≠ 0) :
    HasDerivAt (fun t => nu * (z * z / (r + |z| * γ t) - z / (3082 / 1000 + γ t)))
      (nu * (-(z * z / ((r + |z| * γ t) * (r + |z| * γ t)) * (|z| * γ'))
        + z / ((3082 / 1000 + γ t) * (3082 / 1000 + γ t)) * γ')) t := by
  have a := (hasDerivAt_const t (z * z)).fun_div ((h.const_mul |z|).const_add r) h1
  have b := (hasDerivAt_const t z).fun_div (h.const_add (3082 / 1000)) h2
  refine ((a.fun_sub b).const_mul nu).congr_deriv ?_
  generalize r + |z| * γ t = u at *
  generalize 3082 / 1000 + γ t = v at *
  field_simp
  ring

theorem omega_T (T p : ℝ) (hF : DerivAt F T p) (h : NZ A F T p) :
    HasDerivAt (fun T => omega A F T p) (omegaT A F T p) T := by
  unfold omega omegaT
  by_cases hz : A.z = 0
  · simp only [if_pos hz]; exact hasDerivAt_const _ _
  · simp only [if_neg hz]
    exact omega_path A.z (rePr A) (fun T => F.g T p) _ T hF.gT (h.re hz) h.rH

theorem omega_P (T p : ℝ) (hF : DerivAt F T p) (h : NZ A F T p) :
    HasDerivAt (fun p => omega A F T p) (omegaP A F T p) p := by
  unfold omega omegaP
  by_cases hz : A.z = 0
  · simp only [if_pos hz]; exact hasDerivAt_const _ _
  · simp only [if_neg hz]
    refine (omega_path A.z (rePr A) (fun p => F.g T p) _ p hF.gP (h.re hz) h.rH).congr_deriv ?_
    unfold re rH
    ring

theorem omega_TT (T p : ℝ) (hF : DerivAt F T p) (h : NZ A F T p) :
    HasDerivAt (fun T => omegaT A F T p) (omegaTT A F T p) T := by
  unfold omegaT omegaTT
  by_cases hz : A.z = 0
  · simp only [if_pos hz]; exact hasDerivAt_const _ _
  · simp only [if_neg hz]
    have h1 : HasDerivAt (fun T => re A F T p) (|A.z| * F.gT T p) T :=
      (hF.gT.const_mul |A.z|).const_add _
    have h2 : HasDerivAt (fun T => rH F T p) (F.gT T p) T := hF.gT.const_add _
    have n1 := h.re hz
    have n2 := h.rH
    have a := ((hasDerivAt_const T (A.z * A.z)).fun_div (h1.fun_mul h1) (mul_ne_zero n1 n1)).fun_mul
      (hF.gTT.const_mul |A.z|)
    have b := ((hasDerivAt_const T A.z).fun_div (h2.fun_mul h2) (mul_ne_zero n2 n2)).fun_mul hF.gTT
    refine ((a.fun_neg.fun_add b).const_mul nu).congr_deriv ?_
    generalize re A F T p = u at *
    generalize rH F T p = v at *
    field_simp
    ring

theorem pb_pos {p : ℝ} (hp : 0 ≤ p) : 0 < 2600 + pbar p := by unfold pbar; linarith

/-- The pressure derivative of the Gibbs energy is the molar volume. -/
theorem gibbs_P (T p : ℝ) (hF : DerivAt F T p) (h : NZ A F T p) :
    HasDerivAt (fun p => gibbs A F T p) (molarVolume A F T p) p := by
  have hT : T - 228 ≠ 0 := by have := h.T; linarith
  have hb : HasDerivAt pbar (1 / 100000) p := by
    have := (hasDerivAt_id' p).mul_const (1 / 100000 : ℝ)
    rwa [one_mul] at this
  have hpp := pb_pos h.p
  have hpR : 0 < 2600 + A.pR := by linarith [h.pR]
  have l := ((hb.const_add 2600).div_const (2600 + A.pR)).log (div_pos hpp hpR).ne'
  have z := (hasDerivAt_const p (-1 : ℝ)).fun_div hF.eP h.e
  have w := (omega_P A F T p hF h).fun_neg.fun_mul (z.add_const 1)
  have e := HasDerivAt.const_mul A.κ
    ((((((((((hasDerivAt_const p (-A.S0 * (T - 29815 / 100))).fun_add
      (hasDerivAt_const p (-A.c1 * (T * Real.log (T / (29815 / 100)) - (T - 29815 / 100))))).fun_add
      ((hb.sub_const A.pR).const_mul A.a1)).fun_add (l.const_mul A.a2)).fun_add
      (hasDerivAt_const p (-A.c2 * ((1 / (T - 228) - 1 / (29815 / 100 - 228)) * (228 - T) / 228
        - T / (228 * 228) * Real.log ((29815 / 100 * (T - 228)) / (T * (29815 / 100 - 228))))))).fun_add
      ((hb.sub_const A.pR).const_mul (A.a3 / (T - 228)))).fun_add
      (l.const_mul (A.a4 / (T - 228)))).fun_add w).fun_add
      (hasDerivAt_const p (A.ω * (A.Zr + 1)))).fun_add
      (hasDerivAt_const p (A.ω * A.Yr * (T - 29815 / 100))))
  refine HasDerivAt.congr_deriv (f := fun p => gibbs A F T p) (e.const_add A.mu0) ?_
  unfold molarVolume
  have q : (260000000 : ℝ) + p = 100000 * (2600 + pbar p) := by unfold pbar; ring
  simp only [q]
  have he := h.e
  generalize omega A F T p = o
  generalize omegaP A F T p = o'
  generalize 2600 + pbar p = pb at *
  generalize 2600 + A.pR = pr at *
  generalize T - 228 = t at *
  generalize F.e T p = ee at *
  field_simp
  ring

/-- The temperature derivative of the Gibbs energy is minus the entropy, apart from a constant. -/
theorem gibbs_T (T p : ℝ) (hF : DerivAt F T p) (h : NZ A F T p) :
    HasDerivAt (fun T => gibbs A F T p)
      (-(entropy A F T p) + A.κ * (-A.dωr * (A.Zr + 1))) T := by
  have h228 := h.T
  have hT : T - 228 ≠ 0 := by linarith
  have hT0 : T ≠ 0 := by linarith
  have i := hasDerivAt_id' T
  have l1 := (i.div_const (29815 / 100 : ℝ)).log (by positivity)
  have l2 := (((i.sub_const 228).const_mul (29815 / 100 : ℝ)).fun_div
    (i.mul_const (29815 / 100 - 228 : ℝ)) (by simp; constructor <;> first | exact hT0 | norm_num)).log
    (by
      refine div_ne_zero (mul_ne_zero (by norm_num) hT) (mul_ne_zero hT0 (by norm_num)))
  have z := (hasDerivAt_const T (-1 : ℝ)).fun_div hF.eT h.e
  have w := (omega_T A F T p hF h).fun_neg.fun_mul (z.add_const 1)
  have s := (i.sub_const (29815 / 100 : ℝ))
  have c1 := ((i.fun_mul l1).fun_sub s).const_mul (-A.c1)
  have inv := (hasDerivAt_const T (1 : ℝ)).fun_div (i.sub_const 228) hT
  have c2 := (((((inv.sub_const (1 / (29815 / 100 - 228) : ℝ)).fun_mul (i.const_sub 228)).div_const
    228).fun_sub ((i.div_const (228 * 228 : ℝ)).fun_mul l2))).const_mul (-A.c2)
  have a3 := ((hasDerivAt_const T A.a3).fun_div (i.sub_const 228) hT).mul_const (pbar p - A.pR)
  have a4 := ((hasDerivAt_const T A.a4).fun_div (i.sub_const 228) hT).mul_const
    (Real.log ((2600 + pbar p) / (2600 + A.pR)))
  have e := HasDerivAt.const_mul A.κ
    ((((((((((s.const_mul (-A.S0)).fun_add c1).fun_add
      (hasDerivAt_const T (A.a1 * (pbar p - A.pR)))).fun_add
      (hasDerivAt_const T (A.a2 * Real.log ((2600 + pbar p) / (2600 + A.pR))))).fun_add c2).fun_add
      a3).fun_add a4).fun_add w).fun_add (hasDerivAt_const T (A.ω * (A.Zr + 1)))).fun_add
      (s.const_mul (A.ω * A.Yr)))
  refine HasDerivAt.congr_deriv (f := fun T => gibbs A F T p) (e.const_add A.mu0) ?_
  unfold entropy deltaS
  have he := h.e
  simp only []
  generalize omega A F T p = o
  generalize omegaT A F T p = o'
  generalize Real.log ((2600 + pbar p) / (2600 + A.pR)) = L1
  generalize Real.log (T / (29815 / 100)) = L2
  generalize Real.log (29815 / 100 * (T - 228) / (T * (29815 / 100 - 228))) = L3
  generalize F.e T p = ee at *
  generalize pbar p - A.pR = dp
  generalize ht : T - 228 = t at *
  have hTt : T = t + 228 := by linarith
  subst hTt
  field_simp
  ring

/-- The temperature derivative of the entropy is the heat capacity over the temperature, apart from
the same constant. -/
theorem entropy_T (T p : ℝ) (hF : DerivAt F T p) (h : NZ A F T p) :
    HasDerivAt (fun T => entropy A F T p)
      ((cp A F T p - A.κ * (-A.dωr * (A.Zr + 1))) / T) T := by
  have h228 := h.T
  have hT : T - 228 ≠ 0 := by linarith
  have hT0 : T ≠ 0 := by linarith
  have i := hasDerivAt_id' T
  have l1 := (i.div_const (29815 / 100 : ℝ)).log (by positivity)
  have l2 := (((i.sub_const 228).const_mul (29815 / 100 : ℝ)).fun_div
    (i.mul_const (29815 / 100 - 228 : ℝ)) (by simp; constructor <;> first | exact hT0 | norm_num)).log
    (by
      refine div_ne_zero (mul_ne_zero (by norm_num) hT) (mul_ne_zero hT0 (by norm_num)))
  have z := (hasDerivAt_const T (-1 : ℝ)).fun_div hF.eT h.e
  have y := hF.eTT.fun_div (hF.eT.fun_mul hF.eT) (mul_ne_zero h.e h.e)
  have inv := (hasDerivAt_const T (1 : ℝ)).fun_div (i.sub_const 228) hT
  have c2 := (((inv.sub_const (1 / (29815 / 100 - 228) : ℝ)).fun_add
    (l2.const_mul (1 / 228 : ℝ)))).const_mul (-A.c2 / 228)
  have a3 := (((hasDerivAt_const T A.a3).fun_div (i.sub_const 228) hT).fun_div
    (i.sub_const 228) hT).mul_const (pbar p - A.pR)
  have a4 := (((hasDerivAt_const T A.a4).fun_div (i.sub_const 228) hT).fun_div
    (i.sub_const 228) hT).mul_const (Real.log ((2600 + pbar p) / (2600 + A.pR)))
  have e := HasDerivAt.const_mul A.κ
    ((((((((l1.const_mul A.c1).fun_add c2).fun_add a3).fun_add a4).fun_add
      ((omega_T A F T p hF h).fun_mul y)).fun_add (hasDerivAt_const T (-A.ω * A.Yr))).fun_add
      ((omega_TT A F T p hF h).fun_mul (z.add_const 1))).fun_add
      (hasDerivAt_const T (-A.dωr * (A.Zr + 1))))
  refine HasDerivAt.congr_deriv (f := fun T => entropy A F T p) (e.const_add (A.κ * A.S0)) ?_
  unfold cp
  have he := h.e
  simp only []
  generalize omega A F T p = o
  generalize omegaT A F T p = o'
  generalize omegaTT A F T p = o''
  generalize Real.log ((2600 + pbar p) / (2600 + A.pR)) = L1
  generalize F.e T p = ee at *
  generalize pbar p - A.pR = dp
  generalize ht : T - 228 = t at *
  have hTt : T = t + 228 := by linarith
  subst hTt
  field_simp
  ring

/-- The temperature derivative of the enthalpy is the heat capacity. -/
theorem enthalpy_T (T p : ℝ) (hF : DerivAt F T p) (h : NZ A F T p) :
    HasDerivAt (fun T => enthalpy A F T p) (cp A F T p) T := by
  have hT0 : T ≠ 0 := by have := h.T; linarith
  have := (gibbs_T A F T p hF h).fun_add ((hasDerivAt_id' T).fun_mul (entropy_T A F T p hF h))
  refine HasDerivAt.congr_deriv (f := fun T => enthalpy A F T p) this ?_
  field_simp
  ring

/-- At the reference state the differences vanish, up to the same constant. -/
theorem reference (T p : ℝ) (hT : T = 29815 / 100) (hp : pbar p = A.pR) (hpR : 0 ≤ A.pR)
    (hZ : A.Zr = -1 / F.e T p) (hY : A.Yr = F.eT T p / (F.e T p * F.e T p))
    (hω : omega A F T p = A.ω) (hd : A.dωr = omegaT A F T p) :
    gibbs A F T p = A.mu0 ∧ entropy A F T p = A.κ * A.S0 := by
  unfold gibbs entropy deltaG deltaS
  have h1 : (2600 + A.pR) / (2600 + A.pR) = 1 := div_self (by linarith)
  have h2 : (29815 / 100 * (29815 / 100 - 228) : ℝ) / (29815 / 100 * (29815 / 100 - 228)) = 1 := by
    norm_num
  simp only [hp, hω, h1, Real.log_one, ← hZ, ← hY, ← hd]
  subst hT
  rw [h2, div_self (by norm_num : (29815 / 100 : ℝ) ≠ 0), Real.log_one]
  constructor <;> ring

/-- Witness: the Gibbs energy and the entropy disagree. -/
theorem gibbs_T_refuted : ∃ (A : Par) (F : Fun) (T p : ℝ), DerivAt F T p ∧ NZ A F T p ∧
    0 < A.κ ∧ ¬ HasDerivAt (fun T => gibbs A F T p) (-(entropy A F T p)) T := by
  have hF : DerivAt ⟨fun _ _ => 78, fun _ _ => 0, fun _ _ => 0, fun _ _ => 0, fun _ _ => 0,
      fun _ _ => 0, fun _ _ => 0, fun _ _ => 0⟩ 300 100000 :=
    ⟨hasDerivAt_const _ _, hasDerivAt_const _ _, hasDerivAt_const _ _, hasDerivAt_const _ _,
      hasDerivAt_const _ _, hasDerivAt_const _ _⟩
  have hN : NZ ⟨4184, 0, 0, 0, 0, 0, 0, 0, 0, 1, 1, 1, 0, 0, 1⟩ ⟨fun _ _ => 78, fun _ _ => 0,
      fun _ _ => 0, fun _ _ => 0, fun _ _ => 0, fun _ _ => 0, fun _ _ => 0, fun _ _ => 0⟩
      300 100000 :=
    ⟨by norm_num, fun _ => by norm_num [re, rePr, nu], by norm_num [rH], by norm_num, by norm_num,
      by norm_num⟩
  refine ⟨_, _, _, _, hF, hN, by norm_num, fun h => ?_⟩
  have := h.unique (gibbs_T _ _ _ _ hF hN)
  norm_num at this

/-- The internal energy uses the enthalpy over `RT`. -/
theorem intEnergy_defect (R T p : ℝ) : intEnergy A F R T p
    = enthalpy A F T p - p * molarVolume A F T p - enthalpy A F T p * (1 - 1 / (R * T)) := by
  unfold intEnergy; ring

theorem intEnergy_refuted : ∃ (A : Par) (F : Fun) (R T p : ℝ), 0 < R ∧ 0 < T ∧
    intEnergy A F R T p ≠ enthalpy A F T p - p * molarVolume A F T p := by
  refine ⟨⟨1, 0, 1, 0, 0, 0, 0, 0, 0, 0, 0, 1, 0, 0, 0⟩, ⟨fun _ _ => 1, fun _ _ => 0, fun _ _ => 0,
    fun _ _ => 0, fun _ _ => 0, fun _ _ => 0, fun _ _ => 0, fun _ _ => 0⟩, 2, 1, 0, by norm_num,
    by norm_num, ?_⟩
  rw [intEnergy_defect]
  have : enthalpy ⟨1, 0, 1, 0, 0, 0, 0, 0, 0, 0, 0, 1, 0, 0, 0⟩ ⟨fun _ _ => 1, fun _ _ => 0,
      fun _ _ => 0, fun _ _ => 0, fun _ _ => 0, fun _ _ => 0, fun _ _ => 0, fun _ _ => 0⟩ 1 0
      = 1 := by
    simp [enthalpy, gibbs, entropy, deltaG, deltaS, omega, omegaT]
  rw [this]
  norm_num

/-! ## Input data -/

/-- Whichever of the three values is missing is made from the other two, so that the check passes
exactly. -/
theorem init_two (κ cs : ℝ) (hκ : 0 < κ) (x : Input) (a b : ℝ)
    (h : (x = ⟨none, some a, some b⟩) ∨ (x = ⟨some a, none, some b⟩) ∨ (x = ⟨some a, some b, none⟩)) :
    ∃ H G S mu, init κ cs x = .ok (⟨some H, some G, some S⟩, some mu) ∧ mu = κ * G + cs ∧
      κ * H = mu + 29815 / 100 * (κ * S) ∧
      (∀ v, x.H = some v → v = H) ∧ (∀ v, x.G = some v → v = G) ∧ (∀ v, x.S = some v → v = S) := by
  have hk := hκ.ne'
  have key : ∀ H G S, κ * H = κ * G + cs + 29815 / 100 * (κ * S) →
      ¬ κ * 100 < |κ * G + cs + 29815 / 100 * (κ * S) - κ * H| := by
    intro H G S h
    rw [h, sub_self, abs_zero]
    linarith
  rcases h with rfl | rfl | rfl
  · have e : κ * ((κ * a + cs + 29815 / 100 * (κ * b)) / κ) = κ * a + cs + 29815 / 100 * (κ * b) := by
      field_simp
    refine ⟨(κ * a + cs + 29815 / 100 * (κ * b)) / κ, a, b, κ * a + cs, ?_, rfl, e, ?_⟩
    · simp only [init, complete, convertDG, op2, Option.map_some]
      rw [if_neg (key _ _ _ e)]
    · simp
  · have e : κ * a = κ * ((κ * a - 29815 / 100 * (κ * b)
        - (κ * ((κ * a - 29815 / 100 * (κ * b)) / κ) + cs - (κ * a - 29815 / 100 * (κ * b)))) / κ)
        + cs + 29815 / 100 * (κ * b) := by
      field_simp; ring
    refine ⟨a, _, b, _, ?_, rfl, e, ?_⟩
    · simp only [init, complete, convertDG, op2, Option.map_some]
      rw [if_neg (key _ _ _ e)]
    · simp
  · have e : κ * a = κ * b + cs
        + 29815 / 100 * (κ * ((κ * a - (κ * b + cs)) / (29815 / 100) / κ)) := by
      field_simp; ring
    refine ⟨a, b, _, κ * b + cs, ?_, rfl, e, ?_⟩
    · simp only [init, complete, convertDG, op2, Option.map_some]
      rw [if_neg (key _ _ _ e)]
    · simp

/-- With all three values the object is made just if they agree to 100 cal/gmol. -/
theorem init_three (κ cs : ℝ) (H G S : ℝ) :
    (∃ r, init κ cs ⟨some H, some G, some S⟩ = .ok r) ↔
      |κ * G + cs + 29815 / 100 * (κ * S) - κ * H| ≤ κ * 100 := by
  simp only [init, complete, convertDG, op2, Option.map_some]
  split_ifs with h
  · constructor
    · rintro ⟨r, hr⟩; cases hr
    · intro h'; linarith
  · exact ⟨fun _ => not_lt.1 h, fun _ => ⟨_, rfl⟩⟩

/-- With two values missing the object is made nevertheless, and has no Gibbs energy or entropy. -/
theorem init_two_missing (κ cs : ℝ) (x : Input) (a : ℝ)
    (h : x = ⟨some a, none, none⟩ ∨ x = ⟨none, some a, none⟩ ∨ x = ⟨none, none, some a⟩) :
    ∃ y mu, init κ cs x = .ok (y, mu) ∧ (mu = none ∨ y.S = none) := by
  rcases h with rfl | rfl | rfl
  · exact ⟨_, _, rfl, Or.inl rfl⟩
  · exact ⟨_, _, rfl, Or.inr rfl⟩
  · exact ⟨_, _, rfl, Or.inl rfl⟩

end Verif.Hkft
