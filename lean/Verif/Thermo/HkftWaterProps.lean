import Verif.Thermo.HkftProps
import Mathlib.Analysis.SpecialFunctions.ExpDeriv
import Mathlib.Analysis.SpecialFunctions.Pow.Deriv
import Mathlib.Analysis.SpecialFunctions.Sqrt
import Mathlib.Analysis.Calculus.Deriv.MeanValue

/-!
# Properties of the solvent function, the dielectric constant and the Debye-Hückel coefficient
-/

namespace Verif.Hkft

open Filter Topology

/-! ## Solvent function -/

theorem ag_deriv (T : ℝ) : HasDerivAt (fun T => ag T 0) (ag T 1) T ∧
    HasDerivAt (fun T => ag T 1) (ag T 2) T := by
  have i := hasDerivAt_id' T
  constructor
  · have := ((i.const_mul (5747 / 1000000 : ℝ)).const_add (-2037662 / 1000000)).fun_add
      ((i.const_mul (-6557892 / 1000000000000 : ℝ)).fun_mul i)
    refine HasDerivAt.congr_deriv (f := fun T => ag T 0) this ?_
    simp only [ag]; ring
  · have := (i.const_mul (-6557892 / 1000000000000 * 2 : ℝ)).const_add (5747 / 1000000)
    refine HasDerivAt.congr_deriv (f := fun T => ag T 1) this ?_
    simp only [ag]; ring

theorem bg_deriv (T : ℝ) : HasDerivAt (fun T => bg T 0) (bg T 1) T ∧
    HasDerivAt (fun T => bg T 1) (bg T 2) T := by
  have i := hasDerivAt_id' T
  constructor
  · have := ((i.const_mul (-1074377 / 100000000 : ℝ)).const_add (6107361 / 1000000)).fun_add
      ((i.const_mul (1268348 / 100000000000 : ℝ)).fun_mul i)
    refine HasDerivAt.congr_deriv (f := fun T => bg T 0) this ?_
    simp only [bg]; ring
  · have := (i.const_mul (1268348 / 100000000000 * 2 : ℝ)).const_add (-1074377 / 100000000)
    refine HasDerivAt.congr_deriv (f := fun T => bg T 1) this ?_
    simp only [bg]; ring

/-- The divisor is never zero: it is negative at every temperature. -/
theorem ag_neg (T : ℝ) : ag T 0 < 0 := by
  simp only [ag]
  nlinarith [sq_nonneg (T - 5747000 / (2 * 6557892) * 1000)]

/-- The water has the given expansion coefficient and compressibility. -/
structure WaterAt (w : Water) (T p : ℝ) : Prop where
  dT : HasDerivAt (fun T => w.ρ T p) (-w.α T p * w.ρ T p) T
  dTT : HasDerivAt (fun T => w.α T p) (w.αT T p) T
  dp : HasDerivAt (fun p => w.ρ T p) (w.β T p * w.ρ T p) p

/-- Constant density. -/
example : WaterAt ⟨fun _ _ => 900, fun _ _ => 0, fun _ _ => 0, fun _ _ => 0⟩ 300 100000 :=
  ⟨by simpa using hasDerivAt_const _ _, hasDerivAt_const _ _, by simpa using hasDerivAt_const _ _⟩

theorem dens_T (w : Water) (T p : ℝ) (h : WaterAt w T p) :
    HasDerivAt (fun T => dens w T p) (-w.α T p * dens w T p) T :=
  (h.dT.mul_const (1 / 1000)).congr_deriv (by unfold dens; ring)

theorem gval_T (w : Water) (T p : ℝ) (h : WaterAt w T p) (hd : dens w T p < 1) :
    HasDerivAt (fun T => gval w T p) (dgdt w T p) T := by
  have ha := (ag_neg T).ne
  have h1 : 0 < 1 - dens w T p := by linarith
  have r := ((dens_T w T p h).const_sub 1).rpow (bg_deriv T).1 h1
  refine HasDerivAt.congr_deriv (f := fun T => gval w T p) ((ag_deriv T).1.fun_mul r) ?_
  unfold dgdt gval
  simp only []
  rw [Real.rpow_sub_one h1.ne']
  generalize dens w T p = d at *
  generalize (1 - d) ^ bg T 0 = P
  field_simp
  ring

theorem dgdt_T (w : Water) (T p : ℝ) (h : WaterAt w T p) (hd : dens w T p < 1) :
    HasDerivAt (fun T => dgdt w T p) (d2gdt2 w T p) T := by
  have ha := (ag_neg T).ne
  have h1 : 0 < 1 - dens w T p := by linarith
  have d := dens_T w T p h
  have gv := gval_T w T p h hd
  have l := (d.const_sub 1).log h1.ne'
  have e := ((((ag_deriv T).2.fun_mul gv).fun_div (ag_deriv T).1 ha).fun_add
    (((bg_deriv T).2.fun_mul gv).fun_mul l)).fun_add
    ((((gv.fun_mul h.dTT).fun_mul (bg_deriv T).1).fun_mul d).fun_div (d.const_sub 1) h1.ne')
  refine HasDerivAt.congr_deriv (f := fun T => dgdt w T p) e ?_
  unfold d2gdt2
  simp only []
  have h1' := h1.ne'
  clear e l gv d
  generalize dgdt w T p = D1
  generalize gval w T p = G
  generalize dens w T p = d at *
  generalize ag T 0 = a0 at *
  generalize Real.log (1 - d) = L
  field_simp
  ring

theorem gval_p (w : Water) (T p : ℝ) (h : WaterAt w T p) (hd : dens w T p < 1) :
    HasDerivAt (fun p => gval w T p)
      (-bg T 0 * gval w T p * dens w T p * w.β T p / (1 - dens w T p)) p := by
  have h1 : 0 < 1 - dens w T p := by linarith
  have d : HasDerivAt (fun p => dens w T p) (w.β T p * dens w T p) p :=
    (h.dp.mul_const (1 / 1000)).congr_deriv (by unfold dens; ring)
  have r := ((d.const_sub 1).rpow_const (p := bg T 0) (Or.inl h1.ne')).const_mul (ag T 0)
  refine HasDerivAt.congr_deriv (f := fun p => gval w T p) r ?_
  unfold gval
  rw [Real.rpow_sub_one h1.ne']
  clear r d
  generalize dens w T p = d at *
  generalize (1 - d) ^ bg T 0 = P
  field_simp

/-- Where the function of the high temperature correction is zero. -/
theorem f_zero (T p : ℝ) (i : ℕ) (h : T < 42815 / 100 ∨ 100000000 < p) : f T p i = .ok 0 := by
  unfold f
  by_cases hT : T - 27315 / 100 < 155
  · rw [if_pos hT]
  · rw [if_neg hT]
    have hp : 1000 < p / 100000 := by
      rcases h with h | h
      · exact absurd (by linarith) hT
      · rw [lt_div_iff₀ (by norm_num)]; linarith
    simp only [if_pos hp]

/-- Below 155 °C, or above 1000 bar, where water is lighter than 1 g/cm³, the functions given are
the value, both temperature derivatives and the pressure derivative of one function. -/
theorem gstar_spec_partial (w : Water) (T p : ℝ) (h : WaterAt w T p) (hd : dens w T p < 1) :
    ∃ G G1 G2 G3 : ℝ → ℝ → ℝ,
      (∀ T p, dens w T p < 1 → (T < 42815 / 100 ∨ 100000000 < p) →
        gstar w T p 0 = .ok (G T p) ∧ gstar w T p 1 = .ok (G1 T p) ∧
        gstar w T p 2 = .ok (G2 T p) ∧ gstar w T p 3 = .ok (G3 T p)) ∧
      HasDerivAt (fun T => G T p) (G1 T p) T ∧ HasDerivAt (fun T => G1 T p) (G2 T p) T ∧
      HasDerivAt (fun p => G T p) (G3 T p) p := by
  refine ⟨gval w, dgdt w, d2gdt2 w,
    fun T p => -bg T 0 * gval w T p * dens w T p * w.β T p / (1 - dens w T p), ?_,
    gval_T w T p h hd, dgdt_T w T p h hd, gval_p w T p h hd⟩
  intro T p hd hf
  have hd' : ¬ 1 ≤ dens w T p := not_le.2 hd
  have n : ∀ i, f T p i = .ok 0 := fun i => f_zero T p i hf
  unfold gstar
  simp only [n, g, if_neg hd', sub_zero, and_self]

/-- Value of the solvent function. -/
theorem gstar_formula (w : Water) (T p : ℝ) (hf : T < 42815 / 100 ∨ 100000000 < p) :
    gstar w T p 0 = .ok (if 1000 ≤ w.ρ T p then 0 else
      (-2037662 / 1000000 + 5747 / 1000000 * T - 6557892 / 1000000000000 * T ^ 2)
      * (1 - w.ρ T p / 1000) ^ (6107361 / 1000000 - 1074377 / 100000000 * T
        + 1268348 / 100000000000 * T ^ 2)) := by
  unfold gstar
  rw [f_zero T p 0 hf]
  have e : dens w T p = w.ρ T p / 1000 := by unfold dens; ring
  by_cases h : 1000 ≤ w.ρ T p
  · have : 1 ≤ dens w T p := by rw [e, le_div_iff₀ (by norm_num)]; linarith
    simp only [g, if_pos this, if_pos h, sub_zero]
  · have : ¬ 1 ≤ dens w T p := by rw [e, le_div_iff₀ (by norm_num)]; linarith
    have ea : ag T 0 = -2037662 / 1000000 + 5747 / 1000000 * T - 6557892 / 1000000000000 * T ^ 2 := by
      simp only [ag]; ring
    have eb : bg T 0 = 6107361 / 1000000 - 1074377 / 100000000 * T
        + 1268348 / 100000000000 * T ^ 2 := by
      simp only [bg]; ring
    simp only [g, if_neg this, if_neg h, sub_zero]
    rw [gval, e, ea, eb]

/-- The parts of the correction in its range. -/
theorem f_formula (T p : ℝ) (hT : 42815 / 100 ≤ T) (hT' : T ≤ 62815 / 100) (hp : p ≤ 100000000) :
    f T p 0 = .ok (((T - 42815 / 100) / 300) ^ (48 / 10 : ℝ)
      + 3666666 / 100000 * ((T - 42815 / 100) / 300) ^ (16 : ℝ)
      * (-1504956 / 10 ^ 16 * (1000 - p / 100000) ^ 3 + 5107997 / 10 ^ 20 * (1000 - p / 100000) ^ 4)) ∧
    f T p 1 = .ok ((48 / 10 * ((T - 42815 / 100) / 300) ^ (38 / 10 : ℝ)
      + 16 * (3666666 / 100000) * ((T - 42815 / 100) / 300) ^ (15 : ℝ)) / 300
      * (-1504956 / 10 ^ 16 * (1000 - p / 100000) ^ 3 + 5107997 / 10 ^ 20 * (1000 - p / 100000) ^ 4)) ∧
    f T p 2 = .ok ((48 / 10 * (38 / 10) * ((T - 42815 / 100) / 300) ^ (28 / 10 : ℝ)
      + 16 * 15 * (3666666 / 100000) * ((T - 42815 / 100) / 300) ^ (14 : ℝ)) / 90000
      * (-1504956 / 10 ^ 16 * (1000 - p / 100000) ^ 3 + 5107997 / 10 ^ 20 * (1000 - p / 100000) ^ 4)) ∧
    f T p 3 = .ok ((((T - 42815 / 100) / 300) ^ (48 / 10 : ℝ)
      + 3666666 / 100000 * ((T - 42815 / 100) / 300) ^ (16 : ℝ))
      * -((3 * (-1504956 / 10 ^ 16) * (1000 - p / 100000) ^ 2
        + 4 * (5107997 / 10 ^ 20) * (1000 - p / 100000) ^ 3) / 100000)) := by
  have h1 : ¬ T - 27315 / 100 < 155 := by linarith
  have h2 : ¬ 1000 < p / 100000 := by rw [lt_div_iff₀ (by norm_num)]; linarith
  have h3 : min (T - 27315 / 100) 355 = T - 27315 / 100 := min_eq_left (by linarith)
  have h4 : T - 27315 / 100 - 155 = T - 42815 / 100 := by ring
  unfold f
  simp only [if_neg h1, if_neg h2, h3, h4, af0, af1, af2]
  refine ⟨?_, ?_, ?_, ?_⟩ <;> congr 1 <;> ring

/-- The temperature derivative given is not that of the value given: the pressure factor is applied
to both terms in the one and to the second term only in the other. -/
theorem f_T_defect (T p : ℝ) (hT : 42815 / 100 < T) (hT' : T < 62815 / 100) (hp : p ≤ 100000000) :
    ∃ v : ℝ → ℝ, ∃ d, (∀ T, 42815 / 100 ≤ T → T ≤ 62815 / 100 → f T p 0 = .ok (v T)) ∧
      f T p 1 = .ok d ∧
      HasDerivAt v (d + 48 / 10 * ((T - 42815 / 100) / 300) ^ (38 / 10 : ℝ) / 300
        * (1 - (-1504956 / 10 ^ 16 * (1000 - p / 100000) ^ 3
          + 5107997 / 10 ^ 20 * (1000 - p / 100000) ^ 4))) T := by
  refine ⟨_, _, fun T h h' => (f_formula T p h h' hp).1, (f_formula T p hT.le hT'.le hp).2.1, ?_⟩
  have hpos : 0 < (T - 42815 / 100) / 300 := by apply div_pos <;> linarith
  have i := ((hasDerivAt_id' T).sub_const (42815 / 100 : ℝ)).div_const (300 : ℝ)
  have a := i.rpow_const (p := (48 / 10 : ℝ)) (Or.inl hpos.ne')
  have b := i.rpow_const (p := (16 : ℝ)) (Or.inl hpos.ne')
  refine (a.fun_add ((b.const_mul (3666666 / 100000 : ℝ)).mul_const _)).congr_deriv ?_
  rw [show (48 / 10 - 1 : ℝ) = 38 / 10 by norm_num, show (16 - 1 : ℝ) = 15 by norm_num]
  generalize ((T - 42815 / 100) / 300) ^ (38 / 10 : ℝ) = u
  generalize ((T - 42815 / 100) / 300) ^ (15 : ℝ) = v
  ring

/-- So the two disagree at 1000 bar and at every temperature within the range. -/
theorem f_T_refuted (T : ℝ) (hT : 42815 / 100 < T) (hT' : T < 62815 / 100) :
    ∃ v : ℝ → ℝ, ∃ d, (∀ T, 42815 / 100 ≤ T → T ≤ 62815 / 100 → f T 100000000 0 = .ok (v T)) ∧
      f T 100000000 1 = .ok d ∧ ¬ HasDerivAt v d T := by
  obtain ⟨v, d, h1, h2, h3⟩ := f_T_defect T 100000000 hT hT' le_rfl
  refine ⟨v, d, h1, h2, fun h => ?_⟩
  have := h.unique h3
  have hpos : 0 < (T - 42815 / 100) / 300 := by apply div_pos <;> linarith
  have hp := Real.rpow_pos_of_pos hpos (38 / 10 : ℝ)
  norm_num at this hp
  linarith

/-- The value jumps to zero above 1000 bar. -/
theorem f_jump (T : ℝ) (hT : 42815 / 100 < T) (hT' : T ≤ 62815 / 100) :
    (∃ v, f T 100000000 0 = .ok v ∧ 0 < v) ∧ ∀ p, 100000000 < p → f T p 0 = .ok 0 := by
  refine ⟨⟨_, (f_formula T _ hT.le hT' le_rfl).1, ?_⟩, fun p hp => f_zero T p 0 (Or.inr hp)⟩
  have hpos : 0 < (T - 42815 / 100) / 300 := by apply div_pos <;> linarith
  have hp := Real.rpow_pos_of_pos hpos (48 / 10 : ℝ)
  norm_num at hp ⊢
  exact hp

/-- Above 355 °C the value no longer depends on the temperature, but the derivative given is that
at 355 °C. -/
theorem f_hot (T p : ℝ) (i : ℕ) (hT : 62815 / 100 ≤ T) : f T p i = f (62815 / 100) p i := by
  have h1 : ¬ T - 27315 / 100 < 155 := by linarith
  have h1' : ¬ (62815 / 100 - 27315 / 100 : ℝ) < 155 := by norm_num
  have h3 : min (T - 27315 / 100) 355 = min (62815 / 100 - 27315 / 100) 355 := by
    rw [min_eq_right (by linarith), min_eq_right (by norm_num)]
  unfold f
  simp only [if_neg h1, if_neg h1', h3]

theorem f_hot_refuted : ∃ p d, f 700 p 1 = .ok d ∧ d ≠ 0 ∧ ∀ T, 62815 / 100 ≤ T →
    f T p 0 = f (62815 / 100) p 0 := by
  have hv := (f_formula (62815 / 100) 99900000 (by norm_num) (by norm_num) (by norm_num)).2.1
  rw [← f_hot 700 _ 1 (by norm_num)] at hv
  refine ⟨99900000, _, hv, ?_, fun T hT => f_hot T _ 0 hT⟩
  · have h1 : 0 < ((62815 / 100 - 42815 / 100 : ℝ) / 300) ^ (38 / 10 : ℝ) :=
      Real.rpow_pos_of_pos (by norm_num) _
    have h2 : 0 < ((62815 / 100 - 42815 / 100 : ℝ) / 300) ^ (15 : ℝ) :=
      Real.rpow_pos_of_pos (by norm_num) _
    refine mul_ne_zero (by positivity) (by norm_num)

/-! ## Dielectric constant -/
namespace WP

/-- Where the formula makes sense. -/
structure Dom (T p : ℝ) : Prop where
  t : 0 < T
  c : U6 + T ≠ 0
  b : 0 < B T + p * (1 / 100000)
  b1 : 0 < B T + 1000

example : Dom 300 100000 :=
  ⟨by norm_num, by norm_num [U6], by norm_num [B, U7, U8, U9], by norm_num [B, U7, U8, U9]⟩

theorem C_deriv (T : ℝ) (h : U6 + T ≠ 0) : HasDerivAt C (dC T) T := by
  have := ((hasDerivAt_const T U5).fun_div ((hasDerivAt_id' T).const_add U6) h).const_add U4
  refine HasDerivAt.congr_deriv (f := C) this ?_
  unfold dC
  field_simp
  ring

theorem dC_deriv (T : ℝ) (h : U6 + T ≠ 0) : HasDerivAt dC (-2 * dC T / (U6 + T)) T := by
  have i := (hasDerivAt_id' T).const_add U6
  have := (hasDerivAt_const T (-U5)).fun_div (i.fun_mul i) (mul_ne_zero h h)
  refine HasDerivAt.congr_deriv (f := dC) this ?_
  unfold dC
  field_simp
  ring

theorem B_deriv (T : ℝ) (h : T ≠ 0) : HasDerivAt B (dB T) T := by
  have i := hasDerivAt_id' T
  have := (((hasDerivAt_const T U8).fun_div i h).const_add U7).fun_add (i.const_mul U9)
  refine HasDerivAt.congr_deriv (f := B) this ?_
  unfold dB
  field_simp
  ring

theorem dB_deriv (T : ℝ) (h : T ≠ 0) : HasDerivAt dB (2 * U8 / (T * T * T)) T := by
  have i := hasDerivAt_id' T
  have := ((hasDerivAt_const T (-U8)).fun_div (i.fun_mul i) (mul_ne_zero h h)).add_const U9
  refine HasDerivAt.congr_deriv (f := dB) this ?_
  field_simp
  ring

theorem eps_deriv (T : ℝ) : HasDerivAt eps1000 (deps1000 T) T ∧
    HasDerivAt deps1000 (deps1000 T * (U2 + 2 * U3 * T) + eps1000 T * (2 * U3)) T := by
  have i := hasDerivAt_id' T
  have e : HasDerivAt eps1000 (deps1000 T) T := by
    have := ((((i.const_mul U2).fun_add ((i.fun_mul i).const_mul U3))).exp).const_mul U1
    refine HasDerivAt.congr_deriv (f := eps1000) this ?_
    unfold deps1000 eps1000
    ring
  refine ⟨e, ?_⟩
  have := e.fun_mul ((i.const_mul (2 * U3)).const_add U2)
  refine HasDerivAt.congr_deriv (f := deps1000) this ?_
  ring

theorem ltmp_T (T p : ℝ) (h : Dom T p) : HasDerivAt (fun T => ltmp T p) (dltmp T p) T := by
  have b := B_deriv T h.t.ne'
  have := ((b.add_const (p * (1 / 100000))).fun_div (b.add_const 1000) h.b1.ne').log
    (div_pos h.b h.b1).ne'
  refine HasDerivAt.congr_deriv (f := fun T => ltmp T p) this ?_
  unfold dltmp
  have hb := h.b.ne'
  have hb1 := h.b1.ne'
  generalize hu : B T + p * (1 / 100000) = u at *
  generalize hv : B T + 1000 = v at *
  field_simp

/-- The temperature derivative of the dielectric constant. -/
theorem relEpsilon_T (T p : ℝ) (h : Dom T p) :
    HasDerivAt (fun T => relEpsilon T p 0) (relEpsilon T p 1) T := by
  have := (eps_deriv T).1.fun_add ((C_deriv T h.c).fun_mul (ltmp_T T p h))
  refine HasDerivAt.congr_deriv (f := fun T => relEpsilon T p 0) ?_
    (f' := deps1000 T + (dC T * ltmp T p + C T * dltmp T p)) ?_
  · simpa [relEpsilon] using this
  · simp [relEpsilon]; ring

/-- The second temperature derivative. -/
theorem relEpsilon_TT (T p : ℝ) (h : Dom T p) :
    HasDerivAt (fun T => relEpsilon T p 1) (relEpsilon T p 2) T := by
  have hb := h.b.ne'
  have hb1 := h.b1.ne'
  have b := B_deriv T h.t.ne'
  have db := dB_deriv T h.t.ne'
  have dl : HasDerivAt (fun T => dltmp T p) _ T :=
    (db.fun_div (b.add_const (p * (1 / 100000))) hb).fun_sub (db.fun_div (b.add_const 1000) hb1)
  have := ((eps_deriv T).2.fun_add ((dC_deriv T h.c).fun_mul (ltmp_T T p h))).fun_add
    ((C_deriv T h.c).fun_mul dl)
  have e : (fun T => relEpsilon T p 1) = fun T => deps1000 T + dC T * ltmp T p + C T * dltmp T p := by
    funext T; simp [relEpsilon]
  rw [e]
  refine this.congr_deriv ?_
  unfold relEpsilon
  rw [if_neg (by norm_num), if_pos rfl]
  simp only []
  generalize B T + p * (1 / 100000) = u at *
  generalize B T + 1000 = v at *
  generalize 2 * U8 / (T * T * T) = q
  generalize dltmp T p = dlt
  generalize dC T = dc
  generalize -2 * dc / (U6 + T) = ddc
  field_simp
  ring

/-- The pressure derivative. -/
theorem relEpsilon_P (T p : ℝ) (h : Dom T p) :
    HasDerivAt (fun p => relEpsilon T p 0) (relEpsilon T p 3) p := by
  have i := ((hasDerivAt_id' p).mul_const (1 / 100000 : ℝ)).const_add (B T)
  have l := (((i.div_const (B T + 1000)).log (div_pos h.b h.b1).ne').const_mul (C T)).const_add
    (eps1000 T)
  have e : (fun p => relEpsilon T p 0) = fun p => eps1000 T + C T * ltmp T p := by
    funext p; simp [relEpsilon]
  rw [e]
  refine HasDerivAt.congr_deriv (f := fun p => eps1000 T + C T * ltmp T p) l ?_
  unfold relEpsilon
  rw [if_neg (by norm_num), if_neg (by norm_num), if_pos rfl]
  have hb := h.b.ne'
  have hb1 := h.b1.ne'
  generalize B T + p * (1 / 100000) = u at *
  generalize B T + 1000 = v at *
  field_simp

/-- The value: at 1000 bar the second term vanishes. -/
theorem relEpsilon_formula (T p : ℝ) : relEpsilon T p 0
    = 34279 / 100 * Real.exp (-50866 / 10 ^ 7 * T + 94690 / 10 ^ 11 * T ^ 2)
      + (-20525 / 10 ^ 4 + 31159 / 10 / (-18289 / 100 + T))
      * Real.log ((-80325 / 10 + 4214200 / T + 21417 / 10 ^ 4 * T + p / 10 ^ 5)
        / (-80325 / 10 + 4214200 / T + 21417 / 10 ^ 4 * T + 1000)) := by
  unfold relEpsilon
  rw [if_neg (by norm_num), if_neg (by norm_num), if_neg (by norm_num)]
  unfold eps1000 C ltmp B U1 U2 U3 U4 U5 U6 U7 U8 U9
  congr 1
  · congr 2; ring
  · rw [mul_one_div p]
    norm_num

/-! ## Debye-Hückel coefficient -/

/-- The functions of the water belong together at `(T, p)`. -/
structure Good (V : Env) (T p : ℝ) : Prop where
  eT : HasDerivAt (fun T => V.e T p 0) (V.e T p 1) T
  eTT : HasDerivAt (fun T => V.e T p 1) (V.e T p 2) T
  eP : HasDerivAt (fun p => V.e T p 0) (V.e T p 3) p
  dT : HasDerivAt (fun T => V.dw T p) (-V.cte T p * V.dw T p) T
  dP : HasDerivAt (fun p => V.dw T p) (V.kappa T p * V.dw T p) p
  e : 0 < V.e T p 0
  d : 0 < V.dw T p
  T : 0 < T
  ε0 : 0 < V.ε0
  NA : 0 < V.NA
  q : 0 < V.q
  R : 0 < V.R
  π : 0 < V.π

/-- Derivative along any path. -/
theorem A_path (V : Env) (d e τ : ℝ → ℝ) (d' e' τ' t : ℝ) (hd : HasDerivAt d d' t)
    (he : HasDerivAt e e' t) (hτ : HasDerivAt τ τ' t) (d0 : 0 < d t) (e0 : 0 < e t) (τ0 : 0 < τ t)
    (hε : 0 < V.ε0) (hN : 0 < V.NA) (hq : 0 < V.q) (hR : 0 < V.R) (hπ : 0 < V.π) :
    HasDerivAt (fun t => Real.sqrt (2 * V.NA * d t / 1000)
      * (V.q * V.q * V.NA / (V.ε0 * e t * V.R * τ t)
        * Real.sqrt (V.q * V.q * V.NA / (V.ε0 * e t * V.R * τ t))) / (8 * V.π))
      (Real.sqrt (2 * V.NA * d t / 1000)
      * (V.q * V.q * V.NA / (V.ε0 * e t * V.R * τ t)
        * Real.sqrt (V.q * V.q * V.NA / (V.ε0 * e t * V.R * τ t))) / (8 * V.π)
        * (1 / 2 * d' / d t - 3 / 2 * e' / e t - 3 / 2 * τ' / τ t)) t := by
  have hD : 0 < V.ε0 * e t * V.R * τ t := by positivity
  have p1 : 0 < 2 * V.NA * d t / 1000 := by positivity
  have p2 : 0 < V.q * V.q * V.NA / (V.ε0 * e t * V.R * τ t) := by positivity
  have s1 := ((hd.const_mul (2 * V.NA)).div_const 1000).sqrt p1.ne'
  have u := (hasDerivAt_const t (V.q * V.q * V.NA)).fun_div
    (((he.const_mul V.ε0).mul_const V.R).fun_mul hτ) hD.ne'
  have s2 := u.sqrt p2.ne'
  refine ((s1.fun_mul (u.fun_mul s2)).div_const (8 * V.π)).congr_deriv ?_
  have q1 := Real.mul_self_sqrt p1.le
  have q2 := Real.mul_self_sqrt p2.le
  have n1 := (Real.sqrt_pos.2 p1).ne'
  have n2 := (Real.sqrt_pos.2 p2).ne'
  have e1 : (2 * V.NA * d' / 1000) / (2 * Real.sqrt (2 * V.NA * d t / 1000))
      = Real.sqrt (2 * V.NA * d t / 1000) * (1 / 2 * d' / d t) := by
    rw [div_eq_iff (mul_ne_zero two_ne_zero n1)]
    have : Real.sqrt (2 * V.NA * d t / 1000) * (1 / 2 * d' / d t)
        * (2 * Real.sqrt (2 * V.NA * d t / 1000))
        = (Real.sqrt (2 * V.NA * d t / 1000) * Real.sqrt (2 * V.NA * d t / 1000)) * (d' / d t) := by
      ring
    rw [this, q1]
    field_simp
  generalize hu : V.q * V.q * V.NA / (V.ε0 * e t * V.R * τ t) = U at *
  have e2 : (0 * (V.ε0 * e t * V.R * τ t)
      - V.q * V.q * V.NA * (V.ε0 * e' * V.R * τ t + V.ε0 * e t * V.R * τ'))
      / (V.ε0 * e t * V.R * τ t) ^ 2 = -U * (e' / e t + τ' / τ t) := by
    rw [← hu]
    field_simp
    ring
  rw [e1, e2]
  generalize Real.sqrt (2 * V.NA * d t / 1000) = S at *
  have e3 : -U * (e' / e t + τ' / τ t) / (2 * Real.sqrt U)
      = -(Real.sqrt U) * (e' / e t + τ' / τ t) / 2 := by
    rw [div_eq_iff (mul_ne_zero two_ne_zero n2)]
    nth_rewrite 1 [← q2]
    ring
  rw [e3]
  field_simp
  ring

theorem A0_T (V : Env) (T p : ℝ) (h : Good V T p) :
    HasDerivAt (fun T => A0 V T p) (A1 V T p) T := by
  have := A_path V (fun T => V.dw T p) (fun T => V.e T p 0) (fun T => T) _ _ _ T h.dT h.eT
    (hasDerivAt_id' T) h.d h.e h.T h.ε0 h.NA h.q h.R h.π
  refine HasDerivAt.congr_deriv (f := fun T => A0 V T p) this ?_
  have hd := h.d.ne'
  have he := h.e.ne'
  have hT := h.T.ne'
  change A0 V T p * _ = A1 V T p
  unfold A1
  field_simp
  ring

theorem A0_P (V : Env) (T p : ℝ) (h : Good V T p) :
    HasDerivAt (fun p => A0 V T p) (A3 V T p) p := by
  have := A_path V (fun p => V.dw T p) (fun p => V.e T p 0) (fun _ => T) _ _ _ p h.dP h.eP
    (hasDerivAt_const p T) h.d h.e h.T h.ε0 h.NA h.q h.R h.π
  refine HasDerivAt.congr_deriv (f := fun p => A0 V T p) this ?_
  have hd := h.d.ne'
  have he := h.e.ne'
  have hT := h.T.ne'
  change A0 V T p * _ = A3 V T p
  unfold A3
  field_simp
  ring

/-- The second temperature derivative, and what is given for it. -/
theorem A1_T (V : Env) (T p c' : ℝ) (h : Good V T p)
    (hc : HasDerivAt (fun T => V.cte T p) c' T) :
    HasDerivAt (fun T => A1 V T p) (A2 V T p - 1 / 2 * A0 V T p *
      (c' - (V.cte (T - 1 / 10) p - V.cte T p) / (T - 1 / 10))) T := by
  have hd := h.d.ne'
  have he := h.e.ne'
  have hT := h.T.ne'
  have a := A0_T V T p h
  have i := hasDerivAt_id' T
  have := (((a.const_mul (-(3 / 2))).fun_div i hT).fun_sub
    (a.fun_mul ((h.eTT.const_mul (3 / 2)).fun_div h.eT he))).fun_add
    (a.fun_neg.fun_mul (hc.const_mul (1 / 2)))
  refine HasDerivAt.congr_deriv (f := fun T => A1 V T p) this ?_
  unfold A2
  simp only [← sub_eq_add_neg]
  generalize (V.cte (T - 1 / 10) p - V.cte T p) / (T - 1 / 10) = q
  generalize A1 V T p = a1
  generalize A0 V T p = a0
  generalize V.e T p 0 = e0 at *
  field_simp
  ring

/-- The pressure used is never below the vapor pressure. -/
theorem pres_spec (V : Env) (T p : ℝ) : pres V T p = max p (V.psat T) := by
  unfold pres
  split_ifs with h
  · exact (max_eq_right h.le).symm
  · exact (max_eq_left (not_lt.1 h)).symm

/-- Above the vapor pressure the first derivatives given are the derivatives. -/
theorem ADebye_spec (V : Env) (T p : ℝ) (h : Good V T p) (hs : ContinuousAt V.psat T)
    (hp : V.psat T < p) :
    HasDerivAt (fun T => ADebye V T p 0) (ADebye V T p 1) T ∧
    HasDerivAt (fun p => ADebye V T p 0) (ADebye V T p 3) p := by
  have e1 : ADebye V T p 1 = A1 V T p := by
    unfold ADebye; rw [pres_spec, max_eq_left hp.le]; simp
  have e3 : ADebye V T p 3 = A3 V T p := by
    unfold ADebye; rw [pres_spec, max_eq_left hp.le]; simp
  constructor
  · rw [e1]
    refine (A0_T V T p h).congr_of_eventuallyEq ?_
    filter_upwards [hs.eventually (gt_mem_nhds hp)] with T' hT'
    unfold ADebye; rw [pres_spec, max_eq_left hT'.le]; simp
  · rw [e3]
    refine (A0_P V T p h).congr_of_eventuallyEq ?_
    filter_upwards [lt_mem_nhds hp] with p' hp'
    unfold ADebye; rw [pres_spec, max_eq_left hp'.le]; simp

/-- Below the vapor pressure the value does not depend on the pressure, but the derivative given is
that at the vapor pressure. -/
theorem ADebye_below (V : Env) (T p : ℝ) (hp : p < V.psat T) (i : ℕ) :
    ADebye V T p i = ADebye V T (V.psat T) i := by
  unfold ADebye; rw [pres_spec, pres_spec, max_eq_right hp.le, max_self]

/-- The second derivative given is wrong unless the expansion coefficient is constant. -/
theorem ADebye_TT_refuted : ∃ (V : Env) (T p : ℝ), Good V T p ∧
    ¬ HasDerivAt (fun T => A1 V T p) (A2 V T p) T := by
  have hG : Good ⟨1, 1, 1, 1, 1, fun _ _ i => if i = 0 then 1 else 0,
      fun T _ => Real.exp (-(T * T / 2)), fun T _ => T, fun _ _ => 0, fun _ => 0⟩ 1 1 := by
    refine ⟨?_, ?_, ?_, ?_, ?_, by norm_num, Real.exp_pos _, by norm_num, by norm_num, by norm_num,
      by norm_num, by norm_num, by norm_num⟩
    · simpa using hasDerivAt_const (1 : ℝ) (1 : ℝ)
    · simpa using hasDerivAt_const (1 : ℝ) (0 : ℝ)
    · simpa using hasDerivAt_const (1 : ℝ) (1 : ℝ)
    · have i := hasDerivAt_id' (1 : ℝ)
      exact (((i.fun_mul i).div_const 2).fun_neg.exp).congr_deriv (by ring)
    · simpa using hasDerivAt_const (1 : ℝ) (Real.exp (-(1 * 1 / 2)))
  refine ⟨_, 1, 1, hG, fun h => ?_⟩
  have := h.unique (A1_T _ 1 1 1 hG (hasDerivAt_id' 1))
  have hA : 0 < A0 ⟨1, 1, 1, 1, 1, fun _ _ i => if i = 0 then 1 else 0,
      fun T _ => Real.exp (-(T * T / 2)), fun T _ => T, fun _ _ => 0, fun _ => 0⟩ 1 1 := by
    have := Real.exp_pos (-(1 * 1 / 2 : ℝ))
    unfold A0
    simp only [if_true]
    positivity
  norm_num at this
  linarith

/-! ## Density from the temperature -/

theorem rhoAt_deriv (Tc : ℝ) (h : Tc + 6812963 / 100000 ≠ 0) :
    HasDerivAt rhoAt (drhoAt Tc) Tc ∧ HasDerivAt drhoAt (d2rhoAt Tc) Tc := by
  have i := hasDerivAt_id' Tc
  have t1 := i.add_const (2889414 / 10000 : ℝ)
  have t4 := i.add_const (-39863 / 10000 : ℝ)
  have t3 := i.add_const (6812963 / 100000 : ℝ)
  constructor
  · have := (((t1.fun_mul (t4.fun_mul t4)).fun_div (t3.const_mul (5089292 / 10 : ℝ))
      (mul_ne_zero (by norm_num) h)).const_sub 1).const_mul 1000
    refine HasDerivAt.congr_deriv (f := rhoAt) this ?_
    unfold drhoAt
    simp only []
    generalize Tc + 6812963 / 100000 = u at *
    generalize Tc + 2889414 / 10000 = v
    generalize Tc + -39863 / 10000 = w
    field_simp
    ring
  · have := (((t4.fun_neg.fun_mul t4).fun_div t3 h).fun_sub
      (((t1.mul_const 2).fun_mul t4).fun_div t3 h)).fun_add
      ((t1.fun_mul (t4.fun_mul t4)).fun_div (t3.fun_mul t3) (mul_ne_zero h h))
    refine HasDerivAt.congr_deriv (f := drhoAt)
      (this.const_mul (1000 / (5089292 / 10) : ℝ)) ?_
    unfold d2rhoAt
    simp only []
    generalize Tc + 6812963 / 100000 = u at *
    generalize Tc + 2889414 / 10000 = v
    generalize Tc + -39863 / 10000 = w
    field_simp
    ring

/-- The first call gives the density at its temperature. -/
theorem densityT_first (R T P : ℝ) :
    (densityT R none T P 0).1 = max (rhoAt (T - 27315 / 100)) (P / (R * T)) := by
  unfold densityT
  simp only [Option.getD_none]
  by_cases h : rhoAt (T - 27315 / 100) < P / (R * T)
  · rw [if_pos h, max_eq_right h.le]; simp
  · rw [if_neg h, max_eq_left (not_lt.1 h)]; simp

/-- Every later call gives the density at the temperature of the first one. -/
theorem densityT_stuck (R T0 P0 T P : ℝ) (i : ℕ) :
    (densityT R (densityT R none T0 P0 i).2 T P 0).1
      = max (rhoAt (T0 - 27315 / 100)) (P / (R * T)) := by
  have : (densityT R none T0 P0 i).2 = some (T0 - 27315 / 100) := by
    unfold densityT; simp only [Option.getD_none]; split_ifs <;> rfl
  rw [this]
  unfold densityT
  simp only [Option.getD_some]
  by_cases h : rhoAt (T0 - 27315 / 100) < P / (R * T)
  · rw [if_pos h, max_eq_right h.le]; simp
  · rw [if_neg h, max_eq_left (not_lt.1 h)]; simp

/-- Witness: density at 350 K after a call at 300 K. -/
theorem densityT_refuted : ∃ R T0 T P : ℝ, 0 < R ∧ 0 < T0 ∧ 0 < T ∧ 0 < P ∧
    (densityT R (densityT R none T0 P 0).2 T P 0).1 ≠ (densityT R none T P 0).1 := by
  refine ⟨8314, 300, 350, 100000, by norm_num, by norm_num, by norm_num, by norm_num, ?_⟩
  rw [densityT_stuck, densityT_first, max_eq_left (by norm_num [rhoAt]),
    max_eq_left (by norm_num [rhoAt])]
  norm_num [rhoAt]

end WP

/-- All together: below 155 °C, or above 1000 bar, with water lighter than 1 g/cm³, the functions of
the dielectric constant and of the solvent meet the hypotheses of `gibbs_P` and `enthalpy_T`. -/
theorem concrete_partial (A : Par) (w : Water) (T p : ℝ) (hw : WaterAt w T p)
    (hd : dens w T p < 1) (hD : WP.Dom T p) :
    ∃ F : Fun, (F.e = fun T p => WP.relEpsilon T p 0) ∧
      (∀ T p, dens w T p < 1 → (T < 42815 / 100 ∨ 100000000 < p) →
        gstar w T p 0 = .ok (F.g T p) ∧ gstar w T p 1 = .ok (F.gT T p) ∧
        gstar w T p 2 = .ok (F.gTT T p) ∧ gstar w T p 3 = .ok (F.gP T p)) ∧
      (NZ A F T p → HasDerivAt (fun p => gibbs A F T p) (molarVolume A F T p) p ∧
        HasDerivAt (fun T => enthalpy A F T p) (cp A F T p) T) := by
  obtain ⟨G, G1, G2, G3, h0, h1, h2, h3⟩ := gstar_spec_partial w T p hw hd
  have hF : DerivAt ⟨fun T p => WP.relEpsilon T p 0, fun T p => WP.relEpsilon T p 1,
      fun T p => WP.relEpsilon T p 2, fun T p => WP.relEpsilon T p 3, G, G1, G2, G3⟩ T p :=
    ⟨WP.relEpsilon_T T p hD, WP.relEpsilon_TT T p hD, WP.relEpsilon_P T p hD, h1, h2, h3⟩
  exact ⟨_, rfl, h0, fun hN => ⟨gibbs_P A _ T p hF hN, enthalpy_T A _ T p hF hN⟩⟩

end Verif.Hkft
