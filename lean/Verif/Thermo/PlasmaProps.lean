import Verif.Thermo.Plasma
import Mathlib.MeasureTheory.Integral.Gamma
import Mathlib.Analysis.SpecialFunctions.Gamma.BohrMollerup
import Mathlib.Tactic.Positivity

/-!
# Properties of the electron energy distribution
-/

namespace Verif.Plasma

open Verif Funcs Set MeasureTheory

theorem qe_pos : 0 < qe := by norm_num [qe]
theorem kB_pos : 0 < kB := by norm_num [kB]
theorem me_pos : 0 < me := by norm_num [me]
theorem NA_pos : 0 < NA := by norm_num [NA]
theorem Rgas_pos : 0 < Rgas := mul_pos NA_pos kB_pos

/-- The physical constants (SI 2019, CODATA 2018; per kmol). -/
theorem constants : qe = 1.602176634 / 10 ^ 19 ∧ kB = 1.380649 / 10 ^ 23 ∧
    me = 9.1093837015 / 10 ^ 31 ∧ NA = 6.02214076 * 10 ^ 26 ∧
    Rgas = 6.02214076 * 1.380649 * 1000 := by
  norm_num [qe, kB, me, NA, Rgas]

/-! ## The isotropic form -/

theorem Gpos {x : ℝ} (hx : 0 < x) (a : ℝ) (ha : 0 < a) : 0 < Real.Gamma (a * x) :=
  Real.Gamma_pos_of_pos (mul_pos ha hx)

theorem isoC1_pos {x : ℝ} (hx : 0 < x) : 0 < isoC1 x := by
  have h1 := Gpos hx (5 / 2) (by norm_num)
  have h2 := Gpos hx (3 / 2) (by norm_num)
  unfold isoC1
  positivity

theorem isoC2_pos {x : ℝ} (hx : 0 < x) : 0 < isoC2 x := by
  have h1 := Gpos hx (5 / 2) (by norm_num)
  have h2 := Gpos hx (3 / 2) (by norm_num)
  unfold isoC2
  positivity

/-- The distribution is positive and strictly decreasing in the energy. -/
theorem isoF_pos_anti {x em : ℝ} (hx : 0 < x) (he : 0 < em) :
    (∀ ε, 0 < isoF x em ε) ∧ ∀ a b, 0 ≤ a → a < b → isoF x em b < isoF x em a := by
  have h1 := isoC1_pos hx
  have h2 := isoC2_pos hx
  constructor
  · intro ε; unfold isoF; positivity
  · intro a b ha hab
    unfold isoF
    apply mul_lt_mul_of_pos_left _ (by positivity)
    apply Real.exp_lt_exp.2
    have : (a / em) ^ x < (b / em) ^ x :=
      Real.rpow_lt_rpow (by positivity) (div_lt_div_of_pos_right hab he) hx
    nlinarith

/-- Moments of any distribution of the form used. -/
theorem form_moment {c1 c2 x em q : ℝ} (hc : 0 < c2) (hx : 0 < x) (he : 0 < em) (hq : -1 < q) :
    ∫ ε in Ioi (0 : ℝ), ε ^ q * (c1 / em ^ (1.5 : ℝ) * Real.exp (-c2 * (ε / em) ^ x)) =
      c1 * c2 ^ (-(q + 1) / x) * (1 / x) * Real.Gamma ((q + 1) / x) * em ^ (q + 1 - 1.5) := by
  have hb : 0 < c2 / em ^ x := by positivity
  have e1 : ∫ ε in Ioi (0 : ℝ), ε ^ q * (c1 / em ^ (1.5 : ℝ) * Real.exp (-c2 * (ε / em) ^ x)) =
      ∫ ε in Ioi (0 : ℝ), (c1 / em ^ (1.5 : ℝ)) * (ε ^ q * Real.exp (-(c2 / em ^ x) * ε ^ x)) := by
    refine setIntegral_congr_fun measurableSet_Ioi fun ε (hε : 0 < ε) => ?_
    rw [Real.div_rpow hε.le he.le]
    have : -c2 * (ε ^ x / em ^ x) = -(c2 / em ^ x) * ε ^ x := by ring
    rw [this]; ring
  rw [e1, integral_const_mul, integral_rpow_mul_exp_neg_mul_rpow hx hq hb]
  have e2 : (c2 / em ^ x) ^ (-(q + 1) / x) = c2 ^ (-(q + 1) / x) * em ^ (q + 1) := by
    rw [Real.div_rpow hc.le (by positivity), ← Real.rpow_mul he.le, div_eq_mul_inv,
      ← Real.rpow_neg he.le]
    congr 2
    field_simp
  rw [e2, Real.rpow_sub he]
  ring

/-- With shape factor 1 the form is the Maxwell distribution: it integrates to one and its mean is
`em`. -/
theorem maxwell {em : ℝ} (he : 0 < em) :
    (∫ ε in Ioi (0 : ℝ), ε ^ (1 / 2 : ℝ) * isoF 1 em ε = 1) ∧
    (∫ ε in Ioi (0 : ℝ), ε ^ (3 / 2 : ℝ) * isoF 1 em ε = em) ∧
    ∀ ε, isoF 1 em ε = isoF 1 em 0 * Real.exp (-(3 / 2) * (ε / em)) := by
  have hg : 0 < Real.Gamma (3 / 2) := Real.Gamma_pos_of_pos (by norm_num)
  have hg2 : Real.Gamma (5 / 2) = 3 / 2 * Real.Gamma (3 / 2) := by
    rw [← Real.Gamma_add_one (by norm_num)]; norm_num
  have c2 : isoC2 1 = 3 / 2 := by
    unfold isoC2
    rw [mul_one, mul_one, Real.rpow_one, hg2]
    field_simp
  have c1 : isoC1 1 = (3 / 2) ^ (1.5 : ℝ) / Real.Gamma (3 / 2) := by
    unfold isoC1
    rw [mul_one, mul_one, hg2, Real.mul_rpow (by norm_num) hg.le, one_mul, mul_div_assoc,
      ← Real.rpow_sub hg]
    norm_num [Real.rpow_neg_one]
    rfl
  refine ⟨?_, ?_, ?_⟩
  · simp only [isoF]
    rw [form_moment (isoC2_pos one_pos) one_pos he (by norm_num), c1, c2]
    have : (1 / 2 + 1 : ℝ) - 1.5 = 0 := by norm_num
    rw [this, Real.rpow_zero, mul_one, div_one, div_one, mul_one, div_one]
    have e3 : (1 / 2 + 1 : ℝ) = 3 / 2 := by norm_num
    rw [e3]
    have e4 : (-(3 / 2) : ℝ) = -1.5 := by norm_num
    rw [e4, Real.rpow_neg (by norm_num)]
    have : (3 / 2 : ℝ) ^ (1.5 : ℝ) ≠ 0 := by positivity
    field_simp
  · simp only [isoF]
    rw [form_moment (isoC2_pos one_pos) one_pos he (by norm_num), c1, c2]
    have e5 : (3 / 2 + 1 : ℝ) - 1.5 = 1 := by norm_num
    have e3 : (3 / 2 + 1 : ℝ) = 5 / 2 := by norm_num
    rw [e5, Real.rpow_one, div_one, div_one, mul_one, e3, div_one, hg2]
    have e4 : (-(5 / 2) : ℝ) = -1.5 + -1 := by norm_num
    rw [e4, Real.rpow_add (by norm_num), Real.rpow_neg (by norm_num), Real.rpow_neg_one]
    have : (3 / 2 : ℝ) ^ (1.5 : ℝ) ≠ 0 := by positivity
    field_simp
  · intro ε
    simp only [isoF, c2, Real.rpow_one, zero_div, mul_zero, Real.exp_zero, mul_one]

example : ∫ ε in Ioi (0 : ℝ), ε ^ (1 / 2 : ℝ) * isoF 1 3 ε = 1 := (maxwell (by norm_num)).1

/-- The constants of the cited papers, `Γ(3/(2x))` and `Γ(5/(2x))`, normalise the form for every shape
factor and give the mean `em`. -/
theorem published_constants {x em : ℝ} (hx : 0 < x) (he : 0 < em) :
    let c1 := x * Real.Gamma (5 / (2 * x)) ^ (1.5 : ℝ) / Real.Gamma (3 / (2 * x)) ^ (2.5 : ℝ)
    let c2 := (Real.Gamma (5 / (2 * x)) / Real.Gamma (3 / (2 * x))) ^ x
    (∫ ε in Ioi (0 : ℝ), ε ^ (1 / 2 : ℝ) * (c1 / em ^ (1.5 : ℝ) * Real.exp (-c2 * (ε / em) ^ x)) = 1) ∧
    (∫ ε in Ioi (0 : ℝ), ε ^ (3 / 2 : ℝ) * (c1 / em ^ (1.5 : ℝ) * Real.exp (-c2 * (ε / em) ^ x)) = em) := by
  intro c1 c2
  have g1 : 0 < Real.Gamma (3 / (2 * x)) := Real.Gamma_pos_of_pos (by positivity)
  have g2 : 0 < Real.Gamma (5 / (2 * x)) := Real.Gamma_pos_of_pos (by positivity)
  have hc2 : 0 < c2 := by positivity
  have pw : ∀ a : ℝ, c2 ^ (-a / x) =
      Real.Gamma (3 / (2 * x)) ^ a / Real.Gamma (5 / (2 * x)) ^ a := by
    intro a
    have : c2 = (Real.Gamma (5 / (2 * x)) / Real.Gamma (3 / (2 * x))) ^ x := rfl
    rw [this, ← Real.rpow_mul (by positivity)]
    have e : x * (-a / x) = -a := by field_simp
    rw [e, Real.rpow_neg (by positivity), Real.div_rpow g2.le g1.le, inv_div]
  have q : ∀ g : ℝ, 0 < g → g ^ (2.5 : ℝ) = g ^ (1.5 : ℝ) * g := by
    intro g hg
    have : (2.5 : ℝ) = 1.5 + 1 := by norm_num
    rw [this, Real.rpow_add hg, Real.rpow_one]
  have hc1 : c1 = x * Real.Gamma (5 / (2 * x)) ^ (1.5 : ℝ) / Real.Gamma (3 / (2 * x)) ^ (2.5 : ℝ) := rfl
  constructor
  · rw [form_moment hc2 hx he (by norm_num)]
    have e5 : (1 / 2 + 1 : ℝ) - 1.5 = 0 := by norm_num
    have e3 : (1 / 2 + 1 : ℝ) = 1.5 := by norm_num
    have e4 : (1.5 : ℝ) / x = 3 / (2 * x) := by norm_num; field_simp
    rw [e5, Real.rpow_zero, mul_one, e3, pw, e4, hc1, q _ g1]
    have h1 : Real.Gamma (3 / (2 * x)) ^ (1.5 : ℝ) ≠ 0 := by positivity
    have h2 : Real.Gamma (5 / (2 * x)) ^ (1.5 : ℝ) ≠ 0 := by positivity
    generalize Real.Gamma (3 / (2 * x)) ^ (1.5 : ℝ) = a at *
    generalize Real.Gamma (5 / (2 * x)) ^ (1.5 : ℝ) = b at *
    have := g1.ne'
    field_simp
  · rw [form_moment hc2 hx he (by norm_num)]
    have e5 : (3 / 2 + 1 : ℝ) - 1.5 = 1 := by norm_num
    have e3 : (3 / 2 + 1 : ℝ) = 2.5 := by norm_num
    have e4 : (2.5 : ℝ) / x = 5 / (2 * x) := by norm_num; field_simp
    rw [e5, Real.rpow_one, e3, pw, e4, hc1, q _ g1, q _ g2]
    have h1 : Real.Gamma (3 / (2 * x)) ^ (1.5 : ℝ) ≠ 0 := by positivity
    have h2 : Real.Gamma (5 / (2 * x)) ^ (1.5 : ℝ) ≠ 0 := by positivity
    generalize Real.Gamma (3 / (2 * x)) ^ (1.5 : ℝ) = a at *
    generalize Real.Gamma (5 / (2 * x)) ^ (1.5 : ℝ) = b at *
    have := g1.ne'
    have := g2.ne'
    field_simp

/-- The code uses `Γ(3x/2)` and `Γ(5x/2)` and an extra factor `x` in `c2`: with the default shape
factor 2 (Druyvesteyn) the distribution integrates to less than a half instead of one. -/
theorem druyvesteyn_refuted {em : ℝ} (he : 0 < em) :
    ∫ ε in Ioi (0 : ℝ), ε ^ (1 / 2 : ℝ) * isoF 2 em ε < 1 / 2 := by
  have G3 : Real.Gamma 3 = 2 := by
    rw [show (3 : ℝ) = ((2 : ℕ) : ℝ) + 1 by norm_num, Real.Gamma_nat_eq_factorial]
    norm_num [Nat.factorial]
  have G5 : Real.Gamma 5 = 24 := by
    rw [show (5 : ℝ) = ((4 : ℕ) : ℝ) + 1 by norm_num, Real.Gamma_nat_eq_factorial]
    norm_num [Nat.factorial]
  have c1 : isoC1 2 = 2 * 24 ^ (1.5 : ℝ) / 2 ^ (2.5 : ℝ) := by
    unfold isoC1
    have a : (5 / 2 * 2 : ℝ) = 5 := by norm_num
    have b : (3 / 2 * 2 : ℝ) = 3 := by norm_num
    rw [a, b, G3, G5]
  have c2 : isoC2 2 = 288 := by
    unfold isoC2
    have a : (5 / 2 * 2 : ℝ) = 5 := by norm_num
    have b : (3 / 2 * 2 : ℝ) = 3 := by norm_num
    rw [a, b, G3, G5]; norm_num
  have g : Real.Gamma (3 / 4) ≤ 4 / 3 := by
    have h1 : Real.Gamma (7 / 4) = 3 / 4 * Real.Gamma (3 / 4) := by
      rw [← Real.Gamma_add_one (by norm_num)]; norm_num
    have h2 : Real.Gamma (7 / 4) ≤ 1 := by
      have hcv := Real.convexOn_Gamma.2
      have := @hcv 1 (by simp) 2 (by simp) (1 / 4) (3 / 4) (by norm_num) (by norm_num) (by norm_num)
      simp only [smul_eq_mul, Real.Gamma_one, Real.Gamma_two] at this
      norm_num at this; exact this
    linarith
  have g0 : 0 < Real.Gamma (3 / 4) := Real.Gamma_pos_of_pos (by norm_num)
  simp only [isoF]
  rw [form_moment (isoC2_pos two_pos) two_pos he (by norm_num), c1, c2]
  have e5 : (1 / 2 + 1 : ℝ) - 1.5 = 0 := by norm_num
  have e3 : (-(1 / 2 + 1) / 2 : ℝ) = -(3 / 4) := by norm_num
  have e4 : ((1 / 2 + 1) / 2 : ℝ) = 3 / 4 := by norm_num
  rw [e5, Real.rpow_zero, mul_one, e3, e4]
  set A := 2 * (24 : ℝ) ^ (1.5 : ℝ) / 2 ^ (2.5 : ℝ) * 288 ^ (-(3 / 4) : ℝ) with hA
  have A0 : 0 < A := by positivity
  have A4 : A ^ 4 = 1 / 8 := by
    have p : ∀ (b y : ℝ), 0 < b → (b ^ y) ^ 4 = b ^ (y * 4) := by
      intro b y hb
      rw [Real.rpow_mul hb.le]
      exact_mod_cast (Real.rpow_natCast (b ^ y) 4).symm
    rw [hA, mul_pow, div_pow, mul_pow, p _ _ (by norm_num), p _ _ (by norm_num), p _ _ (by norm_num)]
    have a1 : (1.5 * 4 : ℝ) = (6 : ℕ) := by norm_num
    have a2 : (2.5 * 4 : ℝ) = (10 : ℕ) := by norm_num
    have a3 : (-(3 / 4) * 4 : ℝ) = -((3 : ℕ) : ℝ) := by norm_num
    rw [a1, a2, a3, Real.rpow_neg (by norm_num), Real.rpow_natCast, Real.rpow_natCast,
      Real.rpow_natCast]
    norm_num
  have A1 : A < 0.6 := by
    by_contra hc
    have := pow_le_pow_left₀ (by norm_num) (not_lt.1 hc) 4
    rw [A4] at this
    norm_num at this
  nlinarith

example : ∫ ε in Ioi (0 : ℝ), ε ^ (1 / 2 : ℝ) * isoF 2 1 ε < 1 / 2 := druyvesteyn_refuted one_pos

end Verif.Plasma
