import Verif.Fluid.CubicSolver
import Mathlib.Analysis.Real.Pi.Bounds
import Mathlib.Tactic.Linarith
import Mathlib.Tactic.FieldSimp
import Mathlib.Tactic.LinearCombination
import Mathlib.Tactic.NormNum

/-!
# C67: theorems on the cubic solver
-/

namespace Verif.Fluid.Solver

open Verif

variable {c : Cub}

theorem res_shift (h1 : c.an = 1) (y : ℝ) : c.res (c.xN + y) = y ^ 3 - 3 * c.delta2 * y + c.yN := by
  simp only [Cub.res, Cub.xN, Cub.delta2, Cub.yN, h1]; ring

theorem res_expand (h1 : c.an = 1) (V : ℝ) : c.res V = V ^ 3 + c.bn * V ^ 2 + c.cn * V + c.dn := by
  simp only [Cub.res, h1]; ring

theorem polish_root {V : ℝ} (h : c.res V = 0) (dr : ℝ) : polish c dr V = .ok (V, dr) := by
  have h2 : newton c 20 V 0 dr = .ok (V, 0, dr) := by
    rw [newton]; simp only [h]; rw [if_pos (by norm_num)]
  have h3 : ¬ (|(0 : ℝ)| > 1e-14 ∧ |(0 : ℝ)| > 1e-14 * |dr| * |V|) := by norm_num
  rw [polish, h2]
  simp only [Outcome.bind_ok]
  rw [if_neg h3]

theorem polishAll_one {r : Roots} (h0 : c.res r.v0 = 0) : polishAll c 1 r = .ok r := by
  simp only [polishAll, polish_root h0, Outcome.bind_ok]
  norm_num

theorem polishAll_two {r : Roots} (h0 : c.res r.v0 = 0) (h1 : c.res r.v1 = 0) : polishAll c 2 r = .ok r := by
  simp only [polishAll, polish_root h0, polish_root h1, Outcome.bind_ok]
  norm_num

theorem polishAll_three {r : Roots} (h0 : c.res r.v0 = 0) (h1 : c.res r.v1 = 0) (h2 : c.res r.v2 = 0) :
    polishAll c 3 r = .ok r := by
  simp only [polishAll, polish_root h0, polish_root h1, polish_root h2, Outcome.bind_ok]
  norm_num

/-- Three different roots determine the polynomial. -/
theorem factor {b c d x y z : ℝ} (hx : x ^ 3 + b * x ^ 2 + c * x + d = 0) (hy : y ^ 3 + b * y ^ 2 + c * y + d = 0)
    (hz : z ^ 3 + b * z ^ 2 + c * z + d = 0) (xy : x ≠ y) (yz : y ≠ z) (xz : x ≠ z) (V : ℝ) :
    V ^ 3 + b * V ^ 2 + c * V + d = (V - x) * (V - y) * (V - z) := by
  have e1 : x ^ 2 + x * y + y ^ 2 + b * (x + y) + c = 0 := by
    have : (x - y) * (x ^ 2 + x * y + y ^ 2 + b * (x + y) + c) = 0 := by linear_combination hx - hy
    exact (mul_eq_zero.1 this).resolve_left (sub_ne_zero.2 xy)
  have e2 : x ^ 2 + x * z + z ^ 2 + b * (x + z) + c = 0 := by
    have : (x - z) * (x ^ 2 + x * z + z ^ 2 + b * (x + z) + c) = 0 := by linear_combination hx - hz
    exact (mul_eq_zero.1 this).resolve_left (sub_ne_zero.2 xz)
  have e3 : x + y + z + b = 0 := by
    have : (y - z) * (x + y + z + b) = 0 := by linear_combination e1 - e2
    exact (mul_eq_zero.1 this).resolve_left (sub_ne_zero.2 yz)
  linear_combination hx + (V - x) * e1 + (V - x) * (V - y) * e3

theorem sqrt_case (h : c.delta2 ≤ 0) : c.delta = 0 := by rw [Cub.delta, if_neg (not_lt.2 h)]

theorem delta_sq (h : 0 < c.delta2) : c.delta ^ 2 = c.delta2 := by
  rw [Cub.delta, if_pos h, Real.sq_sqrt h.le]

theorem delta_pos (h : 0 < c.delta2) : 0 < c.delta := by
  rw [Cub.delta, if_pos h]; exact Real.sqrt_pos.2 h

theorem delta_eq : c.delta = Real.sqrt c.delta2 := by
  by_cases h : 0 < c.delta2
  · rw [Cub.delta, if_pos h]
  · rw [Cub.delta, if_neg h, Real.sqrt_eq_zero_of_nonpos (not_lt.1 h)]

theorem h_sq (h1 : c.an = 1) (h : 0 < c.delta2) : c.h = 2 * c.delta ^ 3 := by
  have := delta_sq h
  rw [Cub.h, h1, ← this]; ring

theorem disc_eq (h1 : c.an = 1) : c.disc0 = c.yN ^ 2 - 4 * c.delta2 ^ 3 := by
  rw [Cub.disc0, Cub.h2, h1]; ring

theorem delta2_pos (h1 : c.an = 1) (h : c.disc0 < 0) : 0 < c.delta2 := by
  rw [disc_eq h1] at h
  by_contra n
  have : c.delta2 ^ 3 ≤ 0 := by
    have := mul_nonneg (sq_nonneg c.delta2) (neg_nonneg.2 (not_lt.1 n))
    nlinarith
  nlinarith [sq_nonneg c.yN]

/-- The angle of the trigonometric solution. -/
theorem angle (h1 : c.an = 1) (h : c.disc0 < 0) : -1 < -c.yN / c.h ∧ -c.yN / c.h < 1 := by
  have d := delta2_pos h1 h
  have e := h_sq h1 d
  have p := delta_pos d
  have hp : 0 < c.h := by rw [e]; positivity
  have : c.yN ^ 2 < c.h ^ 2 := by
    have := delta_sq d
    rw [disc_eq h1, ← this] at h
    rw [e]; nlinarith
  have := abs_lt.1 (abs_lt_of_sq_lt_sq this hp.le)
  constructor
  · rw [lt_div_iff₀ hp]; linarith
  · rw [div_lt_iff₀ hp]; linarith

theorem trig_root (h1 : c.an = 1) (h : c.disc0 < 0) {a : ℝ} (ha : Real.cos (3 * a) = -c.yN / c.h) :
    c.res (c.xN + 2 * c.delta * Real.cos a) = 0 := by
  have d := delta2_pos h1 h
  have e := h_sq h1 d
  have p := delta_pos d
  rw [Real.cos_three_mul, e] at ha
  rw [res_shift h1, ← delta_sq d]
  have : 2 * c.delta ^ 3 * (4 * Real.cos a ^ 3 - 3 * Real.cos a) = -c.yN := by
    rw [ha]; field_simp
  linear_combination this

theorem triple_roots (h1 : c.an = 1) (h : c.disc0 < 0) :
    c.res (triple c).v0 = 0 ∧ c.res (triple c).v1 = 0 ∧ c.res (triple c).v2 = 0 ∧
      (triple c).v0 < (triple c).v1 ∧ (triple c).v1 < (triple c).v2 := by
  have an := angle h1 h
  have d := delta_pos (delta2_pos h1 h)
  have t0 : 0 < Real.arccos (-c.yN / c.h) := Real.arccos_pos.2 an.2
  have t1 : Real.arccos (-c.yN / c.h) < Real.pi := by
    rw [← Real.arccos_neg_one]
    exact Real.arccos_lt_arccos (by norm_num) an.1 an.2.le
  have ca : Real.cos (Real.arccos (-c.yN / c.h)) = -c.yN / c.h := Real.cos_arccos an.1.le an.2.le
  simp only [triple]
  generalize Real.arccos (-c.yN / c.h) = t at *
  have pi := Real.pi_pos
  have c2 : Real.cos (t / 3 + 2 * (2 * Real.pi / 3)) = Real.cos (2 * Real.pi / 3 - t / 3) := by
    rw [show t / 3 + 2 * (2 * Real.pi / 3) = 2 * Real.pi - (2 * Real.pi / 3 - t / 3) by ring, Real.cos_two_pi_sub]
  refine ⟨trig_root h1 h ?_, trig_root h1 h ?_, trig_root h1 h ?_, ?_, ?_⟩
  · rw [show 3 * (t / 3 + 2 * Real.pi / 3) = t + 2 * Real.pi by ring, Real.cos_add_two_pi, ca]
  · rw [show 3 * (t / 3 + 2 * (2 * Real.pi / 3)) = t + 2 * Real.pi + 2 * Real.pi by ring, Real.cos_add_two_pi,
      Real.cos_add_two_pi, ca]
  · rw [show 3 * (t / 3) = t by ring, ca]
  · have : Real.cos (t / 3 + 2 * Real.pi / 3) < Real.cos (2 * Real.pi / 3 - t / 3) :=
      Real.cos_lt_cos_of_nonneg_of_le_pi (by linarith) (by linarith) (by linarith)
    rw [c2]
    have := mul_lt_mul_of_pos_left this (show 0 < 2 * c.delta by linarith)
    linarith
  · have : Real.cos (2 * Real.pi / 3 - t / 3) < Real.cos (t / 3) :=
      Real.cos_lt_cos_of_nonneg_of_le_pi (by linarith) (by linarith) (by linarith)
    rw [c2]
    have := mul_lt_mul_of_pos_left this (show 0 < 2 * c.delta by linarith)
    linarith

theorem cbrt_cube (x : ℝ) : cbrt x ^ 3 = x := by
  have key : ∀ y : ℝ, 0 ≤ y → (y ^ (1 / 3 : ℝ)) ^ 3 = y := fun y hy => by
    rw [← Real.rpow_natCast, ← Real.rpow_mul hy]; norm_num
  rw [cbrt]
  by_cases h : x < 0
  · rw [if_pos h]
    have := key (-x) (by linarith)
    linear_combination -this
  · rw [if_neg h, one_mul]; exact key x (not_lt.1 h)

theorem cube_inj {x y : ℝ} (h : x ^ 3 = y ^ 3) : x = y := by
  by_contra n
  have : (x - y) * (x ^ 2 + x * y + y ^ 2) = 0 := by linear_combination h
  have := (mul_eq_zero.1 this).resolve_left (sub_ne_zero.2 n)
  have hx : x ^ 2 = 0 := by nlinarith [sq_nonneg (x + y), sq_nonneg x, sq_nonneg y]
  have hy : y ^ 2 = 0 := by nlinarith [sq_nonneg (x + y), sq_nonneg x, sq_nonneg y]
  rw [sq_eq_zero_iff] at hx hy
  exact n (hx.trans hy.symm)

/-- Cardano's formula gives the only real root. -/
theorem single_root (h1 : c.an = 1) (h : 0 < c.disc0) :
    ∀ V, c.res V = 0 ↔ V = (single c c.disc0).v0 := by
  have hs := Real.sq_sqrt h.le
  have sp := Real.sqrt_pos.2 h
  simp only [single, h1, mul_one]
  have hu := cbrt_cube ((-c.yN + Real.sqrt c.disc0) / 2)
  have hw := cbrt_cube ((-c.yN - Real.sqrt c.disc0) / 2)
  generalize cbrt ((-c.yN + Real.sqrt c.disc0) / 2) = u at *
  generalize cbrt ((-c.yN - Real.sqrt c.disc0) / 2) = w at *
  have uw : u * w = c.delta2 := by
    apply cube_inj
    rw [disc_eq h1] at *
    rw [mul_pow, hu, hw]
    linear_combination -hs / 4
  have ne : u ≠ w := by
    intro e
    rw [e] at hu
    have := hu.symm.trans hw
    linarith
  intro V
  obtain ⟨y, rfl⟩ : ∃ y, V = c.xN + y := ⟨V - c.xN, by ring⟩
  rw [res_shift h1]
  have fac : y ^ 3 - 3 * c.delta2 * y + c.yN = (y - (u + w)) * (y ^ 2 + (u + w) * y + (u + w) ^ 2 - 3 * (u * w)) := by
    rw [← uw]; linear_combination hu + hw
  rw [fac, mul_eq_zero]
  have q : y ^ 2 + (u + w) * y + (u + w) ^ 2 - 3 * (u * w) ≠ 0 := by
    have : 0 < (u - w) ^ 2 := by
      have := sub_ne_zero.2 ne
      positivity
    nlinarith [sq_nonneg (2 * y + (u + w))]
  constructor
  · rintro (e | e)
    · linarith
    · exact absurd e q
  · intro e; left; linarith

/-- The state is not treated as nearly ideal. -/
def Far (R T pres b aAlpha : ℝ) (c : Cub) : Prop :=
  ¬ (|3 * c.cn / (c.bn * c.bn)| < 1e-7 ∧ |pres * b / (R * T)| < 1e-5 ∧
    |aAlpha / (R * T) * pres / (R * T)| < 1e-5)

theorem solve_unfold {R T pres b aAlpha tc vc : ℝ} (h1 : c.an = 1) (hT : 0 < T) (far : Far R T pres b aAlpha c) :
    solveCubic R T pres b aAlpha c tc vc = general T c tc vc := by
  rw [Far] at far
  rw [solveCubic, if_neg (not_le.2 hT)]
  simp only [h1, mul_one]
  rw [if_neg far]

section

variable {R T pres b aAlpha tc vc : ℝ}

/-- Distance from the tolerance for a double root. -/
def Apart (c : Cub) : Prop :=
  1e-10 ≤ |(|2 * Real.sqrt ((c.bn ^ 2 - 3 * c.cn) / 9) * ((c.bn ^ 2 - 3 * c.cn) / 9)| -
    |2 * c.bn ^ 3 / 27 - c.bn * c.cn / 3 + c.dn|)|

theorem apart_iff (h1 : c.an = 1) (a : Apart c) : ¬ |(|c.h| - |c.yN|)| < 1e-10 := by
  rw [Apart] at a
  have e : c.delta2 = (c.bn ^ 2 - 3 * c.cn) / 9 := by rw [Cub.delta2, h1]; ring
  have e2 : c.yN = 2 * c.bn ^ 3 / 27 - c.bn * c.cn / 3 + c.dn := by rw [Cub.yN, h1]; ring
  have e3 : c.h = 2 * Real.sqrt ((c.bn ^ 2 - 3 * c.cn) / 9) * ((c.bn ^ 2 - 3 * c.cn) / 9) := by
    rw [Cub.h, delta_eq, e, h1]; ring
  rw [e2, e3]
  exact not_lt.2 a

/-- The usual discriminant of `V³ + b V² + c V + d`. -/
def discr (b c d : ℝ) : ℝ := 18 * b * c * d - 4 * b ^ 3 * d + b ^ 2 * c ^ 2 - 4 * c ^ 3 - 27 * d ^ 2

theorem disc_discr (h1 : c.an = 1) : c.disc0 = -discr c.bn c.cn c.dn / 27 := by
  simp only [disc_eq h1, Cub.yN, Cub.delta2, discr, h1]; ring

/-- With a clearly positive discriminant the solver returns 3 and the three roots in increasing order. -/
theorem solve_three (h1 : c.an = 1) (hT : 0 < T) (far : Far R T pres b aAlpha c) (apart : Apart c)
    (hd : 27e-14 < discr c.bn c.cn c.dn) :
    ∃ r, solveCubic R T pres b aAlpha c tc vc = .ok (3, r) ∧ r.v0 < r.v1 ∧ r.v1 < r.v2 ∧
      ∀ V, V ^ 3 + c.bn * V ^ 2 + c.cn * V + c.dn = (V - r.v0) * (V - r.v1) * (V - r.v2) := by
  have d1 : c.disc0 < -1e-14 := by rw [disc_discr h1]; norm_num at hd ⊢; linarith
  have d0 : c.disc0 < 0 := by norm_num at d1; linarith
  obtain ⟨r0, r1, r2, l0, l1⟩ := triple_roots h1 d0
  refine ⟨triple c, ?_, l0, l1, ?_⟩
  · have ap := apart_iff h1 apart
    rw [solve_unfold h1 hT far, general, if_neg (fun h => ap h.1)]
    simp only [if_neg ap]
    have n3 : count c.disc0 = 3 := by rw [count, if_pos d1]
    rw [n3, if_neg (not_lt.2 d0.le), if_pos d0]
    simp only [Outcome.bind_ok, polishAll_three r0 r1 r2]
    simp [classify]
  · intro V
    rw [res_expand h1] at r0 r1 r2
    exact factor r0 r1 r2 l0.ne l1.ne (l0.trans l1).ne V

/-- With a clearly negative discriminant the solver returns the only real root; the sign of the returned number
says whether the volume is below the critical one, or below the inflection point for subcritical temperatures. -/
theorem solve_one (h1 : c.an = 1) (hT : 0 < T) (far : Far R T pres b aAlpha c) (apart : Apart c)
    (hd : discr c.bn c.cn c.dn < -27e-14) :
    ∃ n v, solveCubic R T pres b aAlpha c tc vc = .ok (n, { v0 := v, v1 := 0, v2 := 0 }) ∧
      (∀ V, V ^ 3 + c.bn * V ^ 2 + c.cn * V + c.dn = 0 ↔ V = v) ∧
      (n = -1 ∧ (tc < T ∧ v < vc ∨ T ≤ tc ∧ v < -c.bn / 3) ∨
        n = 1 ∧ (tc < T ∧ vc ≤ v ∨ T ≤ tc ∧ -c.bn / 3 ≤ v)) := by
  have d1 : 1e-14 < c.disc0 := by rw [disc_discr h1]; norm_num at hd ⊢; linarith
  have d0 : 0 < c.disc0 := by norm_num at d1; linarith
  have sr := single_root h1 d0
  have ex : single c c.disc0 = { v0 := (single c c.disc0).v0, v1 := 0, v2 := 0 } := rfl
  generalize hv : (single c c.disc0).v0 = v at *
  have xn : c.xN = -c.bn / 3 := by rw [Cub.xN, h1]; ring
  refine ⟨classify T tc vc c.xN c.delta 1 { v0 := v, v1 := 0, v2 := 0 }, v, ?_, ?_, ?_⟩
  · have ap := apart_iff h1 apart
    rw [solve_unfold h1 hT far, general, if_neg (fun h => ap h.1)]
    simp only [if_neg ap]
    have n1 : count c.disc0 = 1 := by
      rw [count, if_neg (by norm_num at d1 ⊢; linarith), if_neg (by rw [abs_of_pos d0]; exact not_lt.2 d1.le),
        if_pos d1]
    rw [n1, if_pos d0, ex]
    have : c.res v = 0 := (sr v).2 rfl
    simp only [Outcome.bind_ok, polishAll_one (r := { v0 := v, v1 := 0, v2 := 0 }) this]
  · intro V
    rw [← res_expand h1]; exact sr V
  · rw [classify, if_pos rfl, ← xn]
    dsimp only
    by_cases t : T > tc
    · rw [if_pos t]
      by_cases l : v < vc
      · rw [if_pos l]; exact Or.inl ⟨rfl, Or.inl ⟨t, l⟩⟩
      · rw [if_neg l]; exact Or.inr ⟨rfl, Or.inl ⟨t, not_lt.1 l⟩⟩
    · rw [if_neg t]
      by_cases l : v < c.xN
      · rw [if_pos l]; exact Or.inl ⟨rfl, Or.inr ⟨not_lt.1 t, l⟩⟩
      · rw [if_neg l]; exact Or.inr ⟨rfl, Or.inr ⟨not_lt.1 t, not_lt.1 l⟩⟩

/-- The tolerance for multiple roots is absolute: three different real roots with small differences are reported as
a double root (-2), although they are computed correctly. -/
theorem solve_small_is_double (h1 : c.an = 1) (hT : 0 < T) (far : Far R T pres b aAlpha c) (apart : Apart c)
    (hp : 0 < discr c.bn c.cn c.dn) (hd : discr c.bn c.cn c.dn < 27e-14) (hs : 9e-28 < c.bn ^ 2 - 3 * c.cn) :
    ∃ r, solveCubic R T pres b aAlpha c tc vc = .ok (-2, r) ∧ r.v0 < r.v1 ∧ r.v1 < r.v2 ∧
      ∀ V, V ^ 3 + c.bn * V ^ 2 + c.cn * V + c.dn = (V - r.v0) * (V - r.v1) * (V - r.v2) := by
  have d0 : c.disc0 < 0 := by rw [disc_discr h1]; linarith
  have d1 : -1e-14 < c.disc0 := by rw [disc_discr h1]; norm_num at hd ⊢; linarith
  obtain ⟨r0, r1, r2, l0, l1⟩ := triple_roots h1 d0
  refine ⟨triple c, ?_, l0, l1, ?_⟩
  · have ap := apart_iff h1 apart
    rw [solve_unfold h1 hT far, general, if_neg (fun h => ap h.1)]
    simp only [if_neg ap]
    have n3 : count c.disc0 = 2 := by
      rw [count, if_neg (not_lt.2 d1.le), if_pos (by rw [abs_of_neg d0]; linarith)]
    rw [n3, if_neg (not_lt.2 d0.le), if_pos d0]
    simp only [Outcome.bind_ok, polishAll_two r0 r1]
    have : c.delta > 1e-14 := by
      have e : c.delta2 = (c.bn ^ 2 - 3 * c.cn) / 9 := by rw [Cub.delta2, h1]; ring
      rw [delta_eq, e]
      refine Real.lt_sqrt_of_sq_lt ?_
      norm_num at hs ⊢; linarith
    rw [classify, if_neg (by norm_num), if_pos ⟨rfl, this⟩]
  · intro V
    rw [res_expand h1] at r0 r1 r2
    exact factor r0 r1 r2 l0.ne l1.ne (l0.trans l1).ne V

end

/-- The monic cubic with roots `r`, `s`, `s`. -/
def dbl (r s : ℝ) : Cub := { an := 1, bn := -(r + 2 * s), cn := s ^ 2 + 2 * r * s, dn := -(r * s ^ 2) }

theorem dbl_res (r s V : ℝ) : (dbl r s).res V = (V - r) * (V - s) ^ 2 := by simp only [dbl, Cub.res]; ring

theorem dbl_xN (r s : ℝ) : (dbl r s).xN = (r + 2 * s) / 3 := by simp only [dbl, Cub.xN]; ring

theorem dbl_delta2 (r s : ℝ) : (dbl r s).delta2 = ((s - r) / 3) ^ 2 := by simp only [dbl, Cub.delta2]; ring

theorem dbl_delta (r s : ℝ) : (dbl r s).delta = |(s - r) / 3| := by rw [delta_eq, dbl_delta2, Real.sqrt_sq_eq_abs]

theorem dbl_yN (r s : ℝ) : (dbl r s).yN = 2 * ((s - r) / 3) ^ 3 := by simp only [dbl, Cub.yN]; ring

theorem dbl_h (r s : ℝ) : (dbl r s).h = 2 * |(s - r) / 3| ^ 3 := by
  rw [Cub.h, dbl_delta, dbl_delta2, ← sq_abs]; simp only [dbl]; ring

theorem dbl_tol (r s : ℝ) : |(|(dbl r s).h| - |(dbl r s).yN|)| < 1e-10 := by
  rw [dbl_h, dbl_yN, abs_mul, abs_mul, abs_pow, abs_pow, abs_abs, sub_self, abs_zero]; norm_num

theorem dbl_disc (r s : ℝ) : (dbl r s).disc0 = 0 := by rw [disc_eq rfl, dbl_yN, dbl_delta2]; ring

theorem dbl_unfold {R T pres b aAlpha tc vc r s : ℝ} (hT : 0 < T) (far : Far R T pres b aAlpha (dbl r s)) :
    solveCubic R T pres b aAlpha (dbl r s) tc vc = (multi (dbl r s) >>= fun q =>
      polishAll (dbl r s) 2 q.1 >>= fun r' => .ok (classify T tc vc (dbl r s).xN q.2 2 r', r')) := by
  rw [solve_unfold rfl hT far, general, if_neg (by rw [dbl_disc]; norm_num)]
  simp only [if_pos (dbl_tol r s)]
  have : count 0 = 2 := by rw [count]; norm_num
  rw [this]; simp

theorem cube_root_cube {x : ℝ} (h : 0 ≤ x) : (x ^ 3) ^ (1 / 3 : ℝ) = x := by
  rw [← Real.rpow_natCast, ← Real.rpow_mul h]; norm_num

/-- A double root above the single one is reported as -2, with the roots in the first two places. -/
theorem solve_double_above {R T pres b aAlpha tc vc r s : ℝ} (hT : 0 < T) (far : Far R T pres b aAlpha (dbl r s))
    (h : r + 3e-6 ≤ s) :
    solveCubic R T pres b aAlpha (dbl r s) tc vc = .ok (-2, { v0 := r, v1 := s, v2 := 0 }) := by
  have hp : 1e-6 ≤ (s - r) / 3 := by norm_num at h ⊢; linarith
  have h0 : 0 < (s - r) / 3 := lt_of_lt_of_le (by norm_num) hp
  have m : multi (dbl r s) = .ok ({ v0 := r, v1 := s, v2 := 0 }, (s - r) / 3) := by
    have l : (1e-6 : ℝ) ^ 3 ≤ ((s - r) / 3) ^ 3 := pow_le_pow_left₀ (by norm_num) hp 3
    have : 2 * ((s - r) / 3) ^ 3 / (2 * (dbl r s).an) = ((s - r) / 3) ^ 3 := by simp only [dbl]; ring
    rw [multi, dbl_yN, dbl_delta, this, cube_root_cube h0.le, abs_of_pos h0, sub_self, if_neg, if_pos, if_neg, dbl_xN]
    · congr 3 <;> ring
    · norm_num
    · positivity
    · intro ⟨a, _⟩
      norm_num at a l
      linarith
  rw [dbl_unfold hT far, m]
  have e0 : (dbl r s).res r = 0 := by rw [dbl_res]; ring
  have e1 : (dbl r s).res s = 0 := by rw [dbl_res]; ring
  simp only [Outcome.bind_ok, polishAll_two (r := { v0 := r, v1 := s, v2 := 0 }) e0 e1]
  have : (s - r) / 3 > 1e-14 := lt_of_lt_of_le (by norm_num) hp
  rw [classify, if_neg (by norm_num), if_pos ⟨rfl, this⟩]

/-- A double root below the single one is reported as 2; the larger root is in the second place and the third root
is zero. -/
theorem solve_double_below {R T pres b aAlpha tc vc r s : ℝ} (hT : 0 < T) (far : Far R T pres b aAlpha (dbl r s))
    (h : s + 3e-6 ≤ r) :
    solveCubic R T pres b aAlpha (dbl r s) tc vc = .ok (2, { v0 := s, v1 := r, v2 := 0 }) := by
  have hp : (s - r) / 3 ≤ -1e-6 := by norm_num at h ⊢; linarith
  have h0 : (s - r) / 3 < 0 := lt_of_le_of_lt hp (by norm_num)
  have l : (1e-6 : ℝ) ^ 3 ≤ (-((s - r) / 3)) ^ 3 := pow_le_pow_left₀ (by norm_num) (by linarith) 3
  have n : ((s - r) / 3) ^ 3 < 0 := by
    have e : (-((s - r) / 3)) ^ 3 = -((s - r) / 3) ^ 3 := by ring
    rw [e] at l
    norm_num at l; linarith
  have m : multi (dbl r s) = .ok ({ v0 := s, v1 := r, v2 := 0 }, (s - r) / 3) := by
    have : 2 * ((s - r) / 3) ^ 3 / (2 * (dbl r s).an) = ((s - r) / 3) ^ 3 := by simp only [dbl]; ring
    rw [multi, dbl_yN, dbl_delta, dbl_h, this, abs_of_neg h0, if_neg, if_neg, if_neg, dbl_xN]
    · congr 3 <;> ring
    · rintro ⟨a, _⟩; linarith
    · linarith
    · intro ⟨_, a⟩
      norm_num at a l
      linarith
  rw [dbl_unfold hT far, m]
  have e0 : (dbl r s).res r = 0 := by rw [dbl_res]; ring
  have e1 : (dbl r s).res s = 0 := by rw [dbl_res]; ring
  simp only [Outcome.bind_ok, polishAll_two (r := { v0 := s, v1 := r, v2 := 0 }) e1 e0]
  rw [classify, if_neg (by norm_num), if_neg]
  rintro ⟨_, a⟩
  norm_num at a; linarith

/-- Three equal roots are reported as 2 and stored in all places. -/
theorem solve_equal {R T pres b aAlpha tc vc r : ℝ} (hT : 0 < T) (far : Far R T pres b aAlpha (dbl r r)) :
    solveCubic R T pres b aAlpha (dbl r r) tc vc = .ok (2, { v0 := r, v1 := r, v2 := r }) := by
  have m : multi (dbl r r) = .ok ({ v0 := r, v1 := r, v2 := r }, 0) := by
    rw [multi, dbl_yN, dbl_h, dbl_delta, if_pos (by norm_num), dbl_xN, show (r + 2 * r) / 3 = r by ring]
    simp
  have e0 : (dbl r r).res r = 0 := by rw [dbl_res]; ring
  rw [dbl_unfold hT far, m]
  simp only [Outcome.bind_ok, polishAll_two (r := { v0 := r, v1 := r, v2 := r }) e0 e0]
  rw [classify, if_neg (by norm_num), if_neg (by norm_num)]

theorem newton_no_throw (c : Cub) (n : ℕ) : ∀ V rs dr, newton c n V rs dr ≠ .throw := by
  induction n with
  | zero => intro V rs dr; rw [newton]; simp
  | succ n ih =>
    intro V rs dr
    rw [newton]
    dsimp only
    split_ifs
    · simp
    · simp
    · simp
    · exact ih _ _ _
    · exact ih _ _ _

/-- A root is refused exactly when the last residual is neither small nor small compared with the derivative. -/
theorem polish_throw_iff (c : Cub) (dr V : ℝ) : polish c dr V = .throw ↔
    ∃ V' rs dr', newton c 20 V 0 dr = .ok (V', rs, dr') ∧ 1e-14 < |rs| ∧ 1e-14 * |dr'| * |V'| < |rs| := by
  rw [polish]
  cases e : newton c 20 V 0 dr with
  | ok x =>
    obtain ⟨V', rs, dr'⟩ := x
    simp only [Outcome.bind_ok]
    constructor
    · intro h
      split_ifs at h with h'
      exact ⟨V', rs, dr', rfl, h'⟩
    · rintro ⟨a, b, d, h, h'⟩
      simp only [Outcome.ok.injEq, Prod.mk.injEq] at h
      obtain ⟨rfl, rfl, rfl⟩ := h
      rw [if_pos h']
  | throw => exact absurd e (newton_no_throw c 20 V 0 dr)
  | ub => simp

/-- Non-positive temperatures are refused. -/
theorem solve_temperature {R T pres b aAlpha tc vc : ℝ} (c : Cub) (hT : T ≤ 0) :
    solveCubic R T pres b aAlpha c tc vc = .throw := by rw [solveCubic, if_pos hT]

/-- Without attraction and covolume the ideal gas volume is returned. -/
theorem solve_ideal_gas {R T pres tc vc : ℝ} (hT : 0 < T) (dn : ℝ) :
    solveCubic R T pres 0 0 { an := 1, bn := -R * T / pres, cn := 0, dn := dn } tc vc =
      .ok (1, { v0 := R * T / pres, v1 := 0, v2 := 0 }) := by
  rw [solveCubic, if_neg (not_le.2 hT)]
  simp only [mul_zero, zero_div, zero_mul, abs_zero]
  rw [if_pos (by norm_num), idealLoop]
  norm_num

/-- The iteration for nearly ideal states does not solve the Redlich-Kwong equation `z = z/(z-B) - A/(z+B)`:
its fixed points are solutions only if `A = 0` or `3 cn = B bn²`. -/
theorem ideal_not_root {r1 B A z : ℝ} (hA : A ≠ 0) (h1 : r1 ≠ B) (z1 : z + r1 ≠ 0) (zB : z + B ≠ 0)
    (fix : ∀ n, idealLoop r1 B A (n + 1) z = z) : z ≠ z / (z - B) - A / (z + B) := by
  have f := fix 0
  rw [idealLoop] at f
  simp only [idealLoop, ite_self] at f
  intro e
  have : A / (z + r1) = A / (z + B) := by linarith
  rw [div_eq_div_iff z1 zB] at this
  have := mul_left_cancel₀ hA this
  exact h1 (by linarith)

/-! Instances. -/

/-- Roots 1, 2, 3. -/
def ex3 : Cub := { an := 1, bn := -6, cn := 11, dn := -6 }

theorem far_big {R T pres b aAlpha : ℝ} {c : Cub} (h : 1e-7 ≤ |3 * c.cn / (c.bn * c.bn)|) :
    Far R T pres b aAlpha c := fun n => absurd n.1 (not_lt.2 h)

theorem apart_zero {c : Cub} (h : 2 * c.bn ^ 3 / 27 - c.bn * c.cn / 3 + c.dn = 0) (w : ℝ)
    (hw : w ^ 2 ≤ (c.bn ^ 2 - 3 * c.cn) / 9) (t : 1e-10 ≤ 2 * w * ((c.bn ^ 2 - 3 * c.cn) / 9)) : Apart c := by
  have := Real.le_sqrt_of_sq_le hw
  have p : 0 ≤ (c.bn ^ 2 - 3 * c.cn) / 9 := (sq_nonneg w).trans hw
  rw [Apart, h, abs_zero, sub_zero, abs_abs, abs_of_nonneg (by positivity)]
  exact t.trans (mul_le_mul_of_nonneg_right (by linarith) p)

example : ∃ r, solveCubic 1 1 1 1 1 ex3 1 1 = .ok (3, r) ∧ r.v0 < r.v1 ∧ r.v1 < r.v2 ∧
    ∀ V, V ^ 3 + ex3.bn * V ^ 2 + ex3.cn * V + ex3.dn = (V - r.v0) * (V - r.v1) * (V - r.v2) := by
  refine solve_three rfl one_pos (far_big ?_) ?_ (by norm_num [discr, ex3])
  · norm_num [ex3]
  · refine apart_zero (by norm_num [ex3]) (1 / 2) (by norm_num [ex3]) (by norm_num [ex3])

/-- One root, 1. -/
def ex1 : Cub := { an := 1, bn := -1, cn := 1, dn := -1 }

example : ∃ n v, solveCubic 1 1 1 1 1 ex1 1 1 = .ok (n, { v0 := v, v1 := 0, v2 := 0 }) ∧ v = 1 := by
  obtain ⟨n, v, h, u, _⟩ := solve_one (R := 1) (T := 1) (pres := 1) (b := 1) (aAlpha := 1) (tc := 1) (vc := 1)
    (c := ex1) rfl one_pos (far_big (by norm_num [ex1])) (by
      simp only [Apart, ex1]
      rw [Real.sqrt_eq_zero_of_nonpos (by norm_num)]
      norm_num [abs_of_neg]) (by norm_num [discr, ex1])
  exact ⟨n, v, h, ((u 1).1 (by norm_num [ex1])).symm⟩

/-- Roots 0.001, 0.002 and 0.003. -/
noncomputable def exSmall : Cub := { an := 1, bn := -0.006, cn := 0.000011, dn := -0.000000006 }

example : ∃ r, solveCubic 1 1 1 1 1 exSmall 1 1 = .ok (-2, r) ∧ r.v0 < r.v1 ∧ r.v1 < r.v2 := by
  obtain ⟨r, h, a, b, _⟩ := solve_small_is_double (R := 1) (T := 1) (pres := 1) (b := 1) (aAlpha := 1) (tc := 1)
    (vc := 1) (c := exSmall) rfl one_pos (far_big (by norm_num [exSmall])) (apart_zero (by norm_num [exSmall])
      5e-4 (by norm_num [exSmall]) (by norm_num [exSmall])) (by norm_num [discr, exSmall]) (by norm_num [discr, exSmall]) (by norm_num [exSmall])
  exact ⟨r, h, a, b⟩

example : solveCubic 1 1 1 1 1 (dbl 1 2) 1 1 = .ok (-2, { v0 := 1, v1 := 2, v2 := 0 }) :=
  solve_double_above one_pos (far_big (by norm_num [dbl])) (by norm_num)

example : solveCubic 1 1 1 1 1 (dbl 2 1) 1 1 = .ok (2, { v0 := 1, v1 := 2, v2 := 0 }) :=
  solve_double_below one_pos (far_big (by norm_num [dbl])) (by norm_num)

example : solveCubic 1 1 1 1 1 (dbl 1 1) 1 1 = .ok (2, { v0 := 1, v1 := 1, v2 := 1 }) :=
  solve_equal one_pos (far_big (by norm_num [dbl]))

example : polish (dbl 1 2) 0 1 ≠ .throw := by
  intro h
  obtain ⟨V, rs, dr, e, a, _⟩ := (polish_throw_iff _ _ _).1 h
  rw [newton, dbl_res] at e
  norm_num at e
  rw [← e.2.1] at a
  norm_num at a

example : solveCubic 8 300 100000 0 0 { an := 1, bn := -8 * 300 / 100000, cn := 0, dn := 0 } 1 1 =
    .ok (1, { v0 := 8 * 300 / 100000, v1 := 0, v2 := 0 }) := solve_ideal_gas (by norm_num) 0

example : (1 : ℝ) ≠ 1 / (1 - 1 / 2) - 2 / (1 + 1 / 2) :=
  ideal_not_root (r1 := 1) (by norm_num) (by norm_num) (by norm_num) (by norm_num) fun n => by
    rw [idealLoop]; norm_num

end Verif.Fluid.Solver
