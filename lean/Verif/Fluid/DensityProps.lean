import Verif.Fluid.Density
import Verif.Fluid.CubicSolverProps
import Verif.Fluid.RedlichKwong
import Verif.Fluid.PengRobinson
import Mathlib.Topology.Order.IntermediateValue
import Mathlib.Topology.Algebra.Polynomial

/-!
# C67: theorems on the density
-/

namespace Verif.Fluid.Solver

open Verif

/-- Redlich-Kwong pressure. -/
noncomputable def rkP (R T a b v : ℝ) : ℝ := R * T / (v - b) - a / (Real.sqrt T * (v * (v + b)))

/-- Peng-Robinson pressure. -/
noncomputable def prP (R T aa b v : ℝ) : ℝ := R * T / (v - b) - aa / (v ^ 2 + 2 * v * b - b ^ 2)

/-- The volumes with a given pressure are the roots of the Redlich-Kwong cubic. -/
theorem rk_root_iff {R T pres a b v : ℝ} (hT : 0 < T) (hp : pres ≠ 0) (h0 : v ≠ 0) (h1 : v ≠ b) (h2 : v + b ≠ 0) :
    v ^ 3 + (rkCub R T pres a b).bn * v ^ 2 + (rkCub R T pres a b).cn * v + (rkCub R T pres a b).dn = 0 ↔
      rkP R T a b v = pres := by
  have hs := (Real.sqrt_pos.2 hT).ne'
  have h3 := sub_ne_zero.2 h1
  simp only [rkCub, rkP]
  generalize Real.sqrt T = s at *
  have e : v ^ 3 + -R * T / pres * v ^ 2 + -(R * T * b / pres - a / (pres * s) + b * b) * v + -(a * b / (pres * s)) =
      (pres - (R * T / (v - b) - a / (s * (v * (v + b))))) * (v * (v + b) * (v - b) / pres) := by
    field_simp
    ring
  rw [e, mul_eq_zero]
  have : v * (v + b) * (v - b) / pres ≠ 0 := div_ne_zero (mul_ne_zero (mul_ne_zero h0 h2) h3) hp
  constructor
  · rintro (h | h)
    · linarith
    · exact absurd h this
  · intro h; left; linarith

/-- The volumes with a given pressure are the roots of the Peng-Robinson cubic. -/
theorem pr_root_iff {R T pres aa b v : ℝ} (hp : pres ≠ 0) (h1 : v ≠ b) (h2 : v ^ 2 + 2 * v * b - b ^ 2 ≠ 0) :
    v ^ 3 + (prCub R T pres aa b).bn * v ^ 2 + (prCub R T pres aa b).cn * v + (prCub R T pres aa b).dn = 0 ↔
      prP R T aa b v = pres := by
  have h3 := sub_ne_zero.2 h1
  simp only [prCub, prP]
  have e : v ^ 3 + (b - R * T / pres) * v ^ 2 + -(2 * (R * T / pres) * b - aa / pres + 3 * (b * b)) * v +
      (b * b * (R * T / pres) + b * b * b - aa / pres * b) =
      (pres - (R * T / (v - b) - aa / (v ^ 2 + 2 * v * b - b ^ 2))) *
        ((v ^ 2 + 2 * v * b - b ^ 2) * (v - b) / pres) := by
    generalize hm : v ^ 2 + 2 * v * b - b ^ 2 = m at *
    field_simp
    rw [← hm]
    ring
  rw [e, mul_eq_zero]
  have : (v ^ 2 + 2 * v * b - b ^ 2) * (v - b) / pres ≠ 0 := div_ne_zero (mul_ne_zero h2 h3) hp
  constructor
  · rintro (h | h)
    · linarith
    · exact absurd h this
  · intro h; left; linarith

/-- A positive root of the Redlich-Kwong cubic is larger than the covolume. -/
theorem rk_root_gt {R T pres a b v : ℝ} (hR : 0 < R) (hT : 0 < T) (hp : 0 < pres) (ha : 0 ≤ a) (hb : 0 < b)
    (hv : 0 < v)
    (h : v ^ 3 + (rkCub R T pres a b).bn * v ^ 2 + (rkCub R T pres a b).cn * v + (rkCub R T pres a b).dn = 0) :
    b < v := by
  by_contra n
  have n := not_lt.1 n
  have hs := Real.sqrt_pos.2 hT
  simp only [rkCub] at h
  have e : v ^ 3 + -R * T / pres * v ^ 2 + -(R * T * b / pres - a / (pres * Real.sqrt T) + b * b) * v +
      -(a * b / (pres * Real.sqrt T)) = -(v * ((b - v) * (b + v))) - R * T / pres * (v * (v + b)) -
        a / (pres * Real.sqrt T) * (b - v) := by field_simp; ring
  rw [e] at h
  have t1 : 0 ≤ v * ((b - v) * (b + v)) := mul_nonneg hv.le (mul_nonneg (by linarith) (by linarith))
  have t2 : 0 < R * T / pres * (v * (v + b)) := by positivity
  have t3 : 0 ≤ a / (pres * Real.sqrt T) * (b - v) := mul_nonneg (by positivity) (by linarith)
  linarith

/-- A monic cubic that is negative at `b` has a root above `b`. -/
theorem exists_root_gt {p q r b : ℝ} (h : b ^ 3 + p * b ^ 2 + q * b + r < 0) :
    ∃ v, b < v ∧ v ^ 3 + p * v ^ 2 + q * v + r = 0 := by
  set M := 1 + |b| + |p| + |q| + |r| with hM
  have m1 : 1 ≤ M := by have := abs_nonneg b; have := abs_nonneg p; have := abs_nonneg q; have := abs_nonneg r; linarith
  have mb : b ≤ M := by
    have := le_abs_self b; have := abs_nonneg p; have := abs_nonneg q; have := abs_nonneg r; linarith
  have pos : 0 ≤ M ^ 3 + p * M ^ 2 + q * M + r := by
    have a1 : -|p| * M ^ 2 ≤ p * M ^ 2 := mul_le_mul_of_nonneg_right (neg_abs_le p) (sq_nonneg M)
    have a2 : -|q| * M ≤ q * M := mul_le_mul_of_nonneg_right (neg_abs_le q) (by linarith)
    have a3 := neg_abs_le r
    have b1 : |q| * M ≤ |q| * M ^ 2 := mul_le_mul_of_nonneg_left (by nlinarith) (abs_nonneg q)
    have b2 : |r| ≤ |r| * M ^ 2 := by nlinarith [abs_nonneg r, sq_nonneg (M - 1)]
    have b3 : M ^ 3 = (1 + |b| + |p| + |q| + |r|) * M ^ 2 := by rw [← hM]; ring
    have b4 : 0 ≤ |b| * M ^ 2 := mul_nonneg (abs_nonneg b) (sq_nonneg M)
    nlinarith [sq_nonneg M]
  have cont : ContinuousOn (fun v : ℝ => v ^ 3 + p * v ^ 2 + q * v + r) (Set.Icc b M) := by fun_prop
  obtain ⟨v, hv, e⟩ := intermediate_value_Icc mb cont ⟨h.le, pos⟩
  refine ⟨v, lt_of_le_of_ne hv.1 ?_, e⟩
  rintro rfl
  dsimp only at e
  linarith

theorem rk_neg_at_b {R T pres a b : ℝ} (hR : 0 < R) (hT : 0 < T) (hp : 0 < pres) (hb : 0 < b) :
    b ^ 3 + (rkCub R T pres a b).bn * b ^ 2 + (rkCub R T pres a b).cn * b + (rkCub R T pres a b).dn < 0 := by
  have hs := (Real.sqrt_pos.2 hT).ne'
  have e : b ^ 3 + (rkCub R T pres a b).bn * b ^ 2 + (rkCub R T pres a b).cn * b + (rkCub R T pres a b).dn =
      -(2 * (R * T / pres * b ^ 2)) := by
    simp only [rkCub]; field_simp; ring
  rw [e]
  have : 0 < R * T / pres * b ^ 2 := by positivity
  linarith

theorem pr_neg_at_b {R T pres aa b : ℝ} (hR : 0 < R) (hT : 0 < T) (hp : 0 < pres) (hb : 0 < b) :
    b ^ 3 + (prCub R T pres aa b).bn * b ^ 2 + (prCub R T pres aa b).cn * b + (prCub R T pres aa b).dn < 0 := by
  have e : b ^ 3 + (prCub R T pres aa b).bn * b ^ 2 + (prCub R T pres aa b).cn * b + (prCub R T pres aa b).dn =
      -(2 * (R * T / pres * b ^ 2)) := by
    simp only [prCub]; ring
  rw [e]
  have : 0 < R * T / pres * b ^ 2 := by positivity
  linarith

/-- Away from the tolerances: the discriminant and the tests of the solver are decided. -/
structure Regular (R T pres b aAlpha : ℝ) (c : Cub) : Prop where
  far : Far R T pres b aAlpha c
  apart : Apart c
  disc : 27e-14 < |discr c.bn c.cn c.dn|

/-- What the solver does for regular states of an equation that is negative at the covolume. -/
theorem solve_regular {R T pres b aAlpha tc vc : ℝ} {c : Cub} (h1 : c.an = 1) (hT : 0 < T)
    (g : Regular R T pres b aAlpha c) (hb : b ^ 3 + c.bn * b ^ 2 + c.cn * b + c.dn < 0) :
    ∃ n r, solveCubic R T pres b aAlpha c tc vc = .ok (n, r) ∧
      (n = 3 ∧ r.v0 < r.v1 ∧ r.v1 < r.v2 ∧ b < r.v2 ∧
        (∀ V, V ^ 3 + c.bn * V ^ 2 + c.cn * V + c.dn = (V - r.v0) * (V - r.v1) * (V - r.v2)) ∨
      (n = 1 ∨ n = -1) ∧ b < r.v0 ∧ ∀ V, V ^ 3 + c.bn * V ^ 2 + c.cn * V + c.dn = 0 ↔ V = r.v0) := by
  obtain ⟨w, bw, hw⟩ := exists_root_gt hb
  rcases lt_abs.1 g.disc with d | d
  · obtain ⟨r, e, l0, l1, f⟩ := solve_three (tc := tc) (vc := vc) h1 hT g.far g.apart d
    refine ⟨3, r, e, Or.inl ⟨rfl, l0, l1, ?_, f⟩⟩
    rw [f] at hw
    rcases mul_eq_zero.1 hw with h | h
    · rcases mul_eq_zero.1 h with h | h <;> linarith
    · linarith
  · obtain ⟨n, v, e, u, s⟩ := solve_one (tc := tc) (vc := vc) h1 hT g.far g.apart (by linarith)
    refine ⟨n, _, e, Or.inr ⟨?_, ?_, u⟩⟩
    · rcases s with s | s
      · exact Or.inr s.1
      · exact Or.inl s.1
    · rw [u] at hw
      rw [← hw]; exact bw

section

variable {oa ob ov R T a aa b mmw pc tcrit pres : ℝ} {fuel : ℕ} {phase : ℤ} {guess : ℝ}

theorem densityCalc_guess {sol : ℝ → Outcome (ℤ × Roots)} {n : ℤ} {r : Roots} (hg : guess ≠ -1)
    (e : sol pres = .ok (n, r)) :
    densityCalc sol fuel R T mmw pc tcrit pres phase guess =
      .ok (pick T tcrit phase (mmw / (pres * mmw / (R * T))) n r) := by
  simp only [densityCalc, if_neg hg, Outcome.bind_ok, e]

/-- The volume chosen is always a root; it is one with the required pressure whenever it is positive, and the largest
root for gas and supercritical states. -/
theorem rk_density (hR : 0 < R) (hT : 0 < T) (hp : 0 < pres) (ha : 0 ≤ a) (hb : 0 < b) (hg : guess ≠ -1)
    (g : Regular R T pres b a (rkCub R T pres a b)) :
    ∃ d, densityCalc (rkSolve oa ob ov R T a b) fuel R T mmw pc tcrit pres phase guess = .ok d ∧
      (∀ v, d = .vol v → (rkCub R T pres a b).res v = 0) ∧
      (∀ v, d = .vol v → 0 < v → b < v ∧ rkP R T a b v = pres) ∧
      (phase = -1 ∨ phase = -2 → ∀ v, d = .vol v → b < v ∧ rkP R T a b v = pres ∧ ∀ w > v, rkP R T a b w ≠ pres) ∧
      (phase = -2 ∨ phase = -3 → ∃ v, d = .vol v) ∧
      (∀ n, d = .code n → n = -2) := by
  have key : ∀ {v}, v ^ 3 + (rkCub R T pres a b).bn * v ^ 2 + (rkCub R T pres a b).cn * v + (rkCub R T pres a b).dn = 0 →
      0 < v → b < v ∧ rkP R T a b v = pres := fun {v} h hv => by
    have l := rk_root_gt hR hT hp ha hb hv h
    exact ⟨l, (rk_root_iff hT hp.ne' hv.ne' l.ne' (by linarith)).1 h⟩
  have back : ∀ {w}, 0 < w → b < w → rkP R T a b w = pres →
      w ^ 3 + (rkCub R T pres a b).bn * w ^ 2 + (rkCub R T pres a b).cn * w + (rkCub R T pres a b).dn = 0 :=
    fun {w} h0 h1 h => (rk_root_iff hT hp.ne' h0.ne' h1.ne' (by linarith)).2 h
  obtain ⟨n, r, e, cases⟩ := solve_regular (tc := (a * ob / (b * oa * R)) ^ (2 / 3 : ℝ))
    (vc := ov * R * (a * ob / (b * oa * R)) ^ (2 / 3 : ℝ) / (ob * R * (a * ob / (b * oa * R)) ^ (2 / 3 : ℝ) / b))
    rfl hT g (rk_neg_at_b hR hT hp hb)
  have e' : rkSolve oa ob ov R T a b pres = .ok (n, r) := by simp only [rkSolve]; exact e
  refine ⟨_, densityCalc_guess hg e', ?_⟩
  rcases cases with ⟨rfl, l0, l1, l2, f⟩ | ⟨hn, lb, u⟩
  · have z0 := f r.v0
    have z2 := f r.v2
    simp only [sub_self, mul_zero, zero_mul] at z0 z2
    have big : b < r.v2 ∧ rkP R T a b r.v2 = pres ∧ ∀ w > r.v2, rkP R T a b w ≠ pres := by
      refine ⟨l2, (key z2 (by linarith)).2, fun w hw h => ?_⟩
      have := back (by linarith) (by linarith) h
      rw [f] at this
      have p1 : 0 < w - r.v0 := by linarith
      have p2 : 0 < w - r.v1 := by linarith
      have p3 : 0 < w - r.v2 := by linarith
      have := mul_pos (mul_pos p1 p2) p3
      linarith
    refine ⟨?_, ?_, ?_, ?_, ?_⟩
    · intro v hv
      simp only [pick, if_pos (show (3 : ℤ) ≥ 2 by norm_num)] at hv
      rw [res_expand rfl]
      split_ifs at hv <;> (injection hv with hv; subst hv)
      · exact z0
      · exact z2
      · exact z2
      · exact z0
    · intro v hv pv
      simp only [pick, if_pos (show (3 : ℤ) ≥ 2 by norm_num)] at hv
      split_ifs at hv <;> (injection hv with hv; subst hv)
      · exact key z0 pv
      · exact key z2 pv
      · exact key z2 pv
      · exact key z0 pv
    · intro ph v hv
      simp only [pick, if_pos (show (3 : ℤ) ≥ 2 by norm_num)] at hv
      rw [if_neg (by rcases ph with h | h <;> rw [h] <;> norm_num), if_pos ph] at hv
      injection hv with hv; subst hv
      exact big
    · intro _
      simp only [pick, if_pos (show (3 : ℤ) ≥ 2 by norm_num)]
      split_ifs <;> exact ⟨_, rfl⟩
    · intro m hm
      simp only [pick, if_pos (show (3 : ℤ) ≥ 2 by norm_num)] at hm
      split_ifs at hm
  · have z0 := (u r.v0).2 rfl
    have n2 : ¬ n ≥ 2 := by rcases hn with rfl | rfl <;> norm_num
    have vol : ∀ v, pick T tcrit phase (mmw / (pres * mmw / (R * T))) n r = .vol v → v = r.v0 := by
      intro v hv
      rw [pick, if_neg n2] at hv
      split_ifs at hv <;> (injection hv with hv; exact hv.symm)
    have big : b < r.v0 ∧ rkP R T a b r.v0 = pres ∧ ∀ w > r.v0, rkP R T a b w ≠ pres := by
      refine ⟨lb, (key z0 (by linarith)).2, fun w hw h => ?_⟩
      have := back (by linarith) (by linarith) h
      rw [u] at this
      linarith
    refine ⟨?_, ?_, ?_, ?_, ?_⟩
    · intro v hv
      rw [res_expand rfl, vol v hv]; exact z0
    · intro v hv pv
      rw [vol v hv]; exact key z0 (by linarith)
    · intro _ v hv
      rw [vol v hv]; exact big
    · intro ph
      rw [pick, if_neg n2]
      rcases hn with rfl | rfl <;> rcases ph with rfl | rfl <;> simp
    · intro m hm
      rw [pick, if_neg n2] at hm
      rcases hn with rfl | rfl
      · simp only [if_true] at hm
        split_ifs at hm
        injection hm with hm; exact hm.symm
      · rw [if_neg (by norm_num), if_pos rfl] at hm
        split_ifs at hm
        injection hm with hm; exact hm.symm

/-- The same for Peng-Robinson, where only roots above the covolume are known to have the pressure. -/
theorem pr_density (hR : 0 < R) (hT : 0 < T) (hp : 0 < pres) (hb : 0 < b) (hg : guess ≠ -1)
    (g : Regular R T pres b aa (prCub R T pres aa b)) :
    ∃ d, densityCalc (prSolve oa ob ov R T a aa b) fuel R T mmw pc tcrit pres phase guess = .ok d ∧
      (∀ v, d = .vol v → (prCub R T pres aa b).res v = 0) ∧
      (∀ v, d = .vol v → b < v → prP R T aa b v = pres) ∧
      (phase = -1 ∨ phase = -2 → ∀ v, d = .vol v → b < v ∧ prP R T aa b v = pres ∧ ∀ w > v, prP R T aa b w ≠ pres) ∧
      (phase = -2 ∨ phase = -3 → ∃ v, d = .vol v) ∧
      (∀ n, d = .code n → n = -2) := by
  have den : ∀ {v}, b < v → v ^ 2 + 2 * v * b - b ^ 2 ≠ 0 := fun {v} h => by nlinarith
  have key : ∀ {v}, v ^ 3 + (prCub R T pres aa b).bn * v ^ 2 + (prCub R T pres aa b).cn * v +
      (prCub R T pres aa b).dn = 0 → b < v → prP R T aa b v = pres := fun {v} h l =>
    (pr_root_iff hp.ne' l.ne' (den l)).1 h
  have back : ∀ {w}, b < w → prP R T aa b w = pres →
      w ^ 3 + (prCub R T pres aa b).bn * w ^ 2 + (prCub R T pres aa b).cn * w + (prCub R T pres aa b).dn = 0 :=
    fun {w} h1 h => (pr_root_iff hp.ne' h1.ne' (den h1)).2 h
  obtain ⟨n, r, e, cases⟩ := solve_regular (tc := a * ob / (b * oa * R))
    (vc := ov * R * (a * ob / (b * oa * R)) / (ob * R * (a * ob / (b * oa * R)) / b))
    rfl hT g (pr_neg_at_b hR hT hp hb)
  have e' : prSolve oa ob ov R T a aa b pres = .ok (n, r) := by simp only [prSolve]; exact e
  refine ⟨_, densityCalc_guess hg e', ?_⟩
  rcases cases with ⟨rfl, l0, l1, l2, f⟩ | ⟨hn, lb, u⟩
  · have z0 := f r.v0
    have z2 := f r.v2
    simp only [sub_self, mul_zero, zero_mul] at z0 z2
    have big : b < r.v2 ∧ prP R T aa b r.v2 = pres ∧ ∀ w > r.v2, prP R T aa b w ≠ pres := by
      refine ⟨l2, key z2 l2, fun w hw h => ?_⟩
      have := back (by linarith) h
      rw [f] at this
      have p1 : 0 < w - r.v0 := by linarith
      have p2 : 0 < w - r.v1 := by linarith
      have p3 : 0 < w - r.v2 := by linarith
      have := mul_pos (mul_pos p1 p2) p3
      linarith
    refine ⟨?_, ?_, ?_, ?_, ?_⟩
    · intro v hv
      simp only [pick, if_pos (show (3 : ℤ) ≥ 2 by norm_num)] at hv
      rw [res_expand rfl]
      split_ifs at hv <;> (injection hv with hv; subst hv)
      · exact z0
      · exact z2
      · exact z2
      · exact z0
    · intro v hv pv
      simp only [pick, if_pos (show (3 : ℤ) ≥ 2 by norm_num)] at hv
      split_ifs at hv <;> (injection hv with hv; subst hv)
      · exact key z0 pv
      · exact key z2 pv
      · exact key z2 pv
      · exact key z0 pv
    · intro ph v hv
      simp only [pick, if_pos (show (3 : ℤ) ≥ 2 by norm_num)] at hv
      rw [if_neg (by rcases ph with h | h <;> rw [h] <;> norm_num), if_pos ph] at hv
      injection hv with hv; subst hv
      exact big
    · intro _
      simp only [pick, if_pos (show (3 : ℤ) ≥ 2 by norm_num)]
      split_ifs <;> exact ⟨_, rfl⟩
    · intro m hm
      simp only [pick, if_pos (show (3 : ℤ) ≥ 2 by norm_num)] at hm
      split_ifs at hm
  · have z0 := (u r.v0).2 rfl
    have n2 : ¬ n ≥ 2 := by rcases hn with rfl | rfl <;> norm_num
    have vol : ∀ v, pick T tcrit phase (mmw / (pres * mmw / (R * T))) n r = .vol v → v = r.v0 := by
      intro v hv
      rw [pick, if_neg n2] at hv
      split_ifs at hv <;> (injection hv with hv; exact hv.symm)
    refine ⟨?_, ?_, ?_, ?_, ?_⟩
    · intro v hv
      rw [res_expand rfl, vol v hv]; exact z0
    · intro v hv pv
      rw [vol v hv]; exact key z0 lb
    · intro _ v hv
      rw [vol v hv]
      refine ⟨lb, key z0 lb, fun w hw h => ?_⟩
      have := back (by linarith) h
      rw [u] at this
      linarith
    · intro ph
      rw [pick, if_neg n2]
      rcases hn with rfl | rfl <;> rcases ph with rfl | rfl <;> simp
    · intro m hm
      rw [pick, if_neg n2] at hm
      rcases hn with rfl | rfl
      · simp only [if_true] at hm
        split_ifs at hm
        injection hm with hm; exact hm.symm
      · rw [if_neg (by norm_num), if_pos rfl] at hm
        split_ifs at hm
        injection hm with hm; exact hm.symm

/-- The pressure in the theorems is the one of the Redlich-Kwong model. -/
theorem rkP_pressure (q : RK.Par) (T v : ℝ) (X : ℕ → ℝ) :
    rkP q.R T (RK.aCur q T X) (RK.bCur q X) v = RK.pressure q T v X := by
  rw [rkP, RK.pressure, mul_assoc (Real.sqrt T)]

/-- The pressure in the theorems is the one of the Peng-Robinson model. -/
theorem prP_pressure (q : PR.Par) (T v : ℝ) (X : ℕ → ℝ) :
    prP q.R T (PR.aMix q T X) (PR.bMix q X) v = PR.pressure q T v X := by
  rw [prP, PR.pressure, pow_two, pow_two]

/-- A density passed as guess has no influence. -/
theorem guess_ignored (sol : ℝ → Outcome (ℤ × Roots)) (g1 g2 : ℝ) (h1 : g1 ≠ -1) (h2 : g2 ≠ -1) :
    densityCalc sol fuel R T mmw pc tcrit pres phase g1 = densityCalc sol fuel R T mmw pc tcrit pres phase g2 := by
  simp only [densityCalc, if_neg h1, if_neg h2]

/-- If the phase is not given and three states are possible, the Redlich-Kwong fluid is a gas when a density is given,
whatever it is, and a liquid when none is given. -/
theorem rk_undefined_phase (hR : 0 < R) (hT : 0 < T) (hp : 0 < pres) (hm : 0 < mmw)
    (hg : guess ≠ -1) (far : Far R T pres b a (rkCub R T pres a b)) (apart : Apart (rkCub R T pres a b))
    (hd : 27e-14 < discr (rkCub R T pres a b).bn (rkCub R T pres a b).cn (rkCub R T pres a b).dn)
    (all : ∀ v ≤ 0, (rkCub R T pres a b).res v ≠ 0) :
    ∃ v0 v1 v2, v0 < v1 ∧ v1 < v2 ∧ (∀ v, (rkCub R T pres a b).res v = (v - v0) * (v - v1) * (v - v2)) ∧
      densityCalc (rkSolve oa ob ov R T a b) fuel R T mmw pc tcrit pres (-3) guess = .ok (.vol v2) ∧
      densityCalc (rkSolve oa ob ov R T a b) fuel R T mmw pc tcrit pres (-3) (-1) = .ok (.vol v0) := by
  obtain ⟨r, e, l0, l1, f⟩ := solve_three (R := R) (T := T) (pres := pres) (b := b) (aAlpha := a)
    (tc := (a * ob / (b * oa * R)) ^ (2 / 3 : ℝ))
    (vc := ov * R * (a * ob / (b * oa * R)) ^ (2 / 3 : ℝ) / (ob * R * (a * ob / (b * oa * R)) ^ (2 / 3 : ℝ) / b))
    (c := rkCub R T pres a b) rfl hT far apart hd
  have e' : rkSolve oa ob ov R T a b pres = .ok (3, r) := by simp only [rkSolve]; exact e
  have f' : ∀ v, (rkCub R T pres a b).res v = (v - r.v0) * (v - r.v1) * (v - r.v2) := fun v => by
    rw [res_expand rfl]; exact f v
  have p0 : 0 < r.v0 := by
    by_contra n
    exact all _ (not_lt.1 n) (by rw [f']; ring)
  have sum : R * T / pres = r.v0 + r.v1 + r.v2 := by
    have a1 := f 1
    have a2 := f (-1)
    have a0 := f 0
    have : (rkCub R T pres a b).bn = -(r.v0 + r.v1 + r.v2) := by nlinarith
    have h : (rkCub R T pres a b).bn = -(R * T / pres) := by simp only [rkCub]; ring
    linarith
  refine ⟨r.v0, r.v1, r.v2, l0, l1, f', ?_, ?_⟩
  · rw [densityCalc_guess hg e', pick, if_pos (by norm_num), if_neg (by norm_num), if_neg (by norm_num), if_pos]
    have : mmw / (pres * mmw / (R * T)) = R * T / pres := by field_simp
    rw [this, sum]; linarith
  · simp only [densityCalc, if_true]
    rw [if_neg (by norm_num)]
    simp only [Outcome.bind_ok, e']
    rw [pick, if_pos (by norm_num), if_neg (by norm_num), if_neg (by norm_num), if_neg]
    rw [div_neg, div_one]; linarith

/-- The pressure is replaced by the estimated saturation pressure when a liquid is requested without a density guess:
the volume returned has pressure `psatEst`. -/
theorem rk_liquid_wrong_pressure (hT : 0 < T) (hm : phase ≥ 0)
    (hp : pres ≤ psatEst pc tcrit T)
    (far : Far R T (psatEst pc tcrit T) b a (rkCub R T (psatEst pc tcrit T) a b))
    (apart : Apart (rkCub R T (psatEst pc tcrit T) a b))
    (hd : 27e-14 < discr (rkCub R T (psatEst pc tcrit T) a b).bn (rkCub R T (psatEst pc tcrit T) a b).cn
      (rkCub R T (psatEst pc tcrit T) a b).dn) :
    ∃ v, densityCalc (rkSolve oa ob ov R T a b) (fuel + 1) R T mmw pc tcrit pres phase (-1) = .ok (.vol v) ∧
      (rkCub R T (psatEst pc tcrit T) a b).res v = 0 := by
  obtain ⟨r, e, l0, l1, f⟩ := solve_three (R := R) (T := T) (pres := psatEst pc tcrit T) (b := b) (aAlpha := a)
    (tc := (a * ob / (b * oa * R)) ^ (2 / 3 : ℝ))
    (vc := ov * R * (a * ob / (b * oa * R)) ^ (2 / 3 : ℝ) / (ob * R * (a * ob / (b * oa * R)) ^ (2 / 3 : ℝ) / b))
    (c := rkCub R T (psatEst pc tcrit T) a b) rfl hT far apart hd
  have e' : rkSolve oa ob ov R T a b (psatEst pc tcrit T) = .ok (3, r) := by simp only [rkSolve]; exact e
  refine ⟨r.v0, ?_, ?_⟩
  · simp only [densityCalc, if_true, if_pos hm, liquidVolEst, max_eq_left hp, liqLoop, e', Outcome.bind_ok]
    norm_num
    simp only [e', Outcome.bind_ok]
    rw [pick, if_pos (by norm_num), if_pos hm]
  · rw [res_expand rfl, f]; ring

/-- `liquidVolEst` ends although its counter is never incremented, if the solver never throws. -/
theorem liquidVolEst_ends {sol : ℝ → Outcome (ℤ × Roots)} (hs : ∀ p > 0, ∃ x, sol p = .ok x) {psat guess : ℝ}
    (h : 0 < max psat guess) : ∃ N, ∀ n ≥ N, ∃ v p, liquidVolEst sol n pc psat guess = .ok (v, p) := by
  have main : ∀ N : ℕ, ∀ p > 0, pc < p * 1.04 ^ N → ∀ n ≥ N + 1, ∃ v p', liqLoop sol pc n p = .ok (v, p') := by
    intro N
    induction N with
    | zero =>
      intro p hp hl n hn
      obtain ⟨m, rfl⟩ : ∃ m, n = m + 1 := ⟨n - 1, by omega⟩
      obtain ⟨⟨ns, r⟩, e⟩ := hs p hp
      simp only [liqLoop, e, Outcome.bind_ok]
      rw [if_pos (show p > pc by simpa using hl)]
      split_ifs <;> exact ⟨_, _, rfl⟩
    | succ N ih =>
      intro p hp hl n hn
      obtain ⟨m, rfl⟩ : ∃ m, n = m + 1 := ⟨n - 1, by omega⟩
      obtain ⟨⟨ns, r⟩, e⟩ := hs p hp
      simp only [liqLoop, e, Outcome.bind_ok]
      split_ifs
      · exact ⟨_, _, rfl⟩
      · exact ih (p * 1.04) (by positivity) (by rw [pow_succ] at hl; linarith [hl, mul_assoc p 1.04 (1.04 ^ N)]) m
          (by omega)
      · exact ⟨_, _, rfl⟩
  obtain ⟨N, hN⟩ := pow_unbounded_of_one_lt (pc / max psat guess) (show (1 : ℝ) < 1.04 by norm_num)
  refine ⟨N + 1, fun n hn => main N _ h ?_ n hn⟩
  rw [div_lt_iff₀ h] at hN
  linarith

/-- Without a prescribed branch, `setPressure` either throws or leaves a density computed for the pressure. -/
theorem setPressure_free {dens : ℤ → Option ℝ → Outcome Dens} {ph : Option ℝ → ℤ} {s s' : St}
    (h : setPressure mmw dens ph (-3) s = .ok (s', true)) :
    ∃ k d, (k = s.istate ∨ k = -3) ∧ dens k s.rho = .ok d ∧ s'.rho = d.rho mmw ∧ s'.istate = ph s'.rho ∧
      (s'.rho = none ∨ ∃ x > 0, s'.rho = some x) := by
  have pos : ∀ o : Option ℝ, gt o 0 → o = none ∨ ∃ x > 0, o = some x := fun o h => by
    cases o with
    | none => exact Or.inl rfl
    | some x => exact Or.inr ⟨x, h, rfl⟩
  simp only [setPressure, if_true] at h
  cases e : dens s.istate s.rho with
  | ok d =>
    simp only [e, Outcome.bind_ok] at h
    split_ifs at h with h1 h2
    · simp only [Outcome.ok.injEq, Prod.mk.injEq, and_true] at h
      subst h
      exact ⟨_, d, Or.inl rfl, e, rfl, rfl, pos _ h1⟩
    · cases e2 : dens (-3) s.rho with
      | ok d2 =>
        simp only [e2, Outcome.bind_ok] at h
        split_ifs at h with h3
        · simp only [Outcome.ok.injEq, Prod.mk.injEq, and_true] at h
          subst h
          exact ⟨_, d2, Or.inr rfl, e2, rfl, rfl, pos _ h3⟩
        · simp at h
      | throw => simp [e2] at h
      | ub => simp [e2] at h
    · simp at h
  | throw => simp [e] at h
  | ub => simp [e] at h

/-- Setting the pressure of a Redlich-Kwong fluid: if the call returns, the state has the pressure. -/
theorem rk_setPressure (hR : 0 < R) (hT : 0 < T) (hp : 0 < pres) (ha : 0 < a) (hb : 0 < b) (hm : 0 < mmw)
    (g : Regular R T pres b a (rkCub R T pres a b)) {ph : Option ℝ → ℤ} {s s' : St} {rho : ℝ} (hs : s.rho = some rho)
    (h1 : rho ≠ -1)
    (h : setPressure mmw (fun k o => densityCalc (rkSolve oa ob ov R T a b) fuel R T mmw pc tcrit pres k (o.getD 0)) ph
      (-3) s = .ok (s', true)) :
    ∃ v, s'.rho = some (mmw / v) ∧ b < v ∧ R * T / (v - b) - a / (Real.sqrt T * (v * (v + b))) = pres := by
  obtain ⟨k, d, _, e, er, _, pos⟩ := setPressure_free h
  simp only [hs, Option.getD_some] at e
  obtain ⟨d', e', root, key, _, _, cd⟩ := rk_density (oa := oa) (ob := ob) (ov := ov) (mmw := mmw) (pc := pc)
    (tcrit := tcrit) (fuel := fuel) (phase := k) hR hT hp ha.le hb h1 g
  rw [e, Outcome.ok.injEq] at e'
  subst e'
  cases d with
  | vol v =>
    have v0 : v ≠ 0 := by
      rintro rfl
      have h0 := root 0 rfl
      rw [res_expand rfl] at h0
      have hs := Real.sqrt_pos.2 hT
      have pd : 0 < a * b / (pres * Real.sqrt T) := by positivity
      have ed : (rkCub R T pres a b).dn = -(a * b / (pres * Real.sqrt T)) := rfl
      rw [ed] at h0
      linarith
    simp only [Dens.rho, if_neg v0] at er
    rw [er] at pos
    rcases pos with n | ⟨x, hx, ex⟩
    · exact absurd n (by simp)
    · simp only [Option.some.injEq] at ex
      rw [← ex] at hx
      have vp : 0 < v := by
        by_contra n
        have := div_nonpos_of_nonneg_of_nonpos hm.le (not_lt.1 n)
        linarith
      obtain ⟨l, p⟩ := key v rfl vp
      exact ⟨v, er, l, p⟩
  | code n =>
    have := cd n rfl
    subst this
    simp only [Dens.rho] at er
    rw [er] at pos
    rcases pos with n | ⟨x, hx, ex⟩
    · exact absurd n (by simp)
    · simp only [Option.some.injEq] at ex
      rw [← ex] at hx
      norm_num at hx

/-- With the gas branch prescribed and a liquid state, or with the first liquid branch prescribed, `setPressure`
returns and does nothing. -/
theorem setPressure_ignored (dens : ℤ → Option ℝ → Outcome Dens) (ph : Option ℝ → ℤ) (s : St) :
    (s.istate ≥ 0 → setPressure mmw dens ph (-1) s = .ok (s, true)) ∧ setPressure mmw dens ph 0 s = .ok (s, true) := by
  constructor
  · intro h
    simp only [setPressure]
    rw [if_neg (by norm_num), if_pos trivial, if_neg (by omega)]
  · simp only [setPressure]
    rw [if_neg (by norm_num), if_neg (by norm_num), if_neg (by norm_num)]

end

/-! Witnesses. -/

theorem apart_of {c : Cub} (w : ℝ) (hw : w ^ 2 ≤ (c.bn ^ 2 - 3 * c.cn) / 9)
    (t : |2 * c.bn ^ 3 / 27 - c.bn * c.cn / 3 + c.dn| + 1e-10 ≤ 2 * w * ((c.bn ^ 2 - 3 * c.cn) / 9)) : Apart c := by
  have l := Real.le_sqrt_of_sq_le hw
  have p : 0 ≤ (c.bn ^ 2 - 3 * c.cn) / 9 := (sq_nonneg w).trans hw
  have m : 2 * w * ((c.bn ^ 2 - 3 * c.cn) / 9) ≤
      2 * Real.sqrt ((c.bn ^ 2 - 3 * c.cn) / 9) * ((c.bn ^ 2 - 3 * c.cn) / 9) :=
    mul_le_mul_of_nonneg_right (by linarith) p
  rw [Apart, abs_of_nonneg (a := 2 * Real.sqrt _ * _) (by positivity)]
  refine le_trans ?_ (le_abs_self _)
  linarith

/-- On the limit of stability of the liquid the gas volume is reported to be zero, whichever state is requested. The gas
state with volume 8 exists. -/
theorem gas_volume_zero (oa ob ov mmw pc tcrit : ℝ) (fuel : ℕ) (hm : 0 < mmw) :
    rkP 14 1 72 1 8 = 1 ∧
      (∀ phase : ℤ, phase = -1 ∨ phase = -2 ∨ phase = -3 →
        densityCalc (rkSolve oa ob ov 14 1 72 1) fuel 14 1 mmw pc tcrit 1 phase 1 = .ok (.vol 0)) := by
  have e : rkCub 14 1 1 72 1 = dbl 8 3 := by simp only [rkCub, dbl, Real.sqrt_one]; norm_num
  refine ⟨by norm_num [rkP], fun phase h => ?_⟩
  have s : rkSolve oa ob ov 14 1 72 1 1 = .ok (2, { v0 := 3, v1 := 8, v2 := 0 }) := by
    simp only [rkSolve, e]
    exact solve_double_below one_pos (far_big (by norm_num [dbl])) (by norm_num)
  rw [densityCalc_guess (by norm_num) s, pick, if_pos (by norm_num),
    if_neg (by rcases h with rfl | rfl | rfl <;> norm_num)]
  have : mmw / (1 * mmw / (14 * 1)) = 14 := by field_simp
  rw [this]
  rcases h with rfl | rfl | rfl <;> norm_num

/-- On the limit of stability of the gas every request is refused, although states with the pressure exist. -/
theorem double_refused (oa ob ov mmw pc tcrit : ℝ) (fuel : ℕ) (phase : ℤ) :
    rkP 81 1 400 1 (25 / 7) = 7 ∧ rkP 81 1 400 1 4 = 7 ∧
      densityCalc (rkSolve oa ob ov 81 1 400 1) fuel 81 1 mmw pc tcrit 7 phase 1 = .ok (.code (-1)) := by
  have e : rkCub 81 1 7 400 1 = dbl (25 / 7) 4 := by simp only [rkCub, dbl, Real.sqrt_one]; norm_num
  refine ⟨by norm_num [rkP], by norm_num [rkP], ?_⟩
  have s : rkSolve oa ob ov 81 1 400 1 7 = .ok (-2, { v0 := 25 / 7, v1 := 4, v2 := 0 }) := by
    simp only [rkSolve, e]
    exact solve_double_above one_pos (far_big (by norm_num [dbl])) (by norm_num)
  rw [densityCalc_guess (by norm_num) s, pick, if_neg (by norm_num), if_neg (by norm_num), if_neg (by norm_num)]

/-- Coefficients with roots -1/2, -99/200 and 101/97. -/
theorem dense_cub : rkCub (897 / 19400) 1 1 (9999 / 38800) 1 =
    { an := 1, bn := -(897 / 19400), cn := -(897 / 19400 - 9999 / 38800 + 1), dn := -(9999 / 38800) } := by
  simp only [rkCub, Real.sqrt_one]; norm_num

/-- At high pressure the cubic has two negative roots, and a request for the liquid returns a negative volume although
the fluid has a state with the pressure. -/
theorem liquid_volume_negative (oa ob ov mmw pc tcrit : ℝ) (fuel : ℕ) :
    rkP (897 / 19400) 1 (9999 / 38800) 1 (101 / 97) = 1 ∧
    ∃ v < 0, densityCalc (rkSolve oa ob ov (897 / 19400) 1 (9999 / 38800) 1) fuel (897 / 19400) 1 mmw pc tcrit 1 0 1 =
      .ok (.vol v) := by
  refine ⟨by norm_num [rkP], ?_⟩
  obtain ⟨r, e, l0, l1, f⟩ := solve_three (R := 897 / 19400) (T := 1) (pres := 1) (b := 1) (aAlpha := 9999 / 38800)
    (tc := (9999 / 38800 * ob / (1 * oa * (897 / 19400))) ^ (2 / 3 : ℝ))
    (vc := ov * (897 / 19400) * (9999 / 38800 * ob / (1 * oa * (897 / 19400))) ^ (2 / 3 : ℝ) /
      (ob * (897 / 19400) * (9999 / 38800 * ob / (1 * oa * (897 / 19400))) ^ (2 / 3 : ℝ) / 1))
    (c := rkCub (897 / 19400) 1 1 (9999 / 38800) 1) rfl one_pos (far_big (by rw [dense_cub]; norm_num [abs_of_neg]))
    (apart_of (641143/1250000) (by rw [dense_cub]; norm_num) (by rw [dense_cub]; norm_num [abs_of_neg]))
    (by rw [dense_cub]; norm_num [discr])
  have e' : rkSolve oa ob ov (897 / 19400) 1 (9999 / 38800) 1 1 = .ok (3, r) := by simp only [rkSolve]; exact e
  refine ⟨r.v0, ?_, ?_⟩
  · have h := f (-1 / 2)
    rw [dense_cub] at h
    norm_num at h
    rcases h with (h | h) | h <;> linarith
  · rw [densityCalc_guess (by norm_num) e', pick, if_pos (by norm_num), if_pos (by norm_num)]

/-- Coefficients with roots 2, 6 and 7. -/
theorem demo_cub : rkCub 15 1 1 84 1 = { an := 1, bn := -15, cn := 68, dn := -84 } := by
  simp only [rkCub, Real.sqrt_one]; norm_num

theorem demo_far : Far 15 1 1 1 84 (rkCub 15 1 1 84 1) := far_big (by rw [demo_cub]; norm_num)

theorem demo_apart : Apart (rkCub 15 1 1 84 1) :=
  apart_of (3 / 2) (by rw [demo_cub]; norm_num) (by rw [demo_cub]; norm_num)

theorem demo_discr : 27e-14 < discr (rkCub 15 1 1 84 1).bn (rkCub 15 1 1 84 1).cn (rkCub 15 1 1 84 1).dn := by
  rw [demo_cub]; norm_num [discr]

example (guess : ℝ) (hg : guess ≠ -1) (phase : ℤ) :
    ∃ d, densityCalc (rkSolve 0.4 0.08 0.3 15 1 84 1) 3 15 1 18 1 1 1 phase guess = .ok d ∧
      ∀ v, d = .vol v → 0 < v → 1 < v ∧ rkP 15 1 84 1 v = 1 := by
  obtain ⟨d, e, _, h, _⟩ := rk_density (oa := 0.4) (ob := 0.08) (ov := 0.3) (mmw := 18) (pc := 1) (tcrit := 1) (fuel := 3)
    (phase := phase) (R := 15) (T := 1) (pres := 1) (a := 84) (b := 1)
    (by norm_num) one_pos one_pos (by norm_num) one_pos hg ⟨demo_far, demo_apart, demo_discr.trans_le (le_abs_self _)⟩
  exact ⟨d, e, h⟩

example (guess : ℝ) (hg : guess ≠ -1) :=
  rk_undefined_phase (oa := 0.4) (ob := 0.08) (ov := 0.3) (mmw := 18) (pc := 1) (tcrit := 1) (fuel := 3) (R := 15)
    (T := 1) (pres := 1) (a := 84) (b := 1) (by norm_num) one_pos one_pos (by norm_num) hg demo_far demo_apart demo_discr
    (fun v hv h => by
      rw [demo_cub] at h
      simp only [Cub.res] at h
      nlinarith [mul_nonneg (neg_nonneg.2 hv) (mul_self_nonneg v), mul_self_nonneg v])

example : ∃ v, densityCalc (rkSolve 0.4 0.08 0.3 15 1 84 1) 3 15 1 18 1 (1 / 2) (1 / 2) 0 (-1) = .ok (.vol v) ∧
    (rkCub 15 1 1 84 1).res v = 0 := by
  have p : psatEst 1 (1 / 2) 1 = 1 := by rw [psatEst]; norm_num
  have := rk_liquid_wrong_pressure (oa := 0.4) (ob := 0.08) (ov := 0.3) (mmw := 18) (pc := 1) (tcrit := 1 / 2)
    (fuel := 2) (R := 15) (T := 1) (pres := 1 / 2) (a := 84) (b := 1) (phase := 0) one_pos le_rfl
    (by rw [p]; norm_num) (by rw [p]; exact demo_far) (by rw [p]; exact demo_apart) (by rw [p]; exact demo_discr)
  rwa [p] at this

/-- Peng-Robinson with one root. -/
theorem demo_pr : prCub 1 1 1 0 1 = { an := 1, bn := 0, cn := -5, dn := 2 } := by
  simp only [prCub]; norm_num

example : ∃ d, densityCalc (prSolve 0.4 0.08 0.3 1 1 1 0 1) 3 1 1 18 1 1 1 (-1) 1 = .ok d ∧
    ∀ v, d = .vol v → 1 < v ∧ prP 1 1 0 1 v = 1 := by
  have hd : 27e-14 < |discr (prCub 1 1 1 0 1).bn (prCub 1 1 1 0 1).cn (prCub 1 1 1 0 1).dn| := by
    rw [demo_pr]; norm_num [discr]
  have g : Regular 1 1 1 1 0 (prCub 1 1 1 0 1) := ⟨fun h => by norm_num at h,
    apart_of (5 / 4) (by rw [demo_pr]; norm_num) (by rw [demo_pr]; norm_num), hd⟩
  obtain ⟨d, e, _, _, h, _⟩ := pr_density (oa := 0.4) (ob := 0.08) (ov := 0.3) (mmw := 18) (pc := 1) (tcrit := 1)
    (fuel := 3) (phase := -1) (R := 1) (T := 1) (pres := 1) (a := 1) (aa := 0) (b := 1) (guess := 1)
    one_pos one_pos one_pos one_pos (by norm_num) g
  exact ⟨d, e, fun v hv => ⟨(h (Or.inl rfl) v hv).1, (h (Or.inl rfl) v hv).2.1⟩⟩

example : ∃ N, ∀ n ≥ N, ∃ v p, liquidVolEst (fun _ => .ok (1, {})) n 10 1 2 = .ok (v, p) :=
  liquidVolEst_ends (fun _ _ => ⟨_, rfl⟩) (by norm_num)

example : ∃ k d, (k = -1 ∨ k = -3) ∧ (fun _ _ => .ok (.vol 2) : ℤ → Option ℝ → Outcome Dens) k (some 1) = .ok d ∧
    some 9 = d.rho 18 := by
  have h : setPressure 18 (fun _ _ => .ok (.vol 2)) (fun _ => -1) (-3) { rho := some 1, istate := -1 } =
      .ok ({ rho := some 9, istate := -1 }, true) := by
    simp [setPressure, Dens.rho, gt, putRho]; norm_num
  obtain ⟨k, d, a, b, c, _⟩ := setPressure_free h
  exact ⟨k, d, a, b, c⟩

example (rho : ℝ) (h1 : rho ≠ -1) (s' : St)
    (h : setPressure 18 (fun k o => densityCalc (rkSolve 0.4 0.08 0.3 15 1 84 1) 3 15 1 18 1 1 1 k (o.getD 0))
      (fun _ => -1) (-3) { rho := some rho, istate := -1 } = .ok (s', true)) :
    ∃ v, s'.rho = some (18 / v) ∧ 1 < v ∧ 15 * 1 / (v - 1) - 84 / (Real.sqrt 1 * (v * (v + 1))) = 1 :=
  rk_setPressure (by norm_num) one_pos one_pos (by norm_num) one_pos (by norm_num)
    ⟨demo_far, demo_apart, demo_discr.trans_le (le_abs_self _)⟩ rfl h1 h

example (dens : ℤ → Option ℝ → Outcome Dens) : setPressure 18 dens (fun _ => 0) (-1) { rho := some 1000, istate := 0 } =
    .ok ({ rho := some 1000, istate := 0 }, true) := (setPressure_ignored dens _ _).1 le_rfl

end Verif.Fluid.Solver
