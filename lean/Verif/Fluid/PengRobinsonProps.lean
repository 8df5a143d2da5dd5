import Verif.Fluid.CubicMix
import Verif.Fluid.PengRobinson
import Mathlib.Analysis.SpecialFunctions.Sqrt

/-!
# C66: thermodynamic consistency of Peng-Robinson mixtures
-/

namespace Verif.Fluid.PR

open Verif Verif.Thermo Filter Topology

/-- The same fluid in the general form of `CubicMix`. -/
noncomputable def fld (q : Par) : Fld where
  kk := q.kk
  R := q.R
  P0 := q.P0
  c1 := 1 + r2
  c2 := 1 - r2
  b := q.b
  d := aAb q
  d1 T i j := 0.5 * aAb q T i j * (dalpha q T i / alpha q T i + dalpha q T j / alpha q T j)
  d2 T i j := 0.5 * aAb q T i j * (d2alpha q T i / alpha q T i + d2alpha q T j / alpha q T j +
    2 * dalpha q T i * dalpha q T j / (alpha q T i * alpha q T j) -
    0.5 * (dalpha q T i / alpha q T i + dalpha q T j / alpha q T j) *
      (dalpha q T i / alpha q T i + dalpha q T j / alpha q T j))
  h0 := q.h0
  s0 := q.s0
  cp0 := q.cp0

/-- Regular states: positive temperature, composition and pressure, volume above the covolume, no mole fraction cut off
at `SmallNumber`, `alpha` of no species zero; positive pure species coefficients, symmetric table; reference state
functions belonging together. -/
structure Good (q : Par) (T v : ℝ) (X : ℕ → ℝ) : Prop where
  R0 : 0 < q.R
  P0 : 0 < q.P0
  T0 : 0 < T
  oa0 : 0 < q.oa
  ob0 : 0 < q.ob
  sum : ∑ i ∈ Finset.range q.kk, X i = 1
  W0 : ∀ i < q.kk, 0 < q.W i
  X0 : ∀ i < q.kk, 0 < X i
  Xs : ∀ i < q.kk, q.small < X i
  Xm : ∀ i < q.kk, q.small * (∑ j ∈ Finset.range q.kk, X j * q.W j) < X i
  a0 : ∀ i < q.kk, 0 < q.a i i
  b0 : ∀ i < q.kk, 0 < q.b i
  al : ∀ i < q.kk, 1 + q.kap i * (1 - Real.sqrt (T / (q.a i i * q.ob / (q.b i * q.oa * q.R)))) ≠ 0
  vb : ∑ i ∈ Finset.range q.kk, X i * q.b i < v
  p0 : 0 < pressure q T v X
  sym : ∀ i < q.kk, ∀ j < q.kk, q.a i j = q.a j i
  hh : ∀ i < q.kk, HasDerivAt (fun T => q.R * T * q.h0 T i) (q.R * q.cp0 T i) T
  hs : ∀ i < q.kk, HasDerivAt (fun T => q.s0 T i) (q.cp0 T i / T) T

variable {q : Par}

theorem ne_of_sum {X : ℕ → ℝ} {kk : ℕ} (h : ∑ i ∈ Finset.range kk, X i = 1) : (Finset.range kk).Nonempty := by
  by_contra e
  rw [Finset.not_nonempty_iff_eq_empty.1 e] at h
  simp at h

theorem b_pos {T v : ℝ} {X : ℕ → ℝ} (g : Good q T v X) : 0 < bMix q X :=
  Finset.sum_pos (fun i hi => mul_pos (g.X0 i (Finset.mem_range.1 hi)) (g.b0 i (Finset.mem_range.1 hi)))
    (ne_of_sum g.sum)

theorem r2_sq : r2 ^ 2 = 2 := Real.sq_sqrt (by norm_num)

theorem r2_pos : 0 < r2 := Real.sqrt_pos.2 (by norm_num)

theorem r2_lt : r2 < 2 := by
  have := r2_sq; have := r2_pos
  nlinarith

theorem fld_kk : (fld q).kk = q.kk := rfl

theorem fld_B (X : ℕ → ℝ) : (fld q).B X = bMix q X := rfl

theorem fld_D (T : ℝ) (X : ℕ → ℝ) : (fld q).D T X = aMix q T X := rfl

theorem fld_D1 (T : ℝ) (X : ℕ → ℝ) : (fld q).D1 T X = daMix q T X := by
  rw [Fld.D1, mixD, daMix]
  exact Finset.sum_congr rfl fun i _ => Finset.sum_congr rfl fun j _ => by simp only [fld]; ring

theorem fld_D2 (T : ℝ) (X : ℕ → ℝ) : (fld q).D2 T X = d2aMix q T X := by
  rw [Fld.D2, mixD, d2aMix]
  exact Finset.sum_congr rfl fun i _ => Finset.sum_congr rfl fun j _ => by simp only [fld]; ring

theorem aAb_sym {T v : ℝ} {X : ℕ → ℝ} (g : Good q T v X) (T1 : ℝ) : ∀ i < q.kk, ∀ j < q.kk,
    aAb q T1 i j = aAb q T1 j i := by
  intro i hi j hj
  rw [aAb, aAb, g.sym i hi j hj, mul_comm (alpha q T1 i)]

theorem fld_K {T v : ℝ} {X : ℕ → ℝ} (g : Good q T v X) {k : ℕ} (hk : k < q.kk) : (fld q).K T X k = pp q T X k := by
  rw [Fld.K, mixK, pp]
  exact Finset.sum_congr rfl fun i hi => by simp only [fld]; rw [aAb_sym g T i (Finset.mem_range.1 hi) k hk]

theorem fld_K1 {T v : ℝ} {X : ℕ → ℝ} (g : Good q T v X) {k : ℕ} (hk : k < q.kk) : 2 * (fld q).K1 T X k =
    ∑ i ∈ Finset.range q.kk, X i * aAb q T k i * (dalpha q T i / alpha q T i + dalpha q T k / alpha q T k) := by
  rw [Fld.K1, mixK, Finset.mul_sum]
  exact Finset.sum_congr rfl fun i hi => by
    simp only [fld]; rw [aAb_sym g T i (Finset.mem_range.1 hi) k hk]; ring

theorem critT_eq {T v : ℝ} {X : ℕ → ℝ} (g : Good q T v X) {i : ℕ} (hi : i < q.kk) :
    critT q (q.a i i) (q.b i) = q.a i i * q.ob / (q.b i * q.oa * q.R) := by
  rw [critT, if_neg (not_le.2 (g.b0 i hi)), if_neg (not_le.2 (g.a0 i hi))]

theorem critT_pos {T v : ℝ} {X : ℕ → ℝ} (g : Good q T v X) {i : ℕ} (hi : i < q.kk) :
    0 < critT q (q.a i i) (q.b i) := by
  rw [critT_eq g hi]
  have := g.a0 i hi; have := g.b0 i hi; have := g.oa0; have := g.ob0; have := g.R0
  positivity

theorem root_deriv {T c : ℝ} (hT : 0 < T) (hc : 0 < c) :
    HasDerivAt (fun T => Real.sqrt (T / c)) (1 / (2 * c * Real.sqrt (T / c))) T := by
  have h := ((hasDerivAt_id' T).div_const c).sqrt (div_pos hT hc).ne'
  refine h.congr_deriv ?_
  rw [div_div]; ring

theorem alpha_pos {T v : ℝ} {X : ℕ → ℝ} (g : Good q T v X) {i : ℕ} (hi : i < q.kk) : 0 < alpha q T i := by
  have := g.al i hi
  rw [← critT_eq g hi] at this
  rw [alpha]
  exact mul_self_pos.2 this

theorem alpha_deriv {T v : ℝ} {X : ℕ → ℝ} (g : Good q T v X) {i : ℕ} (hi : i < q.kk) :
    HasDerivAt (fun T => alpha q T i) (dalpha q T i) T := by
  have hc := critT_pos g hi
  have h1 := ((((root_deriv g.T0 hc).const_sub 1).const_mul (q.kap i)).const_add 1)
  refine (h1.mul h1).congr_deriv ?_
  rw [dalpha]
  have hr := (Real.sqrt_pos.2 (div_pos g.T0 hc)).ne'
  have := hc.ne'
  generalize Real.sqrt (T / critT q (q.a i i) (q.b i)) = r at *
  field_simp
  ring

theorem dalpha_deriv {T v : ℝ} {X : ℕ → ℝ} (g : Good q T v X) {i : ℕ} (hi : i < q.kk) :
    HasDerivAt (fun T => dalpha q T i) (d2alpha q T i) T := by
  have hc := critT_pos g hi
  have hr := (Real.sqrt_pos.2 (div_pos g.T0 hc)).ne'
  have hc' := hc.ne'
  have h1 := root_deriv g.T0 hc
  have h2 := (hasDerivAt_const T (1 : ℝ)).div (h1.const_mul (critT q (q.a i i) (q.b i))) (mul_ne_zero hc' hr)
  refine (h2.mul (((h1.sub_const 1).const_mul (q.kap i * q.kap i)).sub_const (q.kap i))).congr_deriv ?_
  rw [d2alpha]
  simp only [Pi.div_apply]
  generalize Real.sqrt (T / critT q (q.a i i) (q.b i)) = r at *
  field_simp
  ring

theorem aAb_deriv {T v : ℝ} {X : ℕ → ℝ} (g : Good q T v X) {i j : ℕ} (hi : i < q.kk) (hj : j < q.kk) :
    HasDerivAt (fun T => aAb q T i j)
      (0.5 * aAb q T i j * (dalpha q T i / alpha q T i + dalpha q T j / alpha q T j)) T := by
  have h1 := alpha_pos g hi; have h2 := alpha_pos g hj
  have h := (((alpha_deriv g hi).mul (alpha_deriv g hj)).sqrt (mul_pos h1 h2).ne').mul_const (q.a i j)
  refine h.congr_deriv ?_
  simp only [Pi.mul_apply, aAb]
  have hs : Real.sqrt (alpha q T i * alpha q T j) ^ 2 = alpha q T i * alpha q T j := Real.sq_sqrt (mul_pos h1 h2).le
  have hs0 := (Real.sqrt_pos.2 (mul_pos h1 h2)).ne'
  generalize Real.sqrt (alpha q T i * alpha q T j) = r at *
  have h1' := h1.ne'; have h2' := h2.ne'
  field_simp
  rw [hs]
  ring

theorem ok {T v : ℝ} {X : ℕ → ℝ} (g : Good q T v X) : (fld q).Ok T v X where
  R0 := g.R0
  P0 := g.P0
  T0 := g.T0
  X0 := g.X0
  dom := by
    have h1 := b_pos g; have h2 := g.vb
    rw [fld_B]
    change bMix q X < v at h2
    have := r2_pos; have := r2_lt
    exact ⟨by linarith, h1.ne', by linarith, by simp only [fld]; nlinarith, by simp only [fld]; nlinarith,
      by simp only [fld]; intro h; linarith⟩
  sym := fun i hi j hj => aAb_sym g T i hi j hj
  sym1 := fun i hi j hj => by simp only [fld]; rw [aAb_sym g T i hi j hj]; ring
  hd := fun i hi j hj => aAb_deriv g hi hj
  hd1 := fun i hi j hj => by
    have h1 := (alpha_pos g hi).ne'; have h2 := (alpha_pos g hj).ne'
    have q1 := (dalpha_deriv g hi).div (alpha_deriv g hi) h1
    have q2 := (dalpha_deriv g hj).div (alpha_deriv g hj) h2
    refine (((aAb_deriv g hi hj).const_mul 0.5).mul (q1.add q2)).congr_deriv ?_
    simp only [fld, Pi.add_apply, Pi.div_apply]
    field_simp
    ring
  hh := g.hh
  hs := g.hs

theorem Q_fld (v : ℝ) (X : ℕ → ℝ) : (fld q).Q v X = v * v + 2 * v * bMix q X - bMix q X * bMix q X := by
  rw [Fld.Q, fld_B]
  simp only [fld]
  linear_combination (-(bMix q X ^ 2)) * r2_sq

theorem pressure_fld (T v : ℝ) (X : ℕ → ℝ) : (fld q).p T v X = pressure q T v X := by
  rw [Fld.p, Q_fld, fld_B, fld_D, pressure]; rfl

theorem dpdV_fld (T v : ℝ) (X : ℕ → ℝ) : (fld q).pV T v X = dpdV q T v X := by
  rw [Fld.pV, Q_fld, fld_B, fld_D, dpdV]
  simp only [fld]
  ring

theorem dpdT_fld {T v : ℝ} {X : ℕ → ℝ} : (fld q).pT T v X = dpdT q T v X := by
  rw [Fld.pT, Q_fld, fld_B, fld_D1, dpdT]; rfl

theorem L_fld (v : ℝ) (X : ℕ → ℝ) :
    (fld q).L v X = Real.log ((v + (1 + r2) * bMix q X) / (v + (1 - r2) * bMix q X)) := rfl

theorem c_fld : (fld q).c1 - (fld q).c2 = 2 * r2 := by simp only [fld]; ring

/-- The part of `Good` that persists along paths. -/
structure Near (q : Par) (T v : ℝ) (X : ℕ → ℝ) : Prop where
  T0 : 0 < T
  sum : ∑ i ∈ Finset.range q.kk, X i = 1
  X0 : ∀ i < q.kk, 0 < X i
  Xm : ∀ i < q.kk, q.small * mmw q X < X i
  m0 : 0 < mmw q X
  v0 : 0 < v
  vb : 0 < v - bMix q X
  p0 : pressure q T v X ≠ 0

theorem near {T v : ℝ} {X : ℕ → ℝ} (g : Good q T v X) : Near q T v X where
  T0 := g.T0
  sum := g.sum
  X0 := g.X0
  Xm := g.Xm
  m0 := by
    exact Finset.sum_pos (fun i hi => mul_pos (g.X0 i (Finset.mem_range.1 hi)) (g.W0 i (Finset.mem_range.1 hi)))
      (ne_of_sum g.sum)
  v0 := (b_pos g).trans g.vb
  vb := sub_pos.2 g.vb
  p0 := g.p0.ne'

theorem near_ev {T w : ℝ → ℝ} {X : ℝ → ℕ → ℝ} {t : ℝ} (n : Near q (T t) (w t) (X t)) (hT : ContinuousAt T t)
    (hw : ContinuousAt w t) (hX : ∀ i < q.kk, ContinuousAt (fun t => X t i) t)
    (hp : ContinuousAt (fun t => pressure q (T t) (w t) (X t)) t)
    (hs : ∀ᶠ t in 𝓝 t, ∑ i ∈ Finset.range q.kk, X t i = 1) : ∀ᶠ t in 𝓝 t, Near q (T t) (w t) (X t) := by
  have hm : ContinuousAt (fun t => mmw q (X t)) t :=
    tendsto_finsetSum _ fun i hi => (hX i (Finset.mem_range.1 hi)).mul continuousAt_const
  have hb : ContinuousAt (fun t => bMix q (X t)) t :=
    tendsto_finsetSum _ fun i hi => (hX i (Finset.mem_range.1 hi)).mul continuousAt_const
  have e1 := hT.eventually (lt_mem_nhds n.T0)
  have e2 : ∀ᶠ t in 𝓝 t, ∀ i ∈ Finset.range q.kk, 0 < X t i := (eventually_all_finset _).2 fun i hi =>
    (hX i (Finset.mem_range.1 hi)).eventually (lt_mem_nhds (n.X0 i (Finset.mem_range.1 hi)))
  have e3 : ∀ᶠ t in 𝓝 t, ∀ i ∈ Finset.range q.kk, q.small * mmw q (X t) < X t i := (eventually_all_finset _).2 fun i hi =>
    (continuousAt_const.mul hm).eventually_lt (hX i (Finset.mem_range.1 hi)) (n.Xm i (Finset.mem_range.1 hi))
  have e4 := hm.eventually (lt_mem_nhds n.m0)
  have e5 := hw.eventually (lt_mem_nhds n.v0)
  have e6 := (hw.sub hb).eventually (lt_mem_nhds n.vb)
  have e7 := hp.eventually_ne n.p0
  filter_upwards [hs, e1, e2, e3, e4, e5, e6, e7] with t h0 h1 h2 h3 h4 h5 h6 h7
  exact ⟨h1, h0, fun i hi => h2 i (Finset.mem_range.2 hi), fun i hi => h3 i (Finset.mem_range.2 hi), h4, h5, h6, h7⟩

theorem enthalpy_fld {T v : ℝ} {X : ℕ → ℝ} (hR : 0 < q.R) (n : Near q T v X) :
    (fld q).h T v X = enthalpy q T v X := by
  have hT := n.T0.ne'
  rw [Fld.h, Fld.u, L_fld, fld_B, fld_D, fld_D1, pressure_fld, enthalpy, hresid, z, meanX, c_fld]
  have e : ∑ i ∈ Finset.range (fld q).kk, X i * ((fld q).R * T * (fld q).h0 T i - (fld q).R * T) =
      q.R * T * ∑ i ∈ Finset.range q.kk, X i * q.h0 T i - q.R * T := by
    have h : ∑ i ∈ Finset.range (fld q).kk, X i * ((fld q).R * T * (fld q).h0 T i - (fld q).R * T) =
        q.R * T * ∑ i ∈ Finset.range q.kk, X i * q.h0 T i - q.R * T * ∑ i ∈ Finset.range q.kk, X i := by
      rw [Finset.mul_sum, Finset.mul_sum, ← Finset.sum_sub_distrib]
      exact Finset.sum_congr rfl fun i _ => by simp only [fld]; ring
    rw [h, n.sum, mul_one]
  rw [e]
  generalize Real.log _ = l
  generalize 2 * r2 * bMix q X = b
  rw [mul_sub, mul_div_cancel₀ _ (mul_ne_zero hR.ne' hT)]
  ring

theorem sumXlogX_eq {T v : ℝ} {X : ℕ → ℝ} (n : Near q T v X) :
    sumXlogX q X = ∑ i ∈ Finset.range q.kk, X i * Real.log (X i) := by
  rw [sumXlogX, Finset.mul_sum]
  have e : ∀ k ∈ Finset.range q.kk, mmw q X * (X k / mmw q X * Real.log (max (X k / mmw q X) q.small)) =
      X k * Real.log (X k) - X k * Real.log (mmw q X) := by
    intro k hk
    have hm := n.m0
    rw [max_eq_left ((le_div_iff₀ hm).2 (n.Xm k (Finset.mem_range.1 hk)).le),
      Real.log_div (n.X0 k (Finset.mem_range.1 hk)).ne' hm.ne']
    field_simp
  rw [Finset.sum_congr rfl e, Finset.sum_sub_distrib, ← Finset.sum_mul, n.sum]
  ring

theorem entropy_fld {T v : ℝ} {X : ℕ → ℝ} (hR : 0 < q.R) (hP : 0 < q.P0) (n : Near q T v X) :
    (fld q).s T v X = entropy q T v X := by
  have hT := n.T0.ne'; have hv := n.v0.ne'; have hp := n.p0; have hvb := n.vb.ne'
  rw [Fld.s, L_fld, fld_B, fld_D1, entropy, sresid, z, meanX, sumXlogX_eq n, c_fld]
  have e : ∑ i ∈ Finset.range (fld q).kk, X i * ((fld q).R * (fld q).s0 T i -
        (fld q).R * Real.log (X i * ((fld q).R * T) / (v * (fld q).P0))) =
      q.R * (∑ i ∈ Finset.range q.kk, X i * q.s0 T i - ∑ i ∈ Finset.range q.kk, X i * Real.log (X i)) -
        q.R * Real.log (q.R * T / (v * q.P0)) := by
    have : Real.log (q.R * T / (v * q.P0)) = ∑ i ∈ Finset.range q.kk, X i * Real.log (q.R * T / (v * q.P0)) := by
      rw [← Finset.sum_mul, n.sum, one_mul]
    rw [this, ← Finset.sum_sub_distrib, Finset.mul_sum, Finset.mul_sum, ← Finset.sum_sub_distrib]
    refine Finset.sum_congr rfl fun i hi => ?_
    simp only [fld]
    rw [mul_div_assoc, Real.log_mul (n.X0 i (Finset.mem_range.1 hi)).ne' (by have := n.v0; have := n.T0; positivity)]
    ring
  rw [e]
  rw [show pressure q T v X * v / (q.R * T) * (1 - bMix q X / v) = pressure q T v X * (v - bMix q X) / (q.R * T) by
    field_simp]
  rw [Real.log_div (mul_ne_zero hp hvb) (by positivity), Real.log_mul hp hvb, Real.log_div hp hP.ne',
    Real.log_div hvb hv, Real.log_div (by positivity : q.R * T ≠ 0) (by positivity), Real.log_mul hv hP.ne']
  generalize Real.log ((v + (1 + r2) * bMix q X) / (v + (1 - r2) * bMix q X)) = l
  rw [show (fld q).R = q.R from rfl]
  rw [mul_add q.R (_ - _) (_ / q.R), mul_div_cancel₀ _ hR.ne']
  ring

theorem cp_fld {T v : ℝ} {X : ℕ → ℝ} (g : Good q T v X) : (fld q).cp T v X = cpMole q T v X := by
  rw [Fld.cp, Fld.cv, L_fld, fld_B, fld_D2, dpdT_fld, dpdV_fld, cpMole, meanX, c_fld]
  have e : ∑ i ∈ Finset.range (fld q).kk, X i * ((fld q).R * ((fld q).cp0 T i - 1)) =
      q.R * ∑ i ∈ Finset.range q.kk, X i * q.cp0 T i - q.R := by
    have h : ∑ i ∈ Finset.range (fld q).kk, X i * ((fld q).R * ((fld q).cp0 T i - 1)) =
        q.R * ∑ i ∈ Finset.range q.kk, X i * q.cp0 T i - q.R * ∑ i ∈ Finset.range q.kk, X i := by
      rw [Finset.mul_sum, Finset.mul_sum, ← Finset.sum_sub_distrib]
      exact Finset.sum_congr rfl fun i _ => by simp only [fld]; ring
    rw [h, g.sum, mul_one]
  rw [e]
  ring

theorem cv_fld {T v : ℝ} {X : ℕ → ℝ} (g : Good q T v X) : (fld q).cv T v X = cvMole q T v X := by
  rw [cvMole, ← cp_fld g, Fld.cp, dpdT_fld, dpdV_fld]; ring

theorem pn_fld {T v : ℝ} {X : ℕ → ℝ} {k : ℕ} (hk : k < q.kk) (g : Good q T v X) :
    (fld q).pn T v X k = dpdni q T v X k := by
  rw [Fld.pn, Q_fld, fld_B, fld_D, fld_K g hk, dpdni]
  rw [show ((fld q).c1 + (fld q).c2) * v + 2 * (fld q).c1 * (fld q).c2 * bMix q X = 2 * (v - bMix q X) by
    simp only [fld]; linear_combination (-2 * bMix q X) * r2_sq]
  simp only [fld]
  ring

theorem hb_fld {T v : ℝ} {X : ℕ → ℝ} {k : ℕ} (hk : k < q.kk) (g : Good q T v X) :
    (fld q).hb T v X k = pmH q T v X k := by
  rw [Fld.hb, pn_fld hk g, dpdT_fld, dpdV_fld, Fld.uV, Q_fld, L_fld, fld_B, fld_D, fld_D1, fld_K g hk, c_fld]
  simp only [pmH, ← fld_K1 g hk]
  simp only [fld]
  ring

theorem Q_pos {T v : ℝ} {X : ℕ → ℝ} (g : Good q T v X) : 0 < v * v + 2 * v * bMix q X - bMix q X * bMix q X := by
  rw [← Q_fld, Fld.Q]
  exact mul_pos (ok g).dom.p1 (ok g).dom.p2

theorem vb_fld {T v : ℝ} {X : ℕ → ℝ} {k : ℕ} (hk : k < q.kk) (g : Good q T v X) :
    (fld q).vb T v X k = pmV q T v X k := by
  have hv : v ≠ 0 := (near g).v0.ne'
  have e2 := (Q_pos g).ne'
  have e1 := (near g).vb.ne'
  rw [Fld.vb, pn_fld hk g, dpdV_fld, pmV]
  have i1 : q.R * T + q.R * T * bMix q X / (v - bMix q X) + q.R * T * q.b k / (v - bMix q X) +
      q.R * T * bMix q X * q.b k / ((v - bMix q X) * (v - bMix q X)) -
      2 * v * pp q T X k / (v * v + 2 * v * bMix q X - bMix q X * bMix q X) +
      2 * v * (v - bMix q X) * aMix q T X * q.b k / ((v * v + 2 * v * bMix q X - bMix q X * bMix q X) *
        (v * v + 2 * v * bMix q X - bMix q X * bMix q X)) = v * dpdni q T v X k := by
    rw [dpdni]
    generalize hp : v * v + 2 * v * bMix q X - bMix q X * bMix q X = p at *
    generalize hm : v - bMix q X = m at *
    field_simp
    rw [← hm]
    ring
  have i2 : pressure q T v X + q.R * T * bMix q X / ((v - bMix q X) * (v - bMix q X)) +
      aMix q T X / (v * v + 2 * v * bMix q X - bMix q X * bMix q X) -
      2 * v * (v + bMix q X) * aMix q T X / ((v * v + 2 * v * bMix q X - bMix q X * bMix q X) *
        (v * v + 2 * v * bMix q X - bMix q X * bMix q X)) = -(v * dpdV q T v X) := by
    rw [dpdV, pressure]
    generalize hp : v * v + 2 * v * bMix q X - bMix q X * bMix q X = p at *
    generalize hm : v - bMix q X = m at *
    field_simp
    rw [← hm]
    ring
  simp only [i1, i2]
  rw [div_neg, mul_div_mul_left _ _ hv, neg_div]

theorem mu_fld {T v : ℝ} {X : ℕ → ℝ} (k : ℕ) (hk : k < q.kk) (g : Good q T v X) :
    (fld q).mu T v X k = chemPot q T v X k := by
  have hv := (near g).v0
  have hT := g.T0; have hb := (b_pos g).ne'
  have hR := g.R0; have hP := g.P0
  have e1 := (near g).vb
  have hp := g.p0
  rw [Fld.mu, Fld.uV, Fld.sV, Q_fld, L_fld, fld_B, fld_D, fld_D1, fld_K g hk, chemPot, g0, lnPhiRT, c_fld]
  rw [max_eq_right (g.Xs k hk).le]
  rw [show (fld q).R = q.R from rfl, show (fld q).P0 = q.P0 from rfl]
  rw [show X k * (q.R * T) / (v * q.P0) = X k * ((q.R * T) / (v * q.P0)) by ring,
    Real.log_mul (g.X0 k hk).ne' (by positivity),
    show v / (v - bMix q X) = ((v - bMix q X) / v)⁻¹ by rw [inv_div], Real.log_inv,
    Real.log_div (by positivity : q.R * T ≠ 0) (by positivity), Real.log_mul hv.ne' hP.ne',
    Real.log_div hp.ne' hP.ne', Real.log_div (mul_pos hp hv).ne' (by positivity), Real.log_mul hp.ne' hv.ne']
  generalize Real.log ((v + (1 + r2) * bMix q X) / (v + (1 - r2) * bMix q X)) = l
  generalize Real.log ((v - bMix q X) / v) = l1
  have e2 := (Q_pos g).ne'
  have e1' := e1.ne'
  generalize v * v + 2 * v * bMix q X - bMix q X * bMix q X = p at e2
  generalize v - bMix q X = m at e1'
  have := r2_pos.ne'
  simp only [fld]
  field_simp
  ring

theorem sb_fld {T v : ℝ} {X : ℕ → ℝ} (k : ℕ) (hk : k < q.kk) (g : Good q T v X) (hv : dpdV q T v X ≠ 0) :
    (fld q).sb T v X k = pmS q T v X k := by
  have hT := g.T0.ne'
  have h := Fld.mu_eq (f := fld q) (T := T) (v := v) (X := X) k (by rw [dpdV_fld]; exact hv)
  rw [pmS, ← hb_fld hk g, ← mu_fld k hk g, h]
  field_simp
  ring

/-! ### The properties -/

section

variable {T v : ℝ} {X : ℕ → ℝ}

/-- `dpdVCalc` and `calculatePressureDerivatives` return the derivatives of `pressure`. -/
theorem pr_pressure_derivatives (g : Good q T v X) :
    HasDerivAt (fun v => pressure q T v X) (dpdV q T v X) v ∧
    HasDerivAt (fun T => pressure q T v X) (dpdT q T v X) T := by
  have h1 := Fld.p_path (T := fun _ => T) (w := fun v => v) (ok g) (hasDerivAt_const v T) (hasDerivAt_id' v)
  have h2 := Fld.p_path (T := fun T => T) (w := fun _ => v) (ok g) (hasDerivAt_id' T) (hasDerivAt_const T v)
  simp only [pressure_fld, dpdV_fld, dpdT_fld] at h1 h2
  exact ⟨h1.congr_deriv (by ring), h2.congr_deriv (by ring)⟩

theorem near_path (g : Good q T v X) {τ w : ℝ → ℝ} {T' w' t : ℝ} (hT : HasDerivAt τ T' t) (hw : HasDerivAt w w' t)
    (h1 : τ t = T) (h2 : w t = v) : ∀ᶠ t in 𝓝 t, Near q (τ t) (w t) X := by
  subst h1 h2
  refine near_ev (X := fun _ => X) (near g) hT.continuousAt hw.continuousAt (fun _ _ => continuousAt_const) ?_
    (Eventually.of_forall fun _ => g.sum)
  have := (Fld.p_path (ok g) hT hw).continuousAt
  simpa only [pressure_fld] using this

/-- The Helmholtz energy `h - Ts - pv` has derivatives `-p` by volume and `-s` by temperature. -/
theorem pr_helmholtz (g : Good q T v X) :
    HasDerivAt (fun v => enthalpy q T v X - T * entropy q T v X - pressure q T v X * v) (-pressure q T v X) v ∧
    HasDerivAt (fun T => enthalpy q T v X - T * entropy q T v X - pressure q T v X * v) (-entropy q T v X) T := by
  have e : ∀ {T v : ℝ}, Near q T v X → enthalpy q T v X - T * entropy q T v X - pressure q T v X * v =
      (fld q).u T v X - T * (fld q).s T v X := by
    intro T v n
    rw [← enthalpy_fld g.R0 n, ← entropy_fld g.R0 g.P0 n, ← pressure_fld, Fld.h]; ring
  constructor
  · have h1 := Fld.helm_V g.sum (ok g)
    rw [pressure_fld] at h1
    exact h1.congr_of_eventuallyEq ((near_path g (hasDerivAt_const v T) (hasDerivAt_id' v) rfl rfl).mono fun t h => e h)
  · have h1 := Fld.helm_T g.sum (ok g)
    rw [entropy_fld g.R0 g.P0 (near g)] at h1
    exact h1.congr_of_eventuallyEq ((near_path g (hasDerivAt_id' T) (hasDerivAt_const T v) rfl rfl).mono fun t h => e h)

/-- `cv_mole` is the derivative of the internal energy `h - pv` by temperature at constant volume, and `T` times that
of the entropy. -/
theorem pr_cv (g : Good q T v X) :
    HasDerivAt (fun T => enthalpy q T v X - pressure q T v X * v) (cvMole q T v X) T ∧
    HasDerivAt (fun T => entropy q T v X) (cvMole q T v X / T) T := by
  have ev := near_path g (hasDerivAt_id' T) (hasDerivAt_const T v) rfl rfl
  constructor
  · have h1 := Fld.u_path (T := fun T => T) (w := fun _ => v) (ok g) (hasDerivAt_id' T) (hasDerivAt_const T v)
    refine (h1.congr_of_eventuallyEq (ev.mono fun t n => ?_)).congr_deriv (by rw [cv_fld g]; ring)
    simp only [← enthalpy_fld g.R0 n, ← pressure_fld, Fld.h]; ring
  · have h1 := Fld.s_path (T := fun T => T) (w := fun _ => v) g.sum (ok g) (hasDerivAt_id' T) (hasDerivAt_const T v)
    refine (h1.congr_of_eventuallyEq (ev.mono fun t n => ?_)).congr_deriv (by rw [cv_fld g]; ring)
    simp only [← entropy_fld g.R0 g.P0 n]

/-- Along any path of constant pressure, `cp_mole` gives the change of enthalpy and entropy with temperature and
`thermalExpansionCoeff` the relative change of volume. -/
theorem pr_cp {τ w : ℝ → ℝ} {T' w' t : ℝ} (g : Good q (τ t) (w t) X) (hv : dpdV q (τ t) (w t) X ≠ 0)
    (hT : HasDerivAt τ T' t) (hw : HasDerivAt w w' t)
    (hp : HasDerivAt (fun t => pressure q (τ t) (w t) X) 0 t) :
    HasDerivAt (fun t => enthalpy q (τ t) (w t) X) (cpMole q (τ t) (w t) X * T') t ∧
    HasDerivAt (fun t => entropy q (τ t) (w t) X) (cpMole q (τ t) (w t) X / τ t * T') t ∧
    w' / w t = beta q (τ t) (w t) X * T' := by
  have ev := near_path g hT hw rfl rfl
  have hp' : HasDerivAt (fun t => (fld q).p (τ t) (w t) X) 0 t := by simpa only [pressure_fld] using hp
  obtain ⟨h1, h2, h3⟩ := Fld.isobar g.sum (ok g) (by rwa [dpdV_fld]) hT hw hp'
  rw [cp_fld g] at h2 h3
  refine ⟨h2.congr_of_eventuallyEq (ev.mono fun t n => (enthalpy_fld g.R0 n).symm),
    h3.congr_of_eventuallyEq (ev.mono fun t n => (entropy_fld g.R0 g.P0 n).symm), ?_⟩
  have hv0 := (near g).v0.ne'
  rw [h1, dpdT_fld, dpdV_fld, beta]
  field_simp

/-- `isothermalCompressibility` is the relative decrease of volume with pressure at constant temperature. -/
theorem pr_compressibility {w : ℝ → ℝ} {w' t : ℝ} (g : Good q T (w t) X)
    (hw : HasDerivAt w w' t) (hp : HasDerivAt (fun t => pressure q T (w t) X) 1 t) :
    -w' / w t = kappaT q T (w t) X := by
  have h1 := (Fld.p_path (T := fun _ => T) (ok g) (hasDerivAt_const t T) hw)
  simp only [pressure_fld] at h1
  have h2 := h1.unique hp
  rw [dpdV_fld] at h2
  have hv : dpdV q T (w t) X ≠ 0 := by
    intro h; rw [h] at h2; simp at h2
  have hv0 := (near g).v0.ne'
  rw [kappaT]
  field_simp
  linarith

/-- The square of `soundSpeed` is the change of pressure with mass density along any path of constant entropy. -/
theorem pr_sound {τ w : ℝ → ℝ} {T' w' t : ℝ} (g : Good q (τ t) (w t) X) (hv : dpdV q (τ t) (w t) X < 0)
    (hc : 0 < cvMole q (τ t) (w t) X) (hcp : 0 ≤ cpMole q (τ t) (w t) X)
    (hT : HasDerivAt τ T' t) (hw : HasDerivAt w w' t) (hs : HasDerivAt (fun t => entropy q (τ t) (w t) X) 0 t)
    {p' ρ' : ℝ} (hp : HasDerivAt (fun t => pressure q (τ t) (w t) X) p' t)
    (hρ : HasDerivAt (fun t => (∑ i ∈ Finset.range q.kk, X i * q.W i) / w t) ρ' t) :
    p' = sound q (τ t) (w t) X ^ 2 * ρ' := by
  have ev := near_path g hT hw rfl rfl
  have hm := (near g).m0
  have hv0 := (near g).v0
  have hs' := hs.congr_of_eventuallyEq (ev.mono fun t n => entropy_fld g.R0 g.P0 n)
  have h1 := Fld.isentrope g.sum (ok g) (by rw [dpdV_fld]; exact hv.ne) (by rw [cv_fld g]; exact hc.ne') hT hw hs'
  simp only [pressure_fld, cp_fld g, cv_fld g, dpdV_fld] at h1
  have e1 := h1.unique hp
  have e2 := ((hasDerivAt_const t (mmw q X)).div hw hv0.ne').unique hρ
  rw [sound, mul_pow, Real.sq_sqrt, ← e1, ← e2]
  · field_simp; ring
  · have : -cpMole q (τ t) (w t) X / cvMole q (τ t) (w t) X * dpdV q (τ t) (w t) X / mmw q X =
      cpMole q (τ t) (w t) X * -dpdV q (τ t) (w t) X / (cvMole q (τ t) (w t) X * mmw q X) := by
      field_simp
    rw [this]
    exact div_nonneg (mul_nonneg hcp (by linarith)) (mul_pos hc hm).le

end

/-- Mole fractions of a mixture of `n` moles sum to one. -/
theorem sum_frac {n : ℕ → ℝ} {kk : ℕ} (h : tot kk n ≠ 0) : ∑ i ∈ Finset.range kk, frac kk n i = 1 := by
  simp only [frac, ← Finset.sum_div]; exact div_self h

theorem near_n {T : ℝ} {n : ℕ → ℝ} {k : ℕ} (hk : k < q.kk) {V : ℝ → ℝ} {V' : ℝ} (hN : 0 < tot q.kk n)
    (g : Good q T (V (n k) / tot q.kk n) (frac q.kk n)) (hV : HasDerivAt V V' (n k)) :
    ∀ᶠ t in 𝓝 (n k), Near q T (V t / tot q.kk (Function.update n k t)) (frac q.kk (Function.update n k t)) := by
  have ht := Fld.tot_deriv q.kk n k hk
  have hne : tot q.kk (Function.update n k (n k)) ≠ 0 := by rw [Function.update_eq_self]; exact hN.ne'
  refine near_ev (T := fun _ => T) (w := fun t => V t / tot q.kk (Function.update n k t))
    (X := fun t => frac q.kk (Function.update n k t)) ?_ continuousAt_const
    (hV.continuousAt.div ht.continuousAt hne) ?_ ?_ ?_
  · simpa only [Function.update_eq_self] using near g
  · intro i hi
    exact ((hasDerivAt_coord n k i).continuousAt).div ht.continuousAt hne
  · have := (Fld.p_n (f := fld q) hk hN (ok g) hV).continuousAt
    simpa only [pressure_fld, fld_kk] using this
  · exact (Fld.tot_ev hk hN).mono fun t h => sum_frac h

/-- `getChemPotentials` are the derivatives of the Helmholtz energy of the mixture by mole numbers at constant
temperature and total volume. -/
theorem pr_chemical_potential {T V : ℝ} {n : ℕ → ℝ} {k : ℕ} (hk : k < q.kk) (hN : 0 < tot q.kk n)
    (g : Good q T (V / tot q.kk n) (frac q.kk n)) :
    HasDerivAt (fun t =>
      let N := tot q.kk (Function.update n k t)
      let X := frac q.kk (Function.update n k t)
      N * (enthalpy q T (V / N) X - T * entropy q T (V / N) X - pressure q T (V / N) X * (V / N)))
      (chemPot q T (V / tot q.kk n) (frac q.kk n) k) (n k) := by
  have h1 := Fld.helm_n (f := fld q) hk hN (ok g)
  simp only [fld_kk] at h1
  rw [mu_fld k hk g] at h1
  refine h1.congr_of_eventuallyEq ((near_n (V := fun _ => V) hk hN g (hasDerivAt_const (n k) V)).mono fun t m => ?_)
  simp only [← enthalpy_fld g.R0 m, ← entropy_fld g.R0 g.P0 m, ← pressure_fld, Fld.h]
  ring

/-- Partial molar volumes, enthalpies, entropies and internal energies are the derivatives of the total quantities by
the amount of a species at constant temperature and pressure. -/
theorem pr_partial_molar {T : ℝ} {n : ℕ → ℝ} {k : ℕ} (hk : k < q.kk) (hN : 0 < tot q.kk n) {V : ℝ → ℝ} {V' : ℝ}
    (g : Good q T (V (n k) / tot q.kk n) (frac q.kk n)) (hv : dpdV q T (V (n k) / tot q.kk n) (frac q.kk n) ≠ 0)
    (hV : HasDerivAt V V' (n k))
    (hp : HasDerivAt (fun t => pressure q T (V t / tot q.kk (Function.update n k t))
      (frac q.kk (Function.update n k t))) 0 (n k)) :
    V' = pmV q T (V (n k) / tot q.kk n) (frac q.kk n) k ∧
    HasDerivAt (fun t => tot q.kk (Function.update n k t) *
      enthalpy q T (V t / tot q.kk (Function.update n k t)) (frac q.kk (Function.update n k t)))
      (pmH q T (V (n k) / tot q.kk n) (frac q.kk n) k) (n k) ∧
    HasDerivAt (fun t => tot q.kk (Function.update n k t) *
      entropy q T (V t / tot q.kk (Function.update n k t)) (frac q.kk (Function.update n k t)))
      (pmS q T (V (n k) / tot q.kk n) (frac q.kk n) k) (n k) ∧
    pmU q T (V (n k) / tot q.kk n) (frac q.kk n) k = pmH q T (V (n k) / tot q.kk n) (frac q.kk n) k -
      pressure q T (V (n k) / tot q.kk n) (frac q.kk n) * V' := by
  have hp' : HasDerivAt (fun t => (fld q).p T (V t / tot (fld q).kk (Function.update n k t))
      (frac (fld q).kk (Function.update n k t))) 0 (n k) := by simpa only [pressure_fld, fld_kk] using hp
  obtain ⟨h1, h2, h3⟩ := Fld.partial_n (f := fld q) hk hN (ok g) (by rw [dpdV_fld]; exact hv) hV hp'
  simp only [fld_kk] at h1 h2 h3
  rw [vb_fld hk g] at h1
  rw [hb_fld hk g] at h2
  rw [sb_fld k hk g hv] at h3
  have ev := near_n hk hN g hV
  refine ⟨h1, h2.congr_of_eventuallyEq (ev.mono fun t m => ?_), h3.congr_of_eventuallyEq (ev.mono fun t m => ?_), ?_⟩
  · simp only [← enthalpy_fld g.R0 m]
  · simp only [← entropy_fld g.R0 g.P0 m]
  · rw [pmU, h1]

/-- Sums weighted with mole fractions give the mixture values; chemical potentials are `h - Ts` of the partial molar
quantities and the standard ones plus `RT ln(x γ)`. -/
theorem pr_sums {T v : ℝ} {X : ℕ → ℝ} (g : Good q T v X) (hv : dpdV q T v X ≠ 0) :
    ∑ k ∈ Finset.range q.kk, X k * pmV q T v X k = v ∧
    ∑ k ∈ Finset.range q.kk, X k * pmH q T v X k = enthalpy q T v X ∧
    ∑ k ∈ Finset.range q.kk, X k * pmS q T v X k = entropy q T v X ∧
    ∑ k ∈ Finset.range q.kk, X k * chemPot q T v X k = enthalpy q T v X - T * entropy q T v X ∧
    ∀ k < q.kk, chemPot q T v X k = pmH q T v X k - T * pmS q T v X k ∧
      chemPot q T v X k = stdChemPot q T v X k + q.R * T * Real.log (X k * actCoeff q T v X k) := by
  obtain ⟨h1, h2, h3, h4⟩ := Fld.euler (f := fld q) g.sum (ok g) (by rw [dpdV_fld]; exact hv)
  rw [enthalpy_fld g.R0 (near g)] at h2 h4
  rw [entropy_fld g.R0 g.P0 (near g)] at h3 h4
  refine ⟨?_, ?_, ?_, ?_, fun k hk => ⟨?_, ?_⟩⟩
  · exact (Finset.sum_congr rfl fun k hk => by rw [vb_fld (Finset.mem_range.1 hk) g]).trans h1
  · rw [← h2]; exact Finset.sum_congr rfl fun k hk => by rw [hb_fld (Finset.mem_range.1 hk) g]
  · rw [← h3]; exact Finset.sum_congr rfl fun k hk => by rw [sb_fld k (Finset.mem_range.1 hk) g hv]
  · rw [← h4]; exact Finset.sum_congr rfl fun k hk => by rw [mu_fld k (Finset.mem_range.1 hk) g]
  · rw [← mu_fld k hk g, ← hb_fld hk g, ← sb_fld k hk g hv]
    exact Fld.mu_eq k (by rw [dpdV_fld]; exact hv)
  · have := g.R0; have := g.T0
    rw [chemPot, stdChemPot, actCoeff, max_eq_right (g.Xs k hk).le, Real.log_mul (g.X0 k hk).ne' (Real.exp_ne_zero _),
      Real.log_exp]
    field_simp
    ring

/-- At low density the residual enthalpy and entropy and the logarithms of the activity coefficients vanish. -/
theorem pr_ideal_limit {T : ℝ} (X : ℕ → ℝ) (k : ℕ) (hR : 0 < q.R) (hT : 0 < T) :
    Tendsto (fun v => hresid q T v X) atTop (𝓝 0) ∧ Tendsto (fun v => sresid q T v X) atTop (𝓝 0) ∧
    Tendsto (fun v => actCoeff q T v X k) atTop (𝓝 1) := by
  have hRT : q.R * T ≠ 0 := by positivity
  have hv : Tendsto (fun v : ℝ => v) atTop atTop := tendsto_id
  have i0 : ∀ c : ℝ, Tendsto (fun v : ℝ => c / v) atTop (𝓝 0) := fun c => hv.const_div_atTop _
  have hp : ∀ c : ℝ, Tendsto (fun v : ℝ => v + c) atTop atTop := fun c => tendsto_atTop_add_const_right _ _ hv
  have hm : Tendsto (fun v : ℝ => v - bMix q X) atTop atTop := by
    simpa only [sub_eq_add_neg] using hp (-bMix q X)
  have i1 : ∀ c : ℝ, Tendsto (fun v : ℝ => 1 + c / v) atTop (𝓝 1) := fun c => by simpa using (i0 c).const_add 1
  have i1' : Tendsto (fun v : ℝ => 1 - bMix q X / v) atTop (𝓝 1) := by simpa using (i0 (bMix q X)).const_sub 1
  have hq : Tendsto (fun v : ℝ => v * v + 2 * v * bMix q X - bMix q X * bMix q X) atTop atTop := by
    have h1 : Tendsto (fun v : ℝ => v * (v + 2 * bMix q X)) atTop atTop := hv.atTop_mul_atTop₀ (hp _)
    have h2 := tendsto_atTop_add_const_right atTop (-(bMix q X * bMix q X)) h1
    refine h2.congr fun v => ?_
    ring
  have hqv : Tendsto (fun v : ℝ => v / (v * v + 2 * v * bMix q X - bMix q X * bMix q X)) atTop (𝓝 0) := by
    have h1 : Tendsto (fun v : ℝ => v + 2 * bMix q X - bMix q X * bMix q X / v) atTop atTop := by
      have := (hp (2 * bMix q X)).atTop_add ((i0 (bMix q X * bMix q X)).neg)
      simpa only [sub_eq_add_neg] using this
    refine (h1.const_div_atTop 1).congr' ((hv.eventually_gt_atTop 0).mono fun v h => ?_)
    beta_reduce
    rw [show v * v + 2 * v * bMix q X - bMix q X * bMix q X = v * (v + 2 * bMix q X - bMix q X * bMix q X / v) by
      field_simp]
    rw [← div_div, div_self h.ne']
  have hev : ∀ᶠ v : ℝ in atTop, 0 < v ∧ 0 < v - bMix q X :=
    (hv.eventually_gt_atTop 0).and (hm.eventually_gt_atTop 0)
  have iz : Tendsto (fun v => z q T v X) atTop (𝓝 1) := by
    have h1 := (i1'.inv₀ one_ne_zero).sub (hqv.const_mul (aMix q T X / (q.R * T)))
    rw [inv_one, mul_zero, sub_zero] at h1
    refine h1.congr' (hev.mono fun v h => ?_)
    obtain ⟨h2, h3⟩ := h
    simp only [z, pressure]
    rw [show 1 - bMix q X / v = (v - bMix q X) / v by field_simp]
    have h2' := h2.ne'; have h3' := h3.ne'
    generalize v - bMix q X = m at h3'
    generalize v * v + 2 * v * bMix q X - bMix q X * bMix q X = d
    rw [inv_div, sub_mul, sub_div]
    congr 1
    · field_simp
    · rw [div_mul_div_comm, div_mul_eq_mul_div, div_div, mul_comm d]
  have il : Tendsto (fun v : ℝ => Real.log ((v + (1 + r2) * bMix q X) / (v + (1 - r2) * bMix q X))) atTop (𝓝 0) := by
    have := ((i1 ((1 + r2) * bMix q X)).div (i1 ((1 - r2) * bMix q X)) one_ne_zero).log (by norm_num)
    rw [div_one, Real.log_one] at this
    refine this.congr' (hev.mono fun v h => ?_)
    have h1 := h.1.ne'
    simp only [Pi.div_apply]
    congr 1
    rw [show 1 + (1 + r2) * bMix q X / v = (v + (1 + r2) * bMix q X) / v by field_simp,
      show 1 + (1 - r2) * bMix q X / v = (v + (1 - r2) * bMix q X) / v by field_simp, div_div_div_cancel_right₀ h1]
  have im : Tendsto (fun v : ℝ => Real.log (v / (v - bMix q X))) atTop (𝓝 0) := by
    have := (i1'.inv₀ one_ne_zero).log (by norm_num)
    rw [inv_one, Real.log_one] at this
    refine this.congr' (hev.mono fun v h => ?_)
    have h1 := h.1.ne'
    rw [show 1 - bMix q X / v = (v - bMix q X) / v by field_simp, inv_div]
  refine ⟨?_, ?_, ?_⟩
  · have := ((iz.sub_const 1).const_mul (q.R * T)).add
      ((il.const_mul (1 / (2 * r2 * bMix q X))).mul_const (T * daMix q T X - aMix q T X))
    simpa only [sub_self, mul_zero, zero_mul, add_zero, hresid] using this
  · have := (((iz.mul i1').log (by norm_num)).add ((il.const_mul (daMix q T X / (2 * r2 * bMix q X))).div_const
      q.R)).const_mul q.R
    simpa only [mul_one, Real.log_one, zero_mul, zero_div, add_zero, mul_zero, sresid] using this
  · have h1 := (iz.log one_ne_zero).const_mul (-(q.R * T))
    have h2 := im.const_mul (q.R * T)
    have h3 : Tendsto (fun v => q.R * T * q.b k / (v - bMix q X)) atTop (𝓝 0) := hm.const_div_atTop _
    have h4 := il.const_mul ((2 * bMix q X * pp q T X k - aMix q T X * q.b k) / (2 * r2 * bMix q X * bMix q X))
    have h5 := hqv.const_mul (aMix q T X * q.b k / bMix q X)
    have h5' : Tendsto (fun v : ℝ => aMix q T X * q.b k * v /
        (bMix q X * (v * v + 2 * v * bMix q X - bMix q X * bMix q X))) atTop (𝓝 0) := by
      rw [mul_zero] at h5
      refine h5.congr fun v => ?_
      rw [div_mul_div_comm]
    have h7 := (((((h1.add h2).add h3).sub h4).sub h5').div_const (q.R * T)).rexp
    simp only [Real.log_one, mul_zero, add_zero, sub_zero, zero_div, Real.exp_zero] at h7
    exact h7

/-! ### The hypotheses can be met -/

/-- Two species. -/
noncomputable def demo : Par where
  kk := 2
  R := 1
  P0 := 1
  small := 1 / 1000
  oa := 1
  ob := 1
  W _ := 1
  a i j := if i = j then (if i = 0 then 1 / 10 else 2 / 10) else 3 / 20
  b i := if i = 0 then 1 / 10 else 2 / 10
  kap _ := 1 / 2
  h0 _ _ := 5 / 2
  s0 T _ := 5 / 2 * Real.log T
  cp0 _ _ := 5 / 2

theorem demo_root (i : ℕ) : Real.sqrt (1 / critT demo (demo.a i i) (demo.b i)) = 1 := by
  have : critT demo (demo.a i i) (demo.b i) = 1 := by
    by_cases h : i = 0
    · simp [critT, demo, h]; norm_num
    · simp [critT, demo, h]; norm_num
  rw [this]; norm_num

theorem demo_alpha (i : ℕ) : alpha demo 1 i = 1 := by
  rw [alpha, demo_root]; norm_num

theorem demo_aMix : aMix demo 1 (fun _ => 1 / 2) = 3 / 20 := by
  simp only [aMix, aAb, demo_alpha]
  simp [demo, Finset.sum_range_succ]
  norm_num

theorem demo_bMix : bMix demo (fun _ => 1 / 2) = 3 / 20 := by
  simp [bMix, demo, Finset.sum_range_succ]
  norm_num

theorem demo_dpdV : dpdV demo 1 1 (fun _ => 1 / 2) < 0 := by
  simp only [dpdV, demo_bMix, demo_aMix]
  norm_num [demo]

theorem demo_good : Good demo 1 1 (fun _ => 1 / 2) where
  R0 := by norm_num [demo]
  P0 := by norm_num [demo]
  T0 := by norm_num
  oa0 := by norm_num [demo]
  ob0 := by norm_num [demo]
  sum := by norm_num [demo]
  W0 := by intro i _; norm_num [demo]
  X0 := by intro i _; norm_num
  Xs := by intro i _; norm_num [demo]
  Xm := by intro i _; norm_num [demo]
  a0 := by intro i _; simp only [demo]; split_ifs <;> norm_num
  b0 := by intro i _; simp only [demo]; split_ifs <;> norm_num
  al := by
    intro i hi
    have h : i = 0 ∨ i = 1 := by simp only [demo] at hi; omega
    rcases h with rfl | rfl <;> norm_num [demo]
  vb := by
    have := demo_bMix
    rw [bMix] at this
    rw [this]; norm_num
  p0 := by
    simp only [pressure, demo_bMix, demo_aMix]
    norm_num [demo]
  sym := by
    intro i hi j hj
    by_cases h : i = j
    · rw [h]
    · simp only [demo, h, Ne.symm h, if_false]
  hh := by
    intro i _
    simp only [demo]
    simpa using ((hasDerivAt_id' (1 : ℝ)).const_mul (1 : ℝ)).mul_const (5 / 2 : ℝ)
  hs := by
    intro i _
    simp only [demo]
    exact ((Real.hasDerivAt_log one_ne_zero).const_mul (5 / 2 : ℝ)).congr_deriv (by norm_num)

theorem demo_good_n : Good demo 1 (1 / tot demo.kk (fun _ => 1 / 2)) (frac demo.kk (fun _ => 1 / 2)) := by
  have h : tot demo.kk (fun _ => 1 / 2) = 1 := by norm_num [tot, demo]
  have h2 : frac demo.kk (fun _ => 1 / 2) = fun _ => (1 / 2 : ℝ) := by
    funext i; rw [frac, h, div_one]
  rw [h2, h, div_one]
  exact demo_good

example := pr_pressure_derivatives demo_good

example := pr_helmholtz demo_good

example := pr_cv demo_good

/-- There is a path of constant pressure with increasing temperature. -/
theorem demo_isobar : ∃ w' : ℝ, HasDerivAt (fun t : ℝ => pressure demo (1 + t) (1 + w' * t) (fun _ => 1 / 2)) 0 0 := by
  refine ⟨-(dpdT demo 1 1 (fun _ => 1 / 2) / dpdV demo 1 1 (fun _ => 1 / 2)), ?_⟩
  generalize hw : -(dpdT demo 1 1 (fun _ => 1 / 2) / dpdV demo 1 1 (fun _ => 1 / 2)) = w'
  have g : Good demo ((fun t : ℝ => 1 + t) 0) ((fun t : ℝ => 1 + w' * t) 0) (fun _ => 1 / 2) := by
    simpa using demo_good
  have h := Fld.p_path (ok g) ((hasDerivAt_id' 0).const_add 1) (((hasDerivAt_id' 0).const_mul w').const_add 1)
  simp only [pressure_fld, dpdV_fld, dpdT_fld] at h
  refine h.congr_deriv ?_
  have := demo_dpdV.ne
  simp only [add_zero, mul_zero, ← hw]
  field_simp
  ring

example : ∃ w : ℝ → ℝ,
    HasDerivAt (fun t => enthalpy demo (1 + t) (w t) (fun _ => 1 / 2)) (cpMole demo 1 1 (fun _ => 1 / 2)) 0 := by
  obtain ⟨w', h⟩ := demo_isobar
  refine ⟨fun t => 1 + w' * t, ?_⟩
  have := (pr_cp (q := demo) (X := fun _ => 1 / 2) (τ := fun t => 1 + t) (w := fun t => 1 + w' * t) (t := 0)
    (by simpa using demo_good) (by simpa using demo_dpdV.ne) ((hasDerivAt_id' 0).const_add 1)
    (((hasDerivAt_id' 0).const_mul w').const_add 1) h).1
  simpa using this

example : HasDerivAt (fun t =>
      let N := tot demo.kk (Function.update (fun _ => 1 / 2) 0 t)
      let X := frac demo.kk (Function.update (fun _ => 1 / 2) 0 t)
      N * (enthalpy demo 1 (1 / N) X - 1 * entropy demo 1 (1 / N) X - pressure demo 1 (1 / N) X * (1 / N)))
      (chemPot demo 1 (1 / tot demo.kk (fun _ => 1 / 2)) (frac demo.kk (fun _ => 1 / 2)) 0) (1 / 2) :=
  pr_chemical_potential (q := demo) (n := fun _ => 1 / 2) (by norm_num [demo]) (by norm_num [tot, demo]) demo_good_n

example := pr_sums demo_good demo_dpdV.ne

example := pr_ideal_limit (q := demo) (T := 1) (fun _ => 1 / 2) 0 (by norm_num [demo]) (by norm_num)

/-- The pressure is the one of the Peng-Robinson equation with the quadratic mixing rule and the attraction of every
species scaled by `(1 + κ (1 - √(T/Tc)))²`. -/
theorem pr_pressure_explicit {q : Par} {T v : ℝ} {X : ℕ → ℝ} (g : Good q T v X) :
    pressure q T v X = q.R * T / (v - ∑ i ∈ Finset.range q.kk, X i * q.b i) -
      (∑ i ∈ Finset.range q.kk, ∑ j ∈ Finset.range q.kk, X i * X j * q.a i j *
        (|1 + q.kap i * (1 - Real.sqrt (T / (q.a i i * q.ob / (q.b i * q.oa * q.R))))| *
          |1 + q.kap j * (1 - Real.sqrt (T / (q.a j j * q.ob / (q.b j * q.oa * q.R))))|)) /
      (v ^ 2 + 2 * v * (∑ i ∈ Finset.range q.kk, X i * q.b i) - (∑ i ∈ Finset.range q.kk, X i * q.b i) ^ 2) := by
  have e : aMix q T X = ∑ i ∈ Finset.range q.kk, ∑ j ∈ Finset.range q.kk, X i * X j * q.a i j *
        (|1 + q.kap i * (1 - Real.sqrt (T / (q.a i i * q.ob / (q.b i * q.oa * q.R))))| *
          |1 + q.kap j * (1 - Real.sqrt (T / (q.a j j * q.ob / (q.b j * q.oa * q.R))))|) := by
    rw [aMix]
    refine Finset.sum_congr rfl fun i hi => Finset.sum_congr rfl fun j hj => ?_
    rw [Finset.mem_range] at hi hj
    rw [aAb, alpha, alpha, critT_eq g hi, critT_eq g hj]
    rw [Real.sqrt_mul (mul_self_nonneg _), Real.sqrt_mul_self_eq_abs, Real.sqrt_mul_self_eq_abs]
    ring
  rw [pressure, e, bMix, pow_two, pow_two]

/-- At its critical temperature the attraction of a species is the tabulated coefficient. -/
theorem pr_alpha_critical {q : Par} {T v : ℝ} {X : ℕ → ℝ} (g : Good q T v X) {k : ℕ} (hk : k < q.kk) :
    alpha q (q.a k k * q.ob / (q.b k * q.oa * q.R)) k = 1 := by
  have h := critT_pos g hk
  rw [critT_eq g hk] at h
  rw [alpha, critT_eq g hk]
  rw [div_self h.ne', Real.sqrt_one]; ring

example := pr_pressure_explicit demo_good

example := pr_alpha_critical demo_good (k := 1) (by norm_num [demo])

end Verif.Fluid.PR
