import Verif.Fluid.CubicMix
import Verif.Fluid.RedlichKwong
import Mathlib.Analysis.SpecialFunctions.Sqrt

/-!
# C65: thermodynamic consistency of Redlich-Kwong mixtures
-/

namespace Verif.Fluid.RK

open Verif Verif.Thermo Filter Topology

/-- The same fluid in the general form of `CubicMix`. -/
noncomputable def fld (q : Par) : Fld where
  kk := q.kk
  R := q.R
  P0 := q.P0
  c1 := 1
  c2 := 0
  b := q.b
  d T i j := aVec q T (i * q.kk + j) / Real.sqrt T
  d1 T i j := (q.a1 (i * q.kk + j) - aVec q T (i * q.kk + j) / (2 * T)) / Real.sqrt T
  d2 T i j := (-(q.a1 (i * q.kk + j) / T) + 3 / 4 * aVec q T (i * q.kk + j) / T ^ 2) / Real.sqrt T
  h0 := q.h0
  s0 := q.s0
  cp0 := q.cp0

/-- Regular states: positive temperature, composition, covolume and pressure, volume above the covolume, no mole
fraction cut off at `SmallNumber`; symmetric tables; reference state functions belonging together. -/
structure Good (q : Par) (T v : ℝ) (X : ℕ → ℝ) : Prop where
  R0 : 0 < q.R
  P0 : 0 < q.P0
  T0 : 0 < T
  sum : ∑ i ∈ Finset.range q.kk, X i = 1
  W0 : ∀ i < q.kk, 0 < q.W i
  X0 : ∀ i < q.kk, 0 < X i
  Xs : ∀ i < q.kk, q.small < X i
  Xm : ∀ i < q.kk, q.small * (∑ j ∈ Finset.range q.kk, X j * q.W j) < X i
  b0 : 0 < ∑ i ∈ Finset.range q.kk, X i * q.b i
  vb : ∑ i ∈ Finset.range q.kk, X i * q.b i < v
  p0 : 0 < pressure q T v X
  sym0 : ∀ i < q.kk, ∀ j < q.kk, q.a0 (i * q.kk + j) = q.a0 (j * q.kk + i)
  sym1 : ∀ i < q.kk, ∀ j < q.kk, q.a1 (i * q.kk + j) = q.a1 (j * q.kk + i)
  tp : q.tp = false → ∀ i < q.kk, ∀ j < q.kk, q.a1 (i * q.kk + j) = 0
  hh : ∀ i < q.kk, HasDerivAt (fun T => q.R * T * q.h0 T i) (q.R * q.cp0 T i) T
  hs : ∀ i < q.kk, HasDerivAt (fun T => q.s0 T i) (q.cp0 T i / T) T

variable {q : Par}

theorem fld_kk : (fld q).kk = q.kk := rfl

theorem fld_B (X : ℕ → ℝ) : (fld q).B X = bCur q X := rfl

theorem fld_D (T : ℝ) (X : ℕ → ℝ) : (fld q).D T X = aCur q T X / Real.sqrt T := by
  simp only [Fld.D, mixD, aCur, Finset.sum_div, fld]
  exact Finset.sum_congr rfl fun i _ => Finset.sum_congr rfl fun j _ => by ring

theorem dadt_eq {X : ℕ → ℝ} (h : q.tp = false → ∀ i < q.kk, ∀ j < q.kk, q.a1 (i * q.kk + j) = 0) :
    dadt q X = mixD q.kk (fun i j => q.a1 (i * q.kk + j)) X := by
  rw [dadt, mixD]
  by_cases e : q.tp = true
  · rw [if_pos e]
  · rw [if_neg e]
    symm
    refine Finset.sum_eq_zero fun i hi => Finset.sum_eq_zero fun j hj => ?_
    rw [h (by simpa using e) i (Finset.mem_range.1 hi) j (Finset.mem_range.1 hj)]; ring

theorem fld_D1 {T : ℝ} {X : ℕ → ℝ} (h : q.tp = false → ∀ i < q.kk, ∀ j < q.kk, q.a1 (i * q.kk + j) = 0) :
    (fld q).D1 T X = (dadt q X - aCur q T X / (2 * T)) / Real.sqrt T := by
  rw [dadt_eq h]
  simp only [Fld.D1, mixD, aCur, Finset.sum_div, fld, ← Finset.sum_sub_distrib]
  exact Finset.sum_congr rfl fun i _ => Finset.sum_congr rfl fun j _ => by ring

theorem fld_D2 {T : ℝ} {X : ℕ → ℝ} (h : q.tp = false → ∀ i < q.kk, ∀ j < q.kk, q.a1 (i * q.kk + j) = 0) :
    (fld q).D2 T X = (-(dadt q X / T) + 3 / 4 * aCur q T X / T ^ 2) / Real.sqrt T := by
  rw [dadt_eq h]
  simp only [Fld.D2, mixD, aCur, Finset.sum_div, Finset.mul_sum, fld, ← Finset.sum_add_distrib, ← Finset.sum_neg_distrib]
  exact Finset.sum_congr rfl fun i _ => Finset.sum_congr rfl fun j _ => by ring

theorem aVec_sym {T v : ℝ} {X : ℕ → ℝ} (g : Good q T v X) (T1 : ℝ) : ∀ i < q.kk, ∀ j < q.kk,
    aVec q T1 (i * q.kk + j) = aVec q T1 (j * q.kk + i) := by
  intro i hi j hj
  rw [aVec, aVec, g.sym0 i hi j hj, g.sym1 i hi j hj]

theorem fld_K (T : ℝ) (X : ℕ → ℝ) (k : ℕ) : (fld q).K T X k = pp q T X k / Real.sqrt T := by
  simp only [Fld.K, mixK, pp, Finset.sum_div, fld]
  exact Finset.sum_congr rfl fun i _ => by rw [add_comm k, mul_comm q.kk]; ring

/-- `m_workS[k]` of the entropies. -/
noncomputable def pp1 (q : Par) (X : ℕ → ℝ) (k : ℕ) : ℝ := ∑ i ∈ Finset.range q.kk, X i * q.a1 (k + q.kk * i)

theorem fld_K1 (T : ℝ) (X : ℕ → ℝ) (k : ℕ) :
    (fld q).K1 T X k = (pp1 q X k - pp q T X k / (2 * T)) / Real.sqrt T := by
  simp only [Fld.K1, mixK, pp, pp1, Finset.sum_div, fld, ← Finset.sum_sub_distrib]
  exact Finset.sum_congr rfl fun i _ => by rw [add_comm k, mul_comm q.kk]; ring

theorem sqrt_deriv {T : ℝ} (hT : 0 < T) (u : ℝ → ℝ) (u' : ℝ) (h : HasDerivAt u u' T) :
    HasDerivAt (fun T => u T / Real.sqrt T) ((u' - u T / (2 * T)) / Real.sqrt T) T := by
  have hs := Real.sqrt_pos.2 hT
  refine (h.div (Real.hasDerivAt_sqrt hT.ne') hs.ne').congr_deriv ?_
  have e : T = Real.sqrt T * Real.sqrt T := (Real.mul_self_sqrt hT.le).symm
  have e2 : u T / (2 * T) = u T / (2 * (Real.sqrt T * Real.sqrt T)) := by rw [← e]
  rw [e2]
  field_simp

theorem aVec_deriv {T v : ℝ} {X : ℕ → ℝ} (g : Good q T v X) {i j : ℕ} (hi : i < q.kk) (hj : j < q.kk) (T : ℝ) :
    HasDerivAt (fun T => aVec q T (i * q.kk + j)) (q.a1 (i * q.kk + j)) T := by
  by_cases e : q.tp = true
  · simp only [aVec, e, if_true]
    simpa using ((hasDerivAt_id' T).const_mul (q.a1 (i * q.kk + j))).const_add (q.a0 (i * q.kk + j))
  · rw [g.tp (by simpa using e) i hi j hj]
    simp only [aVec, e]
    exact hasDerivAt_const _ _

theorem ok {T v : ℝ} {X : ℕ → ℝ} (g : Good q T v X) : (fld q).Ok T v X where
  R0 := g.R0
  P0 := g.P0
  T0 := g.T0
  X0 := g.X0
  dom := by
    have h1 := g.b0; have h2 := g.vb
    rw [fld_B]
    change 0 < bCur q X at h1
    change bCur q X < v at h2
    exact ⟨by linarith, h1.ne', by linarith, by simp only [fld]; linarith, by simp only [fld]; linarith,
      by simp only [fld]; norm_num⟩
  sym := fun i hi j hj => by simp only [fld]; rw [aVec_sym g T i hi j hj]
  sym1 := fun i hi j hj => by simp only [fld]; rw [aVec_sym g T i hi j hj, g.sym1 i hi j hj]
  hd := fun i hi j hj => sqrt_deriv g.T0 _ _ (aVec_deriv g hi hj T)
  hd1 := fun i hi j hj => by
    have hT := g.T0.ne'
    refine (sqrt_deriv g.T0 (fun T => q.a1 (i * q.kk + j) - aVec q T (i * q.kk + j) / (2 * T)) _
      (((aVec_deriv g hi hj T).div ((hasDerivAt_id' T).const_mul 2) (by simpa using hT)).const_sub _)).congr_deriv ?_
    simp only [fld]
    congr 1
    field_simp
    ring
  hh := g.hh
  hs := g.hs

theorem pressure_fld (T v : ℝ) (X : ℕ → ℝ) : (fld q).p T v X = pressure q T v X := by
  rw [Fld.p, Fld.Q, fld_B, fld_D, pressure]
  simp only [fld, one_mul, zero_mul, add_zero, div_div]
  congr 2
  ring

theorem dpdV_fld (T v : ℝ) (X : ℕ → ℝ) : (fld q).pV T v X = dpdV q T v X := by
  rw [Fld.pV, Fld.Q, fld_B, fld_D, dpdV]
  simp only [fld, one_mul, zero_mul, add_zero]
  rw [div_mul_eq_mul_div, div_div]
  congr 2 <;> ring

theorem dpdT_fld {T v : ℝ} {X : ℕ → ℝ} (h : q.tp = false → ∀ i < q.kk, ∀ j < q.kk, q.a1 (i * q.kk + j) = 0) :
    (fld q).pT T v X = dpdT q T v X := by
  rw [Fld.pT, Fld.Q, fld_B, fld_D1 h, dpdT]
  simp only [fld, one_mul, zero_mul, add_zero, div_div]
  congr 2
  ring

theorem L_fld (v : ℝ) (X : ℕ → ℝ) : (fld q).L v X = Real.log ((v + bCur q X) / v) := by
  rw [Fld.L, fld_B]
  simp only [fld, one_mul, zero_mul, add_zero]

/-- The part of `Good` that persists along paths. -/
structure Near (q : Par) (T v : ℝ) (X : ℕ → ℝ) : Prop where
  T0 : 0 < T
  sum : ∑ i ∈ Finset.range q.kk, X i = 1
  X0 : ∀ i < q.kk, 0 < X i
  Xm : ∀ i < q.kk, q.small * mmw q X < X i
  m0 : 0 < mmw q X
  v0 : 0 < v
  vb : 0 < v - bCur q X
  p0 : pressure q T v X ≠ 0

theorem near {T v : ℝ} {X : ℕ → ℝ} (g : Good q T v X) : Near q T v X where
  T0 := g.T0
  sum := g.sum
  X0 := g.X0
  Xm := g.Xm
  m0 := by
    refine Finset.sum_pos (fun i hi => mul_pos (g.X0 i (Finset.mem_range.1 hi)) (g.W0 i (Finset.mem_range.1 hi))) ?_
    by_contra h
    have := g.sum
    rw [Finset.not_nonempty_iff_eq_empty.1 h] at this
    simp at this
  v0 := g.b0.trans g.vb
  vb := sub_pos.2 g.vb
  p0 := g.p0.ne'

theorem near_ev {T w : ℝ → ℝ} {X : ℝ → ℕ → ℝ} {t : ℝ} (n : Near q (T t) (w t) (X t)) (hT : ContinuousAt T t)
    (hw : ContinuousAt w t) (hX : ∀ i < q.kk, ContinuousAt (fun t => X t i) t)
    (hp : ContinuousAt (fun t => pressure q (T t) (w t) (X t)) t)
    (hs : ∀ᶠ t in 𝓝 t, ∑ i ∈ Finset.range q.kk, X t i = 1) : ∀ᶠ t in 𝓝 t, Near q (T t) (w t) (X t) := by
  have hm : ContinuousAt (fun t => mmw q (X t)) t :=
    tendsto_finsetSum _ fun i hi => (hX i (Finset.mem_range.1 hi)).mul continuousAt_const
  have hb : ContinuousAt (fun t => bCur q (X t)) t :=
    tendsto_finsetSum _ fun i hi => (hX i (Finset.mem_range.1 hi)).mul continuousAt_const
  have e1 := hT.eventually (lt_mem_nhds n.T0)
  have e2 : ∀ᶠ t in 𝓝 t, ∀ i ∈ Finset.range q.kk, 0 < X t i := (eventually_all_finset _).2 fun i hi =>
    (hX i (Finset.mem_range.1 hi)).eventually (lt_mem_nhds (n.X0 i (Finset.mem_range.1 hi)))
  have e3 : ∀ᶠ t in 𝓝 t, ∀ i ∈ Finset.range q.kk, q.small * mmw q (X t) < X t i := (eventually_all_finset _).2 fun i hi =>
    (continuousAt_const.mul hm).eventually_lt (hX i (Finset.mem_range.1 hi)) (n.Xm i (Finset.mem_range.1 hi))
  have e4 := hm.eventually (lt_mem_nhds n.m0)
  have e5 := hw.eventually (lt_mem_nhds n.v0)
  have e6 := (hw.sub hb).eventually (lt_mem_nhds n.vb)
  have e7 := hp.eventually_ne n.p0
  filter_upwards [hs, e1, e2, e3, e4, e5, e6, e7] with t h0 h1 h2 h3 h4 h5 h6 h7
  exact ⟨h1, h0, fun i hi => h2 i (Finset.mem_range.2 hi), fun i hi => h3 i (Finset.mem_range.2 hi), h4, h5, h6, h7⟩

theorem enthalpy_fld {T v : ℝ} {X : ℕ → ℝ} (hR : 0 < q.R)
    (ht : q.tp = false → ∀ i < q.kk, ∀ j < q.kk, q.a1 (i * q.kk + j) = 0) (n : Near q T v X) :
    (fld q).h T v X = enthalpy q T v X := by
  have hT := n.T0.ne'; have hv := n.v0.ne'
  rw [Fld.h, Fld.u, L_fld, fld_B, fld_D, fld_D1 ht, pressure_fld, enthalpy, hresid, z, meanX]
  have e : ∑ i ∈ Finset.range (fld q).kk, X i * ((fld q).R * T * (fld q).h0 T i - (fld q).R * T) =
      q.R * T * ∑ i ∈ Finset.range q.kk, X i * q.h0 T i - q.R * T := by
    have : q.R * T = q.R * T * ∑ i ∈ Finset.range q.kk, X i := by rw [n.sum, mul_one]
    conv_rhs => rw [this, Finset.mul_sum, Finset.mul_sum, ← Finset.sum_sub_distrib, ← Finset.mul_sum, n.sum, mul_one]
    exact Finset.sum_congr rfl fun i _ => by simp only [fld]; ring
  rw [e, show (fld q).c1 - (fld q).c2 = 1 by simp [fld]]
  rw [show 1 + bCur q X / v = (v + bCur q X) / v by field_simp]
  generalize Real.log _ = l
  generalize bCur q X = b
  have hs := (Real.sqrt_pos.2 n.T0).ne'
  by_cases hb : b = 0
  · simp only [hb, mul_zero, div_zero]; field_simp; ring
  field_simp
  ring

theorem sumXlogX_eq {T v : ℝ} {X : ℕ → ℝ} (n : Near q T v X) :
    sumXlogX q X = ∑ i ∈ Finset.range q.kk, X i * Real.log (X i) := by
  rw [sumXlogX, Finset.mul_sum]
  have e : ∀ k ∈ Finset.range q.kk, mmw q X * (X k / mmw q X * Real.log (max (X k / mmw q X) q.small)) =
      X k * Real.log (X k) - X k * Real.log (mmw q X) := by
    intro k hk
    have hm := n.m0
    rw [max_eq_left ((le_div_iff₀ hm).2 (n.Xm k (Finset.mem_range.1 hk)).le),
      Real.log_div (n.X0 k (Finset.mem_range.1 hk)).ne' hm.ne']
    field_simp
  rw [Finset.sum_congr rfl e, Finset.sum_sub_distrib, ← Finset.sum_mul, n.sum]
  ring

theorem entropy_fld {T v : ℝ} {X : ℕ → ℝ} (hR : 0 < q.R) (hP : 0 < q.P0)
    (ht : q.tp = false → ∀ i < q.kk, ∀ j < q.kk, q.a1 (i * q.kk + j) = 0) (n : Near q T v X) :
    (fld q).s T v X = entropy q T v X := by
  have hT := n.T0.ne'; have hv := n.v0.ne'; have hp := n.p0; have hvb := n.vb.ne'
  rw [Fld.s, L_fld, fld_B, fld_D1 ht, entropy, sresid, z, meanX, sumXlogX_eq n]
  have e : ∑ i ∈ Finset.range (fld q).kk, X i * ((fld q).R * (fld q).s0 T i -
        (fld q).R * Real.log (X i * ((fld q).R * T) / (v * (fld q).P0))) =
      q.R * (∑ i ∈ Finset.range q.kk, X i * q.s0 T i - ∑ i ∈ Finset.range q.kk, X i * Real.log (X i)) -
        q.R * Real.log (q.R * T / (v * q.P0)) := by
    have : Real.log (q.R * T / (v * q.P0)) = ∑ i ∈ Finset.range q.kk, X i * Real.log (q.R * T / (v * q.P0)) := by
      rw [← Finset.sum_mul, n.sum, one_mul]
    rw [this, ← Finset.sum_sub_distrib, Finset.mul_sum, Finset.mul_sum, ← Finset.sum_sub_distrib]
    refine Finset.sum_congr rfl fun i hi => ?_
    simp only [fld]
    rw [mul_div_assoc, Real.log_mul (n.X0 i (Finset.mem_range.1 hi)).ne' (by have := n.v0; have := n.T0; positivity)]
    ring
  rw [e, show (fld q).c1 - (fld q).c2 = 1 by simp [fld]]
  rw [show 1 + bCur q X / v = (v + bCur q X) / v by field_simp]
  rw [show pressure q T v X * v / (q.R * T) * (1 - bCur q X / v) = pressure q T v X * (v - bCur q X) / (q.R * T) by
    field_simp]
  rw [Real.log_div (mul_ne_zero hp hvb) (by positivity), Real.log_mul hp hvb, Real.log_div hp hP.ne',
    Real.log_div hvb hv, Real.log_div (by positivity) (by positivity), Real.log_mul hv hP.ne']
  generalize Real.log ((v + bCur q X) / v) = l
  generalize bCur q X = b
  have hs := (Real.sqrt_pos.2 n.T0).ne'
  simp only [fld]
  by_cases hb : b = 0
  · simp only [hb, mul_zero, div_zero, zero_mul]; ring
  field_simp
  ring

theorem cv_fld {T v : ℝ} {X : ℕ → ℝ} (g : Good q T v X) : (fld q).cv T v X = cvMole q T v X := by
  have hT := g.T0.ne'; have hb : bCur q X ≠ 0 := g.b0.ne'; have hs := (Real.sqrt_pos.2 g.T0).ne'
  rw [Fld.cv, L_fld, fld_B, fld_D2 g.tp, cvMole, meanX]
  have e : ∑ i ∈ Finset.range (fld q).kk, X i * ((fld q).R * ((fld q).cp0 T i - 1)) =
      q.R * (∑ i ∈ Finset.range q.kk, X i * q.cp0 T i - 1) := by
    have h : ∑ i ∈ Finset.range (fld q).kk, X i * ((fld q).R * ((fld q).cp0 T i - 1)) =
        q.R * ∑ i ∈ Finset.range q.kk, X i * q.cp0 T i - q.R * ∑ i ∈ Finset.range q.kk, X i := by
      rw [Finset.mul_sum, Finset.mul_sum, ← Finset.sum_sub_distrib]
      exact Finset.sum_congr rfl fun i _ => by simp only [fld]; ring
    rw [h, g.sum]; ring
  rw [e, show (fld q).c1 - (fld q).c2 = 1 by simp [fld]]
  field_simp
  ring

theorem cp_fld {T v : ℝ} {X : ℕ → ℝ} (g : Good q T v X) : (fld q).cp T v X = cpMole q T v X := by
  rw [Fld.cp, cv_fld g, dpdT_fld g.tp, dpdV_fld, cpMole, cvMole]
  ring

theorem pn_fld {T v : ℝ} {X : ℕ → ℝ} (k : ℕ) (g : Good q T v X) : (fld q).pn T v X k = dpdni q T v X k := by
  have hv : v ≠ 0 := (near g).v0.ne'
  rw [Fld.pn, Fld.Q, fld_B, fld_D, fld_K, dpdni]
  simp only [fld, one_mul, zero_mul, add_zero, mul_zero]
  have e2 := (ok g).dom.p1.ne'; have hs := (Real.sqrt_pos.2 g.T0).ne'
  rw [fld_B] at e2
  simp only [fld, one_mul] at e2
  have e1 := (near g).vb.ne'
  generalize v - bCur q X = m at e1
  generalize v + bCur q X = p at e2
  field_simp

theorem hb_fld {T v : ℝ} {X : ℕ → ℝ} (k : ℕ) (g : Good q T v X) : (fld q).hb T v X k = pmH q T v X k := by
  have hv : v ≠ 0 := (near g).v0.ne'
  have hT := g.T0.ne'; have hb : bCur q X ≠ 0 := g.b0.ne'; have hs := (Real.sqrt_pos.2 g.T0).ne'
  have e2 := (ok g).dom.p1.ne'
  rw [fld_B] at e2
  simp only [fld, one_mul] at e2
  have w : ∑ i ∈ Finset.range q.kk, (2 * X i * T * q.a1 (k + q.kk * i) - 3 * X i * aVec q T (k + q.kk * i)) =
      2 * T * pp1 q X k - 3 * pp q T X k := by
    rw [pp1, pp, Finset.mul_sum, Finset.mul_sum, ← Finset.sum_sub_distrib]
    exact Finset.sum_congr rfl fun i _ => by ring
  rw [Fld.hb, pn_fld k g, dpdT_fld g.tp, dpdV_fld, Fld.uV, Fld.Q, L_fld, fld_B, fld_D, fld_D1 g.tp, fld_K, fld_K1]
  simp only [pmH, w]
  generalize dpdni q T v X k = dn
  generalize dpdT q T v X / dpdV q T v X = r
  rw [mul_div_assoc, mul_div_assoc]
  generalize dpdT q T v X / dpdV q T v X = r
  rw [show (fld q).c1 - (fld q).c2 = 1 by simp [fld]]
  simp only [fld, one_mul, zero_mul, add_zero]
  generalize Real.log _ = l
  generalize v + bCur q X = p at e2
  field_simp
  ring

theorem vb_fld {T v : ℝ} {X : ℕ → ℝ} (k : ℕ) (g : Good q T v X) : (fld q).vb T v X k = pmV q T v X k := by
  have hv : v ≠ 0 := (near g).v0.ne'
  have hs := (Real.sqrt_pos.2 g.T0).ne'
  have e2 := (ok g).dom.p1.ne'
  rw [fld_B] at e2
  simp only [fld, one_mul] at e2
  have e1 := (near g).vb.ne'
  rw [Fld.vb, pn_fld k g, dpdV_fld, pmV]
  have i1 : q.R * T + q.R * T * bCur q X / (v - bCur q X) + q.R * T * q.b k / (v - bCur q X) +
      q.R * T * bCur q X * q.b k / ((v - bCur q X) * (v - bCur q X)) -
      2 * pp q T X k / (Real.sqrt T * (v + bCur q X)) +
      aCur q T X * q.b k / (Real.sqrt T * (v + bCur q X) * (v + bCur q X)) = v * dpdni q T v X k := by
    rw [dpdni]
    generalize hp : v + bCur q X = p at *
    generalize hm : v - bCur q X = m at *
    field_simp
    rw [← hm]
    ring
  have i2 : pressure q T v X + q.R * T * bCur q X / ((v - bCur q X) * (v - bCur q X)) -
      aCur q T X / (Real.sqrt T * (v + bCur q X) * (v + bCur q X)) = -(v * dpdV q T v X) := by
    rw [dpdV, pressure]
    generalize hp : v + bCur q X = p at *
    generalize hm : v - bCur q X = m at *
    field_simp
    rw [← hm, ← hp]
    ring
  simp only [i1, i2]
  rw [div_neg, mul_div_mul_left _ _ hv, neg_div]

theorem sV_fld {T v : ℝ} {X : ℕ → ℝ} (k : ℕ) (hk : k < q.kk) (g : Good q T v X) :
    (fld q).sV T v X k = pmS q T v X k - pmV q T v X k * dpdT q T v X := by
  have hv := (near g).v0
  have hT := g.T0; have hb : bCur q X ≠ 0 := g.b0.ne'; have hs := (Real.sqrt_pos.2 g.T0).ne'
  have hR := g.R0; have hP := g.P0
  have e2 := (ok g).dom.p1.ne'
  rw [fld_B] at e2
  simp only [fld, one_mul] at e2
  have e1 := (near g).vb
  rw [Fld.sV, Fld.Q, L_fld, fld_B, fld_D1 g.tp, fld_K1]
  have hw : ∑ i ∈ Finset.range q.kk, X i * q.a1 (k + q.kk * i) = pp1 q X k := rfl
  simp only [pmS, hw]
  rw [max_eq_right (g.Xs k hk).le]
  rw [show (fld q).c1 - (fld q).c2 = 1 by simp [fld]]
  simp only [fld, one_mul, zero_mul, add_zero]
  rw [show X k * (q.R * T) / (v * q.P0) = X k * (q.R * T / (q.P0 * v)) by ring,
    Real.log_mul (g.X0 k hk).ne' (by positivity),
    show v / (v - bCur q X) = ((v - bCur q X) / v)⁻¹ by rw [inv_div], Real.log_inv]
  generalize Real.log ((v + bCur q X) / v) = l
  generalize Real.log _ = l1
  generalize Real.log _ = l2
  generalize Real.log _ = l3
  have e1' := e1.ne'
  generalize v + bCur q X = p at e2
  generalize v - bCur q X = m at e1'
  have hT' := hT.ne'
  have hv' := hv.ne'
  field_simp
  ring

theorem sb_fld {T v : ℝ} {X : ℕ → ℝ} (k : ℕ) (hk : k < q.kk) (g : Good q T v X) :
    (fld q).sb T v X k = pmS q T v X k := by
  rw [Fld.sb, sV_fld k hk g, vb_fld k g, dpdT_fld g.tp]; ring

theorem mu_fld {T v : ℝ} {X : ℕ → ℝ} (k : ℕ) (hk : k < q.kk) (g : Good q T v X) :
    (fld q).mu T v X k = chemPot q T v X k := by
  have hv := (near g).v0
  have hT := g.T0; have hb : bCur q X ≠ 0 := g.b0.ne'; have hs := (Real.sqrt_pos.2 g.T0).ne'
  have hR := g.R0; have hP := g.P0
  have e2 := (ok g).dom.p1.ne'
  rw [fld_B] at e2
  simp only [fld, one_mul] at e2
  have e1 := (near g).vb
  have hp := g.p0
  rw [Fld.mu, Fld.uV, Fld.sV, Fld.Q, L_fld, fld_B, fld_D, fld_D1 g.tp, fld_K, fld_K1, chemPot, g0, lnPhiRT]
  rw [max_eq_right (g.Xs k hk).le]
  rw [show (fld q).c1 - (fld q).c2 = 1 by simp [fld]]
  simp only [fld, one_mul, zero_mul, add_zero]
  rw [show X k * (q.R * T) / (v * q.P0) = X k * ((q.R * T) / (v * q.P0)) by ring,
    Real.log_mul (g.X0 k hk).ne' (by positivity),
    show v / (v - bCur q X) = ((v - bCur q X) / v)⁻¹ by rw [inv_div], Real.log_inv,
    Real.log_div (by positivity : q.R * T ≠ 0) (by positivity), Real.log_mul hv.ne' hP.ne',
    Real.log_div hp.ne' hP.ne', Real.log_div (mul_pos hp hv).ne' (by positivity), Real.log_mul hp.ne' hv.ne']
  generalize Real.log ((v + bCur q X) / v) = l
  generalize Real.log ((v - bCur q X) / v) = l1
  have e1' := e1.ne'
  generalize v + bCur q X = p at e2
  generalize v - bCur q X = m at e1'
  have hT' := hT.ne'
  have hv' := hv.ne'
  field_simp
  ring

/-! ### The properties -/

section

variable {T v : ℝ} {X : ℕ → ℝ}

/-- `dpdVCalc` and `pressureDerivatives` return the derivatives of `pressure`; the pressure that `dpdVCalc` hands back
is `pressure`. -/
theorem rk_pressure_derivatives (g : Good q T v X) :
    HasDerivAt (fun v => pressure q T v X) (dpdV q T v X) v ∧
    HasDerivAt (fun T => pressure q T v X) (dpdT q T v X) T ∧ dpdVpres q T v X = pressure q T v X := by
  have h1 := Fld.p_path (T := fun _ => T) (w := fun v => v) (ok g) (hasDerivAt_const v T) (hasDerivAt_id' v)
  have h2 := Fld.p_path (T := fun T => T) (w := fun _ => v) (ok g) (hasDerivAt_id' T) (hasDerivAt_const T v)
  simp only [pressure_fld, dpdV_fld, dpdT_fld g.tp] at h1 h2
  exact ⟨h1.congr_deriv (by ring), h2.congr_deriv (by ring), rfl⟩

theorem near_path (g : Good q T v X) {τ w : ℝ → ℝ} {T' w' t : ℝ} (hT : HasDerivAt τ T' t) (hw : HasDerivAt w w' t)
    (h1 : τ t = T) (h2 : w t = v) : ∀ᶠ t in 𝓝 t, Near q (τ t) (w t) X := by
  subst h1 h2
  refine near_ev (X := fun _ => X) (near g) hT.continuousAt hw.continuousAt (fun _ _ => continuousAt_const) ?_
    (Eventually.of_forall fun _ => g.sum)
  have := (Fld.p_path (ok g) hT hw).continuousAt
  simpa only [pressure_fld] using this

/-- The Helmholtz energy `h - Ts - pv` has derivatives `-p` by volume and `-s` by temperature. -/
theorem rk_helmholtz (g : Good q T v X) :
    HasDerivAt (fun v => enthalpy q T v X - T * entropy q T v X - pressure q T v X * v) (-pressure q T v X) v ∧
    HasDerivAt (fun T => enthalpy q T v X - T * entropy q T v X - pressure q T v X * v) (-entropy q T v X) T := by
  have e : ∀ {T v : ℝ}, Near q T v X → enthalpy q T v X - T * entropy q T v X - pressure q T v X * v =
      (fld q).u T v X - T * (fld q).s T v X := by
    intro T v n
    rw [← enthalpy_fld g.R0 g.tp n, ← entropy_fld g.R0 g.P0 g.tp n, ← pressure_fld, Fld.h]; ring
  constructor
  · have h1 := Fld.helm_V g.sum (ok g)
    rw [pressure_fld] at h1
    exact h1.congr_of_eventuallyEq ((near_path g (hasDerivAt_const v T) (hasDerivAt_id' v) rfl rfl).mono fun t h => e h)
  · have h1 := Fld.helm_T g.sum (ok g)
    rw [entropy_fld g.R0 g.P0 g.tp (near g)] at h1
    exact h1.congr_of_eventuallyEq ((near_path g (hasDerivAt_id' T) (hasDerivAt_const T v) rfl rfl).mono fun t h => e h)

/-- `cv_mole` is the derivative of the internal energy `h - pv` by temperature at constant volume, and `T` times that
of the entropy. -/
theorem rk_cv (g : Good q T v X) :
    HasDerivAt (fun T => enthalpy q T v X - pressure q T v X * v) (cvMole q T v X) T ∧
    HasDerivAt (fun T => entropy q T v X) (cvMole q T v X / T) T := by
  have ev := near_path g (hasDerivAt_id' T) (hasDerivAt_const T v) rfl rfl
  constructor
  · have h1 := Fld.u_path (T := fun T => T) (w := fun _ => v) (ok g) (hasDerivAt_id' T) (hasDerivAt_const T v)
    refine (h1.congr_of_eventuallyEq (ev.mono fun t n => ?_)).congr_deriv (by rw [cv_fld g]; ring)
    simp only [← enthalpy_fld g.R0 g.tp n, ← pressure_fld, Fld.h]; ring
  · have h1 := Fld.s_path (T := fun T => T) (w := fun _ => v) g.sum (ok g) (hasDerivAt_id' T) (hasDerivAt_const T v)
    refine (h1.congr_of_eventuallyEq (ev.mono fun t n => ?_)).congr_deriv (by rw [cv_fld g]; ring)
    simp only [← entropy_fld g.R0 g.P0 g.tp n]

/-- Along any path of constant pressure, `cp_mole` gives the change of enthalpy and entropy with temperature and
`thermalExpansionCoeff` the relative change of volume. -/
theorem rk_cp {τ w : ℝ → ℝ} {T' w' t : ℝ} (g : Good q (τ t) (w t) X) (hv : dpdV q (τ t) (w t) X ≠ 0)
    (hT : HasDerivAt τ T' t) (hw : HasDerivAt w w' t)
    (hp : HasDerivAt (fun t => pressure q (τ t) (w t) X) 0 t) :
    HasDerivAt (fun t => enthalpy q (τ t) (w t) X) (cpMole q (τ t) (w t) X * T') t ∧
    HasDerivAt (fun t => entropy q (τ t) (w t) X) (cpMole q (τ t) (w t) X / τ t * T') t ∧
    w' / w t = beta q (τ t) (w t) X * T' := by
  have ev := near_path g hT hw rfl rfl
  have hp' : HasDerivAt (fun t => (fld q).p (τ t) (w t) X) 0 t := by simpa only [pressure_fld] using hp
  obtain ⟨h1, h2, h3⟩ := Fld.isobar g.sum (ok g) (by rwa [dpdV_fld]) hT hw hp'
  rw [cp_fld g] at h2 h3
  refine ⟨h2.congr_of_eventuallyEq (ev.mono fun t n => (enthalpy_fld g.R0 g.tp n).symm),
    h3.congr_of_eventuallyEq (ev.mono fun t n => (entropy_fld g.R0 g.P0 g.tp n).symm), ?_⟩
  have hv0 := (near g).v0.ne'
  rw [h1, dpdT_fld g.tp, dpdV_fld, beta]
  field_simp

/-- `isothermalCompressibility` is the relative decrease of volume with pressure at constant temperature. -/
theorem rk_compressibility {w : ℝ → ℝ} {w' t : ℝ} (g : Good q T (w t) X)
    (hw : HasDerivAt w w' t) (hp : HasDerivAt (fun t => pressure q T (w t) X) 1 t) :
    -w' / w t = kappaT q T (w t) X := by
  have h1 := (Fld.p_path (T := fun _ => T) (ok g) (hasDerivAt_const t T) hw)
  simp only [pressure_fld] at h1
  have h2 := h1.unique hp
  rw [dpdV_fld] at h2
  have hv : dpdV q T (w t) X ≠ 0 := by
    intro h; rw [h] at h2; simp at h2
  have hv0 := (near g).v0.ne'
  rw [kappaT]
  field_simp
  linarith

/-- The square of `soundSpeed` is the change of pressure with mass density along any path of constant entropy. -/
theorem rk_sound {τ w : ℝ → ℝ} {T' w' t : ℝ} (g : Good q (τ t) (w t) X) (hv : dpdV q (τ t) (w t) X < 0)
    (hc : 0 < cvMole q (τ t) (w t) X) (hcp : 0 ≤ cpMole q (τ t) (w t) X)
    (hT : HasDerivAt τ T' t) (hw : HasDerivAt w w' t) (hs : HasDerivAt (fun t => entropy q (τ t) (w t) X) 0 t)
    {p' ρ' : ℝ} (hp : HasDerivAt (fun t => pressure q (τ t) (w t) X) p' t)
    (hρ : HasDerivAt (fun t => (∑ i ∈ Finset.range q.kk, X i * q.W i) / w t) ρ' t) :
    p' = sound q (τ t) (w t) X ^ 2 * ρ' := by
  have ev := near_path g hT hw rfl rfl
  have hm := (near g).m0
  have hv0 := (near g).v0
  have hs' := hs.congr_of_eventuallyEq (ev.mono fun t n => entropy_fld g.R0 g.P0 g.tp n)
  have h1 := Fld.isentrope g.sum (ok g) (by rw [dpdV_fld]; exact hv.ne) (by rw [cv_fld g]; exact hc.ne') hT hw hs'
  simp only [pressure_fld, cp_fld g, cv_fld g, dpdV_fld] at h1
  have e1 := h1.unique hp
  have e2 := ((hasDerivAt_const t (mmw q X)).div hw hv0.ne').unique hρ
  rw [sound, mul_pow, Real.sq_sqrt, ← e1, ← e2]
  · field_simp; ring
  · have : -cpMole q (τ t) (w t) X / cvMole q (τ t) (w t) X * dpdV q (τ t) (w t) X / mmw q X =
      cpMole q (τ t) (w t) X * -dpdV q (τ t) (w t) X / (cvMole q (τ t) (w t) X * mmw q X) := by
      field_simp
    rw [this]
    exact div_nonneg (mul_nonneg hcp (by linarith)) (mul_pos hc hm).le

end

/-- Mole fractions of a mixture of `n` moles sum to one. -/
theorem sum_frac {n : ℕ → ℝ} {kk : ℕ} (h : tot kk n ≠ 0) : ∑ i ∈ Finset.range kk, frac kk n i = 1 := by
  simp only [frac, ← Finset.sum_div]; exact div_self h

theorem near_n {T : ℝ} {n : ℕ → ℝ} {k : ℕ} (hk : k < q.kk) {V : ℝ → ℝ} {V' : ℝ} (hN : 0 < tot q.kk n)
    (g : Good q T (V (n k) / tot q.kk n) (frac q.kk n)) (hV : HasDerivAt V V' (n k)) :
    ∀ᶠ t in 𝓝 (n k), Near q T (V t / tot q.kk (Function.update n k t)) (frac q.kk (Function.update n k t)) := by
  have ht := Fld.tot_deriv q.kk n k hk
  have hne : tot q.kk (Function.update n k (n k)) ≠ 0 := by rw [Function.update_eq_self]; exact hN.ne'
  refine near_ev (T := fun _ => T) (w := fun t => V t / tot q.kk (Function.update n k t))
    (X := fun t => frac q.kk (Function.update n k t)) ?_ continuousAt_const
    (hV.continuousAt.div ht.continuousAt hne) ?_ ?_ ?_
  · simpa only [Function.update_eq_self] using near g
  · intro i hi
    exact ((hasDerivAt_coord n k i).continuousAt).div ht.continuousAt hne
  · have := (Fld.p_n (f := fld q) hk hN (ok g) hV).continuousAt
    simpa only [pressure_fld, fld_kk] using this
  · exact (Fld.tot_ev hk hN).mono fun t h => sum_frac h

/-- `getChemPotentials` are the derivatives of the Helmholtz energy of the mixture by mole numbers at constant
temperature and total volume. -/
theorem rk_chemical_potential {T V : ℝ} {n : ℕ → ℝ} {k : ℕ} (hk : k < q.kk) (hN : 0 < tot q.kk n)
    (g : Good q T (V / tot q.kk n) (frac q.kk n)) :
    HasDerivAt (fun t =>
      let N := tot q.kk (Function.update n k t)
      let X := frac q.kk (Function.update n k t)
      N * (enthalpy q T (V / N) X - T * entropy q T (V / N) X - pressure q T (V / N) X * (V / N)))
      (chemPot q T (V / tot q.kk n) (frac q.kk n) k) (n k) := by
  have h1 := Fld.helm_n (f := fld q) hk hN (ok g)
  simp only [fld_kk] at h1
  rw [mu_fld k hk g] at h1
  refine h1.congr_of_eventuallyEq ((near_n (V := fun _ => V) hk hN g (hasDerivAt_const (n k) V)).mono fun t m => ?_)
  simp only [← enthalpy_fld g.R0 g.tp m, ← entropy_fld g.R0 g.P0 g.tp m, ← pressure_fld, Fld.h]
  ring

/-- Partial molar volumes, enthalpies, entropies and internal energies are the derivatives of the total quantities by
the amount of a species at constant temperature and pressure. -/
theorem rk_partial_molar {T : ℝ} {n : ℕ → ℝ} {k : ℕ} (hk : k < q.kk) (hN : 0 < tot q.kk n) {V : ℝ → ℝ} {V' : ℝ}
    (g : Good q T (V (n k) / tot q.kk n) (frac q.kk n)) (hv : dpdV q T (V (n k) / tot q.kk n) (frac q.kk n) ≠ 0)
    (hV : HasDerivAt V V' (n k))
    (hp : HasDerivAt (fun t => pressure q T (V t / tot q.kk (Function.update n k t))
      (frac q.kk (Function.update n k t))) 0 (n k)) :
    V' = pmV q T (V (n k) / tot q.kk n) (frac q.kk n) k ∧
    HasDerivAt (fun t => tot q.kk (Function.update n k t) *
      enthalpy q T (V t / tot q.kk (Function.update n k t)) (frac q.kk (Function.update n k t)))
      (pmH q T (V (n k) / tot q.kk n) (frac q.kk n) k) (n k) ∧
    HasDerivAt (fun t => tot q.kk (Function.update n k t) *
      entropy q T (V t / tot q.kk (Function.update n k t)) (frac q.kk (Function.update n k t)))
      (pmS q T (V (n k) / tot q.kk n) (frac q.kk n) k) (n k) ∧
    pmU q T (V (n k) / tot q.kk n) (frac q.kk n) k = pmH q T (V (n k) / tot q.kk n) (frac q.kk n) k -
      pressure q T (V (n k) / tot q.kk n) (frac q.kk n) * V' := by
  have hp' : HasDerivAt (fun t => (fld q).p T (V t / tot (fld q).kk (Function.update n k t))
      (frac (fld q).kk (Function.update n k t))) 0 (n k) := by simpa only [pressure_fld, fld_kk] using hp
  obtain ⟨h1, h2, h3⟩ := Fld.partial_n (f := fld q) hk hN (ok g) (by rw [dpdV_fld]; exact hv) hV hp'
  simp only [fld_kk] at h1 h2 h3
  rw [vb_fld k g] at h1
  rw [hb_fld k g] at h2
  rw [sb_fld k hk g] at h3
  have ev := near_n hk hN g hV
  refine ⟨h1, h2.congr_of_eventuallyEq (ev.mono fun t m => ?_), h3.congr_of_eventuallyEq (ev.mono fun t m => ?_), ?_⟩
  · simp only [← enthalpy_fld g.R0 g.tp m]
  · simp only [← entropy_fld g.R0 g.P0 g.tp m]
  · rw [pmU, h1]

/-- Sums weighted with mole fractions give the mixture values; chemical potentials are `h - Ts` of the partial molar
quantities and the standard ones plus `RT ln(x γ)`. -/
theorem rk_sums {T v : ℝ} {X : ℕ → ℝ} (g : Good q T v X) (hv : dpdV q T v X ≠ 0) :
    ∑ k ∈ Finset.range q.kk, X k * pmV q T v X k = v ∧
    ∑ k ∈ Finset.range q.kk, X k * pmH q T v X k = enthalpy q T v X ∧
    ∑ k ∈ Finset.range q.kk, X k * pmS q T v X k = entropy q T v X ∧
    ∑ k ∈ Finset.range q.kk, X k * chemPot q T v X k = enthalpy q T v X - T * entropy q T v X ∧
    ∀ k < q.kk, chemPot q T v X k = pmH q T v X k - T * pmS q T v X k ∧
      chemPot q T v X k = stdChemPot q T v X k + q.R * T * Real.log (X k * actCoeff q T v X k) := by
  obtain ⟨h1, h2, h3, h4⟩ := Fld.euler (f := fld q) g.sum (ok g) (by rw [dpdV_fld]; exact hv)
  rw [enthalpy_fld g.R0 g.tp (near g)] at h2 h4
  rw [entropy_fld g.R0 g.P0 g.tp (near g)] at h3 h4
  refine ⟨?_, ?_, ?_, ?_, fun k hk => ⟨?_, ?_⟩⟩
  · exact (Finset.sum_congr rfl fun k _ => by rw [vb_fld k g]).trans h1
  · rw [← h2]; exact Finset.sum_congr rfl fun k _ => by rw [hb_fld k g]
  · rw [← h3]; exact Finset.sum_congr rfl fun k hk => by rw [sb_fld k (Finset.mem_range.1 hk) g]
  · rw [← h4]; exact Finset.sum_congr rfl fun k hk => by rw [mu_fld k (Finset.mem_range.1 hk) g]
  · rw [← mu_fld k hk g, ← hb_fld k g, ← sb_fld k hk g]
    exact Fld.mu_eq k (by rw [dpdV_fld]; exact hv)
  · have := g.R0; have := g.T0
    rw [chemPot, stdChemPot, actCoeff, max_eq_right (g.Xs k hk).le, Real.log_mul (g.X0 k hk).ne' (Real.exp_ne_zero _),
      Real.log_exp]
    field_simp
    ring

/-- At low density the residual enthalpy and entropy and the logarithms of the activity coefficients vanish. -/
theorem rk_ideal_limit {T : ℝ} (X : ℕ → ℝ) (k : ℕ) (hR : 0 < q.R) (hT : 0 < T) :
    Tendsto (fun v => hresid q T v X) atTop (𝓝 0) ∧ Tendsto (fun v => sresid q T v X) atTop (𝓝 0) ∧
    Tendsto (fun v => actCoeff q T v X k) atTop (𝓝 1) := by
  have hRT : q.R * T ≠ 0 := by positivity
  have hv : Tendsto (fun v : ℝ => v) atTop atTop := tendsto_id
  have i0 : Tendsto (fun v : ℝ => bCur q X / v) atTop (𝓝 0) := hv.const_div_atTop _
  have hp : Tendsto (fun v : ℝ => v + bCur q X) atTop atTop := tendsto_atTop_add_const_right _ _ hv
  have hm : Tendsto (fun v : ℝ => v - bCur q X) atTop atTop := by
    simpa only [sub_eq_add_neg] using tendsto_atTop_add_const_right atTop (-bCur q X) hv
  have hev : ∀ᶠ v : ℝ in atTop, 0 < v ∧ 0 < v - bCur q X ∧ 0 < v + bCur q X :=
    (hv.eventually_gt_atTop 0).and ((hm.eventually_gt_atTop 0).and (hp.eventually_gt_atTop 0))
  have i1 : Tendsto (fun v : ℝ => 1 - bCur q X / v) atTop (𝓝 1) := by simpa using i0.const_sub 1
  have i2 : Tendsto (fun v : ℝ => 1 + bCur q X / v) atTop (𝓝 1) := by simpa using i0.const_add 1
  have iz : Tendsto (fun v => z q T v X) atTop (𝓝 1) := by
    have h1 : Tendsto (fun v : ℝ => (1 - bCur q X / v)⁻¹ - aCur q T X / (Real.sqrt T * (q.R * T)) / (v + bCur q X))
        atTop (𝓝 ((1 : ℝ)⁻¹ - 0)) := (i1.inv₀ one_ne_zero).sub (hp.const_div_atTop _)
    rw [inv_one, sub_zero] at h1
    refine h1.congr' (hev.mono fun v h => ?_)
    obtain ⟨h2, h3, h4⟩ := h
    have hs := (Real.sqrt_pos.2 hT).ne'
    simp only [z, pressure]
    rw [show 1 - bCur q X / v = (v - bCur q X) / v by field_simp]
    have h2' := h2.ne'; have h3' := h3.ne'; have h4' := h4.ne'
    generalize v - bCur q X = m at h3'
    generalize v + bCur q X = p at h4'
    field_simp
  have il : Tendsto (fun v : ℝ => Real.log (1 + bCur q X / v)) atTop (𝓝 0) := by
    have := i2.log one_ne_zero
    rwa [Real.log_one] at this
  have il' : Tendsto (fun v : ℝ => Real.log ((v + bCur q X) / v)) atTop (𝓝 0) := by
    refine il.congr' (hev.mono fun v h => ?_)
    have := h.1.ne'
    congr 1; field_simp
  have im : Tendsto (fun v : ℝ => Real.log (v / (v - bCur q X))) atTop (𝓝 0) := by
    have := (i1.inv₀ one_ne_zero).log (by norm_num)
    rw [inv_one, Real.log_one] at this
    refine this.congr' (hev.mono fun v h => ?_)
    have h1 := h.1.ne'
    have h2 := h.2.1.ne'
    rw [show 1 - bCur q X / v = (v - bCur q X) / v by field_simp, inv_div]
  refine ⟨?_, ?_, ?_⟩
  · have := ((iz.sub_const 1).const_mul (q.R * T)).add
      ((il.const_mul (T * dadt q X - 3 * aCur q T X / 2)).div_const (Real.sqrt T * bCur q X))
    simpa only [sub_self, mul_zero, zero_div, add_zero, hresid] using this
  · have := (((iz.mul i1).log (by norm_num)).add ((il.mul_const (dadt q X - aCur q T X / (2 * T))).div_const
      (Real.sqrt T * q.R * bCur q X))).const_mul q.R
    simpa only [mul_one, Real.log_one, zero_mul, zero_div, add_zero, mul_zero, sresid] using this
  · have h1 := (iz.log one_ne_zero).const_mul (-(q.R * T))
    have h2 := im.const_mul (q.R * T)
    have h3 : Tendsto (fun v => q.R * T * q.b k / (v - bCur q X)) atTop (𝓝 0) := hm.const_div_atTop _
    have h4 := il'.const_mul (2 * pp q T X k / (bCur q X * Real.sqrt T))
    have h5 := il'.const_mul (aCur q T X * q.b k / (bCur q X * bCur q X * Real.sqrt T))
    have h6 : Tendsto (fun v => aCur q T X / (bCur q X * Real.sqrt T) * (q.b k / (v + bCur q X))) atTop (𝓝 _) :=
      (hp.const_div_atTop (q.b k)).const_mul _
    have h7 := ((((((h1.add h2).add h3).sub h4).add h5).sub h6).div_const (q.R * T)).rexp
    simp only [Real.log_one, mul_zero, add_zero, sub_zero, zero_div, Real.exp_zero] at h7
    exact h7

/-! ### The hypotheses can be met -/

/-- Two species with temperature dependent attraction. -/
noncomputable def demo : Par where
  kk := 2
  R := 1
  P0 := 1
  small := 1 / 1000
  W _ := 1
  a0 c := if c = 0 then 1 / 10 else if c = 3 then 3 / 10 else 2 / 10
  a1 _ := 1 / 10
  b i := if i = 0 then 1 / 10 else 2 / 10
  tp := true
  h0 _ _ := 5 / 2
  s0 T _ := 5 / 2 * Real.log T
  cp0 _ _ := 5 / 2

theorem demo_pressure : pressure demo 1 1 (fun _ => 1 / 2) = 1 / (1 - 3 / 20) - 3 / 10 / (1 + 3 / 20) := by
  simp [pressure, bCur, aCur, demo, aVec, Finset.sum_range_succ]
  norm_num

theorem demo_dpdV : dpdV demo 1 1 (fun _ => 1 / 2) < 0 := by
  simp [dpdV, bCur, aCur, demo, aVec, Finset.sum_range_succ]
  norm_num

theorem demo_good : Good demo 1 1 (fun _ => 1 / 2) where
  R0 := by norm_num [demo]
  P0 := by norm_num [demo]
  T0 := by norm_num
  sum := by norm_num [demo]
  W0 := by intro i _; norm_num [demo]
  X0 := by intro i _; norm_num
  Xs := by intro i _; norm_num [demo]
  Xm := by intro i _; norm_num [demo]
  b0 := by norm_num [demo, Finset.sum_range_succ]
  vb := by norm_num [demo, Finset.sum_range_succ]
  p0 := by rw [demo_pressure]; norm_num
  sym0 := by
    intro i hi j hj
    simp only [demo] at *
    have h1 : i = 0 ∨ i = 1 := by omega
    have h2 : j = 0 ∨ j = 1 := by omega
    rcases h1 with rfl | rfl <;> rcases h2 with rfl | rfl <;> norm_num
  sym1 := by intros; rfl
  tp := by intro h; simp [demo] at h
  hh := by
    intro i _
    simp only [demo]
    simpa using ((hasDerivAt_id' (1 : ℝ)).const_mul (1 : ℝ)).mul_const (5 / 2 : ℝ)
  hs := by
    intro i _
    simp only [demo]
    exact ((Real.hasDerivAt_log one_ne_zero).const_mul (5 / 2 : ℝ)).congr_deriv (by norm_num)

theorem demo_good_n : Good demo 1 (1 / tot demo.kk (fun _ => 1 / 2)) (frac demo.kk (fun _ => 1 / 2)) := by
  have h : tot demo.kk (fun _ => 1 / 2) = 1 := by norm_num [tot, demo]
  have h2 : frac demo.kk (fun _ => 1 / 2) = fun _ => (1 / 2 : ℝ) := by
    funext i; rw [frac, h, div_one]
  rw [h2, h, div_one]
  exact demo_good

example : HasDerivAt (fun v => pressure demo 1 v (fun _ => 1 / 2)) (dpdV demo 1 1 (fun _ => 1 / 2)) 1 :=
  (rk_pressure_derivatives demo_good).1

example := rk_helmholtz demo_good

example := rk_cv demo_good

/-- There is a path of constant pressure with increasing temperature. -/
theorem demo_isobar : ∃ w' : ℝ, HasDerivAt (fun t : ℝ => pressure demo (1 + t) (1 + w' * t) (fun _ => 1 / 2)) 0 0 := by
  refine ⟨-(dpdT demo 1 1 (fun _ => 1 / 2) / dpdV demo 1 1 (fun _ => 1 / 2)), ?_⟩
  generalize hw : -(dpdT demo 1 1 (fun _ => 1 / 2) / dpdV demo 1 1 (fun _ => 1 / 2)) = w'
  have g : Good demo ((fun t : ℝ => 1 + t) 0) ((fun t : ℝ => 1 + w' * t) 0) (fun _ => 1 / 2) := by
    simpa using demo_good
  have h := Fld.p_path (ok g) ((hasDerivAt_id' 0).const_add 1) (((hasDerivAt_id' 0).const_mul w').const_add 1)
  simp only [pressure_fld, dpdV_fld, dpdT_fld g.tp] at h
  refine h.congr_deriv ?_
  have := demo_dpdV.ne
  simp only [add_zero, mul_zero, ← hw]
  field_simp
  ring

example : ∃ w : ℝ → ℝ,
    HasDerivAt (fun t => enthalpy demo (1 + t) (w t) (fun _ => 1 / 2)) (cpMole demo 1 1 (fun _ => 1 / 2)) 0 := by
  obtain ⟨w', h⟩ := demo_isobar
  refine ⟨fun t => 1 + w' * t, ?_⟩
  have := (rk_cp (q := demo) (X := fun _ => 1 / 2) (τ := fun t => 1 + t) (w := fun t => 1 + w' * t) (t := 0)
    (by simpa using demo_good) (by simpa using demo_dpdV.ne) ((hasDerivAt_id' 0).const_add 1)
    (((hasDerivAt_id' 0).const_mul w').const_add 1) h).1
  simpa using this

example : ∃ w' : ℝ, -w' / 1 = kappaT demo 1 1 (fun _ => 1 / 2) := by
  refine ⟨1 / dpdV demo 1 1 (fun _ => 1 / 2), ?_⟩
  generalize hw : 1 / dpdV demo 1 1 (fun _ => 1 / 2) = w'
  have h := rk_compressibility (q := demo) (T := 1) (X := fun _ => 1 / 2) (w := fun t => 1 + w' * t) (t := 0)
    (by simpa using demo_good) (((hasDerivAt_id' 0).const_mul w').const_add 1) ?_
  · simpa using h
  have := (rk_pressure_derivatives demo_good).1
  have h2 : HasDerivAt (fun t : ℝ => 1 + w' * t) (w' * 1) 0 := ((hasDerivAt_id' 0).const_mul w').const_add 1
  have h3 := HasDerivAt.comp (h₂ := fun v => pressure demo 1 v (fun _ => 1 / 2)) (0 : ℝ) (by simpa using this) h2
  refine h3.congr_deriv ?_
  rw [← hw]
  have := demo_dpdV.ne
  field_simp

example : HasDerivAt (fun t =>
      let N := tot demo.kk (Function.update (fun _ => 1 / 2) 0 t)
      let X := frac demo.kk (Function.update (fun _ => 1 / 2) 0 t)
      N * (enthalpy demo 1 (1 / N) X - 1 * entropy demo 1 (1 / N) X - pressure demo 1 (1 / N) X * (1 / N)))
      (chemPot demo 1 (1 / tot demo.kk (fun _ => 1 / 2)) (frac demo.kk (fun _ => 1 / 2)) 0) (1 / 2) :=
  rk_chemical_potential (q := demo) (n := fun _ => 1 / 2) (by norm_num [demo]) (by norm_num [tot, demo]) demo_good_n

example := rk_sums demo_good demo_dpdV.ne

example := rk_ideal_limit (q := demo) (T := 1) (fun _ => 1 / 2) 0 (by norm_num [demo]) (by norm_num)

/-- Heat capacities of the example are positive, so `rk_sound` applies to it. -/
example : 0 < cvMole demo 1 1 (fun _ => 1 / 2) := by
  have h1 : Real.log (23 / 20) ≥ 0 := Real.log_nonneg (by norm_num)
  simp [cvMole, bCur, aCur, dadt, meanX, demo, aVec, Finset.sum_range_succ]
  norm_num
  nlinarith [h1]

/-- The pressure is the one of the Redlich-Kwong equation with the quadratic mixing rule. -/
theorem rk_pressure_explicit (q : Par) (T v : ℝ) (X : ℕ → ℝ) (tp : q.tp = true) :
    pressure q T v X = q.R * T / (v - ∑ i ∈ Finset.range q.kk, X i * q.b i) -
      (∑ i ∈ Finset.range q.kk, ∑ j ∈ Finset.range q.kk,
        X i * X j * (q.a0 (i * q.kk + j) + T * q.a1 (i * q.kk + j))) /
      (Real.sqrt T * (v * (v + ∑ i ∈ Finset.range q.kk, X i * q.b i))) := by
  have e : aCur q T X = ∑ i ∈ Finset.range q.kk, ∑ j ∈ Finset.range q.kk,
      X i * X j * (q.a0 (i * q.kk + j) + T * q.a1 (i * q.kk + j)) := by
    rw [aCur]
    refine Finset.sum_congr rfl fun i _ => Finset.sum_congr rfl fun j _ => ?_
    rw [aVec, if_pos tp]; ring
  rw [pressure, e, bCur, mul_assoc (Real.sqrt T)]

example := rk_pressure_explicit demo 1 1 (fun _ => 1 / 2) rfl

end Verif.Fluid.RK
