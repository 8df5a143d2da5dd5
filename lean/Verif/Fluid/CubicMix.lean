import Verif.Fluid.Cubic

/-!
Thermodynamic functions of a cubic equation of state per mole, and their relations. `T v X` are temperature, molar
volume and mole fractions.
-/

namespace Verif.Fluid

open Verif Verif.Thermo

/-- Parameters: covolumes, attraction coefficients with temperature derivatives, and reference state functions over
`RT` or `R`. -/
structure Fld where
  kk : ℕ
  R : ℝ
  P0 : ℝ
  c1 : ℝ
  c2 : ℝ
  b : ℕ → ℝ
  d : ℝ → ℕ → ℕ → ℝ
  d1 : ℝ → ℕ → ℕ → ℝ
  d2 : ℝ → ℕ → ℕ → ℝ
  h0 : ℝ → ℕ → ℝ
  s0 : ℝ → ℕ → ℝ
  cp0 : ℝ → ℕ → ℝ

namespace Fld

variable (f : Fld)

noncomputable def B (X : ℕ → ℝ) : ℝ := mixB f.kk f.b X
noncomputable def D (T : ℝ) (X : ℕ → ℝ) : ℝ := mixD f.kk (f.d T) X
noncomputable def D1 (T : ℝ) (X : ℕ → ℝ) : ℝ := mixD f.kk (f.d1 T) X
noncomputable def D2 (T : ℝ) (X : ℕ → ℝ) : ℝ := mixD f.kk (f.d2 T) X
noncomputable def K (T : ℝ) (X : ℕ → ℝ) (k : ℕ) : ℝ := mixK f.kk (f.d T) X k
noncomputable def K1 (T : ℝ) (X : ℕ → ℝ) (k : ℕ) : ℝ := mixK f.kk (f.d1 T) X k
noncomputable def L (v : ℝ) (X : ℕ → ℝ) : ℝ := Real.log ((v + f.c1 * f.B X) / (v + f.c2 * f.B X))
noncomputable def Q (v : ℝ) (X : ℕ → ℝ) : ℝ := (v + f.c1 * f.B X) * (v + f.c2 * f.B X)

/-- Pressure. -/
noncomputable def p (T v : ℝ) (X : ℕ → ℝ) : ℝ := f.R * T / (v - f.B X) - f.D T X / f.Q v X

/-- `(∂p/∂v)_T`. -/
noncomputable def pV (T v : ℝ) (X : ℕ → ℝ) : ℝ :=
  -(f.R * T) / (v - f.B X) ^ 2 + f.D T X * (2 * v + (f.c1 + f.c2) * f.B X) / f.Q v X ^ 2

/-- `(∂p/∂T)_v`. -/
noncomputable def pT (T v : ℝ) (X : ℕ → ℝ) : ℝ := f.R / (v - f.B X) - f.D1 T X / f.Q v X

/-- `N (∂p/∂n_k)_{T,V}`. -/
noncomputable def pn (T v : ℝ) (X : ℕ → ℝ) (k : ℕ) : ℝ :=
  f.R * T / (v - f.B X) + f.R * T * f.b k / (v - f.B X) ^ 2 - 2 * f.K T X k / f.Q v X +
    f.D T X * f.b k * ((f.c1 + f.c2) * v + 2 * f.c1 * f.c2 * f.B X) / f.Q v X ^ 2

/-- Internal energy. -/
noncomputable def u (T v : ℝ) (X : ℕ → ℝ) : ℝ :=
  ∑ i ∈ Finset.range f.kk, X i * (f.R * T * f.h0 T i - f.R * T) +
    (T * f.D1 T X - f.D T X) / ((f.c1 - f.c2) * f.B X) * f.L v X

/-- Enthalpy. -/
noncomputable def h (T v : ℝ) (X : ℕ → ℝ) : ℝ := f.u T v X + f.p T v X * v

/-- Entropy. -/
noncomputable def s (T v : ℝ) (X : ℕ → ℝ) : ℝ :=
  ∑ i ∈ Finset.range f.kk, X i * (f.R * f.s0 T i - f.R * Real.log (X i * (f.R * T) / (v * f.P0))) +
    (f.R * Real.log ((v - f.B X) / v) + f.D1 T X / ((f.c1 - f.c2) * f.B X) * f.L v X)

/-- Heat capacity at constant volume. -/
noncomputable def cv (T v : ℝ) (X : ℕ → ℝ) : ℝ :=
  ∑ i ∈ Finset.range f.kk, X i * (f.R * (f.cp0 T i - 1)) +
    T * f.D2 T X / ((f.c1 - f.c2) * f.B X) * f.L v X

/-- Heat capacity at constant pressure. -/
noncomputable def cp (T v : ℝ) (X : ℕ → ℝ) : ℝ := f.cv T v X - T * f.pT T v X ^ 2 / f.pV T v X

/-- Partial molar volume. -/
noncomputable def vb (T v : ℝ) (X : ℕ → ℝ) (k : ℕ) : ℝ := -f.pn T v X k / f.pV T v X

/-- `(∂U/∂n_k)_{T,V}`. -/
noncomputable def uV (T v : ℝ) (X : ℕ → ℝ) (k : ℕ) : ℝ :=
  f.R * T * f.h0 T k - f.R * T + 2 * (T * f.K1 T X k - f.K T X k) / ((f.c1 - f.c2) * f.B X) * f.L v X -
    (T * f.D1 T X - f.D T X) * f.b k / ((f.c1 - f.c2) * f.B X ^ 2) * f.L v X +
    (T * f.D1 T X - f.D T X) * v * f.b k / (f.B X * f.Q v X)

/-- `(∂S/∂n_k)_{T,V}`. -/
noncomputable def sV (T v : ℝ) (X : ℕ → ℝ) (k : ℕ) : ℝ :=
  f.R * f.s0 T k - f.R * Real.log (X k * (f.R * T) / (v * f.P0)) - f.R +
    (f.R * Real.log ((v - f.B X) / v) - f.R * f.b k / (v - f.B X)) +
    (2 * f.K1 T X k / ((f.c1 - f.c2) * f.B X) * f.L v X -
    f.D1 T X * f.b k / ((f.c1 - f.c2) * f.B X ^ 2) * f.L v X + f.D1 T X * v * f.b k / (f.B X * f.Q v X))

/-- Partial molar enthalpy. -/
noncomputable def hb (T v : ℝ) (X : ℕ → ℝ) (k : ℕ) : ℝ :=
  f.uV T v X k + v * f.pn T v X k - (v + T * f.pT T v X / f.pV T v X) * f.pn T v X k

/-- Partial molar entropy. -/
noncomputable def sb (T v : ℝ) (X : ℕ → ℝ) (k : ℕ) : ℝ := f.sV T v X k + f.vb T v X k * f.pT T v X

/-- Chemical potential. -/
noncomputable def mu (T v : ℝ) (X : ℕ → ℝ) (k : ℕ) : ℝ := f.uV T v X k - T * f.sV T v X k

/-- States at which everything is defined and differentiable. -/
structure Ok (T v : ℝ) (X : ℕ → ℝ) : Prop where
  R0 : 0 < f.R
  P0 : 0 < f.P0
  T0 : 0 < T
  X0 : ∀ i < f.kk, 0 < X i
  dom : Dom f.c1 f.c2 v (f.B X)
  sym : ∀ i < f.kk, ∀ j < f.kk, f.d T i j = f.d T j i
  sym1 : ∀ i < f.kk, ∀ j < f.kk, f.d1 T i j = f.d1 T j i
  hd : ∀ i < f.kk, ∀ j < f.kk, HasDerivAt (fun T => f.d T i j) (f.d1 T i j) T
  hd1 : ∀ i < f.kk, ∀ j < f.kk, HasDerivAt (fun T => f.d1 T i j) (f.d2 T i j) T
  hh : ∀ i < f.kk, HasDerivAt (fun T => f.R * T * f.h0 T i) (f.R * f.cp0 T i) T
  hs : ∀ i < f.kk, HasDerivAt (fun T => f.s0 T i) (f.cp0 T i / T) T

variable {f}

/-! ### Fixed composition -/

theorem p_eq (T v : ℝ) (X : ℕ → ℝ) : f.p T v X = PE f.R f.c1 f.c2 T v 1 (f.B X) (f.D T X) := by
  rw [p, PE, Q]; ring

theorem D_temp {T v : ℝ} {X : ℕ → ℝ} (o : f.Ok T v X) : HasDerivAt (fun T => f.D T X) (f.D1 T X) T :=
  mixD_temp f.kk (fun i j T => f.d T i j) (f.d1 T) T o.hd X

theorem D1_temp {T v : ℝ} {X : ℕ → ℝ} (o : f.Ok T v X) : HasDerivAt (fun T => f.D1 T X) (f.D2 T X) T :=
  mixD_temp f.kk (fun i j T => f.d1 T i j) (f.d2 T) T o.hd1 X

/-- Pressure along a path of temperatures and volumes. -/
theorem p_path {X : ℕ → ℝ} {T w : ℝ → ℝ} {T' w' t : ℝ} (o : f.Ok (T t) (w t) X) (hT : HasDerivAt T T' t)
    (hw : HasDerivAt w w' t) :
    HasDerivAt (fun t => f.p (T t) (w t) X) (f.pT (T t) (w t) X * T' + f.pV (T t) (w t) X * w') t := by
  simp only [p_eq]
  have q := PE_path (R := f.R) o.dom hT hw (hasDerivAt_const t 1) (hasDerivAt_const t (f.B X)) ((D_temp o).comp t hT)
  refine q.congr_deriv ?_
  have e1 := o.dom.m.ne'; have e2 := o.dom.p1.ne'; have e3 := o.dom.p2.ne'
  simp only [pT, pV, Q, Function.comp]
  rw [show 2 * w t + (f.c1 + f.c2) * f.B X = (w t + f.c1 * f.B X) + (w t + f.c2 * f.B X) by ring]
  generalize w t - f.B X = m at e1
  generalize w t + f.c1 * f.B X = p at e2
  generalize w t + f.c2 * f.B X = q at e3
  field_simp
  ring

theorem u_path {X : ℕ → ℝ} {T w : ℝ → ℝ} {T' w' t : ℝ} (o : f.Ok (T t) (w t) X) (hT : HasDerivAt T T' t)
    (hw : HasDerivAt w w' t) :
    HasDerivAt (fun t => f.u (T t) (w t) X) (f.cv (T t) (w t) X * T' +
      -((T t * f.D1 (T t) X - f.D (T t) X) / f.Q (w t) X) * w') t := by
  have q1 := UI_T (R := f.R) f.kk (fun i T => f.h0 T i) (fun i => f.cp0 (T t) i) X hT o.hh
  have q2 := UE_path o.dom hT hw (hasDerivAt_const t (f.B X)) ((D_temp o).comp t hT) ((D1_temp o).comp t hT)
  refine (q1.add q2).congr_deriv ?_
  have hB := o.dom.B0; have e2 := o.dom.p1.ne'; have e3 := o.dom.p2.ne'
  simp only [cv, Q, L, LL, Function.comp, add_mul]
  rw [add_assoc]
  congr 1
  · rw [Finset.sum_mul]; exact Finset.sum_congr rfl fun i _ => by ring
  · generalize Real.log ((w t + f.c1 * f.B X) / (w t + f.c2 * f.B X)) = l
    generalize w t + f.c1 * f.B X = p at e2
    generalize w t + f.c2 * f.B X = q at e3
    have := sub_ne_zero.2 o.dom.c
    field_simp
    ring

theorem s_path {X : ℕ → ℝ} (hX : ∑ i ∈ Finset.range f.kk, X i = 1) {T w : ℝ → ℝ} {T' w' t : ℝ}
    (o : f.Ok (T t) (w t) X) (hT : HasDerivAt T T' t) (hw : HasDerivAt w w' t) :
    HasDerivAt (fun t => f.s (T t) (w t) X) (f.cv (T t) (w t) X / T t * T' + f.pT (T t) (w t) X * w') t := by
  have q1 := SI_T o.R0 o.P0 f.kk (fun i T => f.s0 T i) (fun i => f.cp0 (T t) i) X o.X0 hT hw o.T0 o.dom.V0 o.hs
  have q2 := SE_path (R := f.R) o.dom hw (hasDerivAt_const t 1) (hasDerivAt_const t (f.B X)) ((D1_temp o).comp t hT)
  have q3 := (q1.add q2).congr_deriv (g' := f.cv (T t) (w t) X / T t * T' + f.pT (T t) (w t) X * w') ?_
  · refine q3.congr_of_eventuallyEq (Filter.Eventually.of_forall fun t => ?_)
    simp only [s, SI, SE, LL, L, Function.comp, Pi.add_apply, one_mul]
  have hB := o.dom.B0; have e1 := o.dom.m.ne'; have e2 := o.dom.p1.ne'; have e3 := o.dom.p2.ne'
  have e4 := o.dom.V0.ne'; have e5 := o.T0.ne'
  simp only [cv, pT, Q, L, LL, Function.comp, mul_add, Finset.sum_add_distrib]
  have i1 : ∑ i ∈ Finset.range f.kk, X i * (f.R * (f.cp0 (T t) i - 1) * T' / T t) =
      (∑ i ∈ Finset.range f.kk, X i * (f.R * (f.cp0 (T t) i - 1))) / T t * T' := by
    rw [Finset.sum_div, Finset.sum_mul]; exact Finset.sum_congr rfl fun i _ => by ring
  have i2 : ∑ i ∈ Finset.range f.kk, X i * (f.R * w' / w t) = f.R * w' / w t := by
    rw [← Finset.sum_mul, hX, one_mul]
  rw [i1, i2]
  generalize ∑ i ∈ Finset.range f.kk, X i * (f.R * (f.cp0 (T t) i - 1)) = c
  generalize Real.log ((w t + f.c1 * f.B X) / (w t + f.c2 * f.B X)) = l
  generalize w t - f.B X = m at e1
  generalize w t + f.c1 * f.B X = p at e2
  generalize w t + f.c2 * f.B X = q at e3
  have := sub_ne_zero.2 o.dom.c
  field_simp
  ring

theorem pT_eq (T v : ℝ) (X : ℕ → ℝ) :
    T * f.pT T v X - f.p T v X = -((T * f.D1 T X - f.D T X) / f.Q v X) := by
  simp only [pT, p]; ring

/-! ### Fixed temperature, variable mole numbers -/

theorem pos_of {T v : ℝ} {n : ℕ → ℝ} (o : f.Ok T v (frac f.kk n)) (hN : 0 < tot f.kk n) : ∀ i < f.kk, 0 < n i := by
  intro i hi
  have := o.X0 i hi
  rw [frac] at this
  rcases div_pos_iff.1 this with ⟨h, -⟩ | ⟨-, h⟩
  · exact h
  · linarith

theorem p_ext (T V : ℝ) {n : ℕ → ℝ} (hN : tot f.kk n ≠ 0) :
    f.p T (V / tot f.kk n) (frac f.kk n) = PE f.R f.c1 f.c2 T V (tot f.kk n) (mixB f.kk f.b n) (mixD f.kk (f.d T) n) := by
  simp only [p, Q, PE, B, D, mixB_frac, mixD_frac]
  generalize mixB f.kk f.b n = B
  generalize mixD f.kk (f.d T) n = D
  generalize tot f.kk n = N at *
  rw [show V / N - B / N = (V - B) / N by ring, show V / N + f.c1 * (B / N) = (V + f.c1 * B) / N by ring,
    show V / N + f.c2 * (B / N) = (V + f.c2 * B) / N by ring]
  congr 1
  · rw [div_div_eq_mul_div]; ring
  · rw [← mul_div_mul_comm, div_div_div_eq, ← sq, mul_comm (N ^ 2), mul_div_mul_right _ _ (pow_ne_zero 2 hN)]

theorem L_ext (V : ℝ) {n : ℕ → ℝ} (hN : tot f.kk n ≠ 0) :
    f.L (V / tot f.kk n) (frac f.kk n) = LL f.c1 f.c2 V (mixB f.kk f.b n) := by
  simp only [L, LL, B, mixB_frac]
  generalize mixB f.kk f.b n = B
  generalize tot f.kk n = N at *
  rw [show V / N + f.c1 * (B / N) = (V + f.c1 * B) / N by ring,
    show V / N + f.c2 * (B / N) = (V + f.c2 * B) / N by ring, div_div_div_cancel_right₀ hN]

theorem u_ext (T V : ℝ) {n : ℕ → ℝ} (hN : tot f.kk n ≠ 0) :
    tot f.kk n * f.u T (V / tot f.kk n) (frac f.kk n) = UI f.R f.kk (f.h0 T) T n +
      UE f.c1 f.c2 T V (mixB f.kk f.b n) (mixD f.kk (f.d T) n) (mixD f.kk (f.d1 T) n) := by
  rw [u, L_ext V hN, mul_add]
  congr 1
  · rw [UI, Finset.mul_sum]
    exact Finset.sum_congr rfl fun i _ => by rw [frac]; field_simp
  · simp only [UE, B, D, D1, mixB_frac, mixD_frac]
    generalize mixB f.kk f.b n = B
    generalize LL _ _ _ _ = l
    generalize tot f.kk n = N at *
    by_cases hB : B = 0
    · simp [hB]
    by_cases hc : f.c1 - f.c2 = 0
    · simp [hc]
    field_simp

theorem s_ext (T V : ℝ) {n : ℕ → ℝ} (hN : tot f.kk n ≠ 0) :
    tot f.kk n * f.s T (V / tot f.kk n) (frac f.kk n) = SI f.R f.P0 f.kk (f.s0 T) T V n +
      SE f.R f.c1 f.c2 V (tot f.kk n) (mixB f.kk f.b n) (mixD f.kk (f.d1 T) n) := by
  rw [s, L_ext V hN, mul_add]
  congr 1
  · rw [SI, Finset.mul_sum]
    refine Finset.sum_congr rfl fun i _ => ?_
    rw [frac]
    generalize tot f.kk n = N at *
    rw [show n i / N * (f.R * T) / (V / N * f.P0) = n i * (f.R * T) / (V * f.P0) by
      rw [div_mul_eq_mul_div, div_mul_eq_mul_div, div_div_div_cancel_right₀ hN]]
    field_simp
  · simp only [SE, B, D1, mixB_frac, mixD_frac]
    generalize mixB f.kk f.b n = B
    generalize LL _ _ _ _ = l
    generalize tot f.kk n = N at *
    rw [show (V / N - B / N) / (V / N) = (V - B) / V by rw [← sub_div, div_div_div_cancel_right₀ hN]]
    by_cases hB : B = 0
    · simp [hB]
    by_cases hc : f.c1 - f.c2 = 0
    · simp [hc]; ring
    field_simp

theorem dom_ext {V : ℝ} {n : ℕ → ℝ} (hN : 0 < tot f.kk n)
    (h : Dom f.c1 f.c2 (V / tot f.kk n) (f.B (frac f.kk n))) : Dom f.c1 f.c2 V (mixB f.kk f.b n) := by
  obtain ⟨h1, h2, h3, h4, h5, h6⟩ := h
  rw [B, mixB_frac] at *
  generalize mixB f.kk f.b n = B at *
  generalize tot f.kk n = N at *
  refine ⟨?_, ?_, ?_, ?_, ?_, h6⟩
  · exact (div_pos_iff_of_pos_right hN).1 h1
  · intro h; exact h2 (by simp [h])
  · rw [← sub_div] at h3; exact (div_pos_iff_of_pos_right hN).1 h3
  · rw [← mul_div_assoc, ← add_div] at h4; exact (div_pos_iff_of_pos_right hN).1 h4
  · rw [← mul_div_assoc, ← add_div] at h5; exact (div_pos_iff_of_pos_right hN).1 h5

theorem tot_deriv (kk : ℕ) (n : ℕ → ℝ) (k : ℕ) (hk : k < kk) :
    HasDerivAt (fun t => tot kk (Function.update n k t)) 1 (n k) := by
  have h := mixB_deriv kk (fun _ => 1) n k hk
  simpa [mixB, tot] using h

theorem tot_ev {kk : ℕ} {n : ℕ → ℝ} {k : ℕ} (hk : k < kk) (hN : 0 < tot kk n) :
    ∀ᶠ t in nhds (n k), tot kk (Function.update n k t) ≠ 0 := by
  refine (tot_deriv kk n k hk).continuousAt.eventually_ne ?_
  rw [Function.update_eq_self]; exact hN.ne'

/-- Pressure along a path of volumes while the amount of species `k` changes. -/
theorem p_n {T : ℝ} {n : ℕ → ℝ} {k : ℕ} (hk : k < f.kk) {V : ℝ → ℝ} {V' : ℝ} (hN : 0 < tot f.kk n)
    (o : f.Ok T (V (n k) / tot f.kk n) (frac f.kk n)) (hV : HasDerivAt V V' (n k)) :
    HasDerivAt (fun t => f.p T (V t / tot f.kk (Function.update n k t)) (frac f.kk (Function.update n k t)))
      ((f.pn T (V (n k) / tot f.kk n) (frac f.kk n) k + f.pV T (V (n k) / tot f.kk n) (frac f.kk n) * V') /
        tot f.kk n) (n k) := by
  have hd : Dom f.c1 f.c2 (V (n k)) (mixB f.kk f.b (Function.update n k (n k))) := by
    rw [Function.update_eq_self]; exact dom_ext hN o.dom
  have q := PE_path (R := f.R) hd (hasDerivAt_const (n k) T) hV (tot_deriv f.kk n k hk) (mixB_deriv f.kk f.b n k hk)
    (mixD_deriv f.kk (f.d T) o.sym n k hk)
  refine (q.congr_of_eventuallyEq ((tot_ev hk hN).mono fun t ht => p_ext T (V t) ht)).congr_deriv ?_
  have e1 := hd.m.ne'; have e2 := hd.p1.ne'; have e3 := hd.p2.ne'
  rw [Function.update_eq_self] at *
  simp only [pn, pV, Q, B, D, K, mixB_frac, mixD_frac, mixK_frac]
  generalize V (n k) = v at *
  generalize mixB f.kk f.b n = B at *
  generalize mixD f.kk (f.d T) n = D
  generalize mixK f.kk (f.d T) n k = K
  have hN' := hN.ne'
  generalize tot f.kk n = N at *
  rw [show v / N - B / N = (v - B) / N by ring, show v / N + f.c1 * (B / N) = (v + f.c1 * B) / N by ring,
    show v / N + f.c2 * (B / N) = (v + f.c2 * B) / N by ring,
    show 2 * (v / N) + (f.c1 + f.c2) * (B / N) = ((v + f.c1 * B) + (v + f.c2 * B)) / N by ring,
    show (f.c1 + f.c2) * (v / N) + 2 * f.c1 * f.c2 * (B / N) =
      (f.c1 * (v + f.c2 * B) + f.c2 * (v + f.c1 * B)) / N by ring]
  generalize v - B = m at e1
  generalize v + f.c1 * B = p at e2
  generalize v + f.c2 * B = q at e3
  field_simp
  ring

/-- Internal energy of the mixture along such a path. -/
theorem u_n {T : ℝ} {n : ℕ → ℝ} {k : ℕ} (hk : k < f.kk) {V : ℝ → ℝ} {V' : ℝ} (hN : 0 < tot f.kk n)
    (o : f.Ok T (V (n k) / tot f.kk n) (frac f.kk n)) (hV : HasDerivAt V V' (n k)) :
    HasDerivAt (fun t => tot f.kk (Function.update n k t) *
      f.u T (V t / tot f.kk (Function.update n k t)) (frac f.kk (Function.update n k t)))
      (f.uV T (V (n k) / tot f.kk n) (frac f.kk n) k +
        (T * f.pT T (V (n k) / tot f.kk n) (frac f.kk n) - f.p T (V (n k) / tot f.kk n) (frac f.kk n)) * V') (n k) := by
  have hd : Dom f.c1 f.c2 (V (n k)) (mixB f.kk f.b (Function.update n k (n k))) := by
    rw [Function.update_eq_self]; exact dom_ext hN o.dom
  have q1 := UI_n (R := f.R) f.kk (f.h0 T) (T := T) n k hk
  have q := UE_path hd (hasDerivAt_const (n k) T) hV (mixB_deriv f.kk f.b n k hk)
    (mixD_deriv f.kk (f.d T) o.sym n k hk) (mixD_deriv f.kk (f.d1 T) o.sym1 n k hk)
  refine ((q1.add q).congr_of_eventuallyEq ((tot_ev hk hN).mono fun t ht => u_ext T (V t) ht)).congr_deriv ?_
  have hB := hd.B0; have e2 := hd.p1.ne'; have e3 := hd.p2.ne'
  rw [Function.update_eq_self] at *
  rw [pT_eq, uV, L_ext _ hN.ne']
  simp only [Q, B, D, K, D1, K1, mixB_frac, mixD_frac, mixK_frac]
  generalize LL f.c1 f.c2 _ _ = l
  generalize V (n k) = v at *
  generalize mixB f.kk f.b n = B at *
  generalize mixD f.kk (f.d T) n = D
  generalize mixK f.kk (f.d T) n k = K
  generalize mixD f.kk (f.d1 T) n = D1
  generalize mixK f.kk (f.d1 T) n k = K1
  have hN' := hN.ne'
  generalize tot f.kk n = N at *
  rw [show v / N + f.c1 * (B / N) = (v + f.c1 * B) / N by ring,
    show v / N + f.c2 * (B / N) = (v + f.c2 * B) / N by ring]
  generalize v + f.c1 * B = p at e2
  generalize v + f.c2 * B = q at e3
  have hc := sub_ne_zero.2 hd.c
  generalize f.c1 - f.c2 = c at hc
  field_simp
  ring

/-- Entropy of the mixture along such a path. -/
theorem s_n {T : ℝ} {n : ℕ → ℝ} {k : ℕ} (hk : k < f.kk) {V : ℝ → ℝ} {V' : ℝ} (hN : 0 < tot f.kk n)
    (o : f.Ok T (V (n k) / tot f.kk n) (frac f.kk n)) (hV : HasDerivAt V V' (n k)) :
    HasDerivAt (fun t => tot f.kk (Function.update n k t) *
      f.s T (V t / tot f.kk (Function.update n k t)) (frac f.kk (Function.update n k t)))
      (f.sV T (V (n k) / tot f.kk n) (frac f.kk n) k + f.pT T (V (n k) / tot f.kk n) (frac f.kk n) * V') (n k) := by
  have hd : Dom f.c1 f.c2 (V (n k)) (mixB f.kk f.b (Function.update n k (n k))) := by
    rw [Function.update_eq_self]; exact dom_ext hN o.dom
  have q1 := SI_n o.R0 o.P0 f.kk (f.s0 T) o.T0 n (pos_of o hN) k hk hV hd.V0
  have q := SE_path (R := f.R) hd hV (tot_deriv f.kk n k hk) (mixB_deriv f.kk f.b n k hk)
    (mixD_deriv f.kk (f.d1 T) o.sym1 n k hk)
  refine ((q1.add q).congr_of_eventuallyEq ((tot_ev hk hN).mono fun t ht => s_ext T (V t) ht)).congr_deriv ?_
  have hB := hd.B0; have e1 := hd.m.ne'; have e2 := hd.p1.ne'; have e3 := hd.p2.ne'; have e4 := hd.V0.ne'
  rw [Function.update_eq_self] at *
  have hN' := hN.ne'
  rw [sV, L_ext _ hN.ne']
  simp only [pT, Q, B, D1, K1, mixB_frac, mixD_frac, mixK_frac]
  rw [show frac f.kk n k * (f.R * T) / (V (n k) / tot f.kk n * f.P0) = n k * (f.R * T) / (V (n k) * f.P0) by
      rw [frac, div_mul_eq_mul_div, div_mul_eq_mul_div, div_div_div_cancel_right₀ hN'],
    show (V (n k) / tot f.kk n - mixB f.kk f.b n / tot f.kk n) / (V (n k) / tot f.kk n) =
      (V (n k) - mixB f.kk f.b n) / V (n k) by rw [← sub_div, div_div_div_cancel_right₀ hN']]
  generalize LL f.c1 f.c2 _ _ = l
  generalize Real.log _ = l1
  generalize Real.log _ = l2
  generalize V (n k) = v at *
  generalize mixB f.kk f.b n = B at *
  generalize mixD f.kk (f.d1 T) n = D1
  generalize mixK f.kk (f.d1 T) n k = K1
  generalize tot f.kk n = N at *
  rw [show v / N + f.c1 * (B / N) = (v + f.c1 * B) / N by ring, show v / N - B / N = (v - B) / N by ring,
    show v / N + f.c2 * (B / N) = (v + f.c2 * B) / N by ring]
  generalize v - B = m at e1
  generalize v + f.c1 * B = p at e2
  generalize v + f.c2 * B = q at e3
  have hc := sub_ne_zero.2 hd.c
  generalize f.c1 - f.c2 = c at hc
  field_simp
  ring

/-! ### Consequences -/

/-- Isobars: volume, enthalpy and entropy change with temperature as the heat capacity says. -/
theorem isobar {X : ℕ → ℝ} (hX : ∑ i ∈ Finset.range f.kk, X i = 1) {T w : ℝ → ℝ} {T' w' t : ℝ}
    (o : f.Ok (T t) (w t) X) (hv : f.pV (T t) (w t) X ≠ 0) (hT : HasDerivAt T T' t) (hw : HasDerivAt w w' t)
    (hp : HasDerivAt (fun t => f.p (T t) (w t) X) 0 t) :
    w' = -(f.pT (T t) (w t) X / f.pV (T t) (w t) X) * T' ∧
      HasDerivAt (fun t => f.h (T t) (w t) X) (f.cp (T t) (w t) X * T') t ∧
      HasDerivAt (fun t => f.s (T t) (w t) X) (f.cp (T t) (w t) X / T t * T') t := by
  have hp' := (p_path o hT hw).unique hp
  have hw' : w' = -(f.pT (T t) (w t) X / f.pV (T t) (w t) X) * T' := by
    field_simp; linarith
  refine ⟨hw', ?_, ?_⟩
  · refine ((u_path o hT hw).add (hp.mul hw)).congr_deriv ?_
    rw [← pT_eq, cp, hw']
    field_simp
    ring
  · refine (s_path hX o hT hw).congr_deriv ?_
    have := o.T0.ne'
    rw [cp, hw']
    field_simp
    ring

/-- Isentropes. -/
theorem isentrope {X : ℕ → ℝ} (hX : ∑ i ∈ Finset.range f.kk, X i = 1) {T w : ℝ → ℝ} {T' w' t : ℝ}
    (o : f.Ok (T t) (w t) X) (hv : f.pV (T t) (w t) X ≠ 0) (hc : f.cv (T t) (w t) X ≠ 0)
    (hT : HasDerivAt T T' t) (hw : HasDerivAt w w' t) (hs : HasDerivAt (fun t => f.s (T t) (w t) X) 0 t) :
    HasDerivAt (fun t => f.p (T t) (w t) X) (f.cp (T t) (w t) X / f.cv (T t) (w t) X * f.pV (T t) (w t) X * w') t := by
  have hs' := (s_path hX o hT hw).unique hs
  refine (p_path o hT hw).congr_deriv ?_
  have h0 := o.T0.ne'
  have : T' = -(f.pT (T t) (w t) X * T t / f.cv (T t) (w t) X) * w' := by
    field_simp at hs' ⊢; linarith
  rw [this, cp]
  field_simp
  ring

/-- Helmholtz energy: derivative by volume. -/
theorem helm_V {X : ℕ → ℝ} (hX : ∑ i ∈ Finset.range f.kk, X i = 1) {T v : ℝ} (o : f.Ok T v X) :
    HasDerivAt (fun v => f.u T v X - T * f.s T v X) (-f.p T v X) v := by
  have hT := hasDerivAt_const v T
  refine ((u_path (T := fun _ => T) (w := fun v => v) o hT (hasDerivAt_id' v)).sub
    ((s_path (T := fun _ => T) (w := fun v => v) hX o hT (hasDerivAt_id' v)).const_mul T)).congr_deriv ?_
  rw [← pT_eq]
  ring

/-- Helmholtz energy: derivative by temperature. -/
theorem helm_T {X : ℕ → ℝ} (hX : ∑ i ∈ Finset.range f.kk, X i = 1) {T v : ℝ} (o : f.Ok T v X) :
    HasDerivAt (fun T => f.u T v X - T * f.s T v X) (-f.s T v X) T := by
  have hw := hasDerivAt_const T v
  refine ((u_path (T := fun T => T) (w := fun _ => v) o (hasDerivAt_id' T) hw).sub
    ((hasDerivAt_id' T).mul (s_path (T := fun T => T) (w := fun _ => v) hX o (hasDerivAt_id' T) hw))).congr_deriv ?_
  have := o.T0.ne'
  field_simp
  ring

/-- Helmholtz energy: derivative by mole numbers. -/
theorem helm_n {T V : ℝ} {n : ℕ → ℝ} {k : ℕ} (hk : k < f.kk) (hN : 0 < tot f.kk n)
    (o : f.Ok T (V / tot f.kk n) (frac f.kk n)) :
    HasDerivAt (fun t => tot f.kk (Function.update n k t) *
      (f.u T (V / tot f.kk (Function.update n k t)) (frac f.kk (Function.update n k t)) -
        T * f.s T (V / tot f.kk (Function.update n k t)) (frac f.kk (Function.update n k t))))
      (f.mu T (V / tot f.kk n) (frac f.kk n) k) (n k) := by
  have hw := hasDerivAt_const (n k) V
  have q := (u_n (V := fun _ => V) hk hN o hw).sub ((s_n (V := fun _ => V) hk hN o hw).const_mul T)
  refine (q.congr_of_eventuallyEq (Filter.Eventually.of_forall fun t => ?_)).congr_deriv ?_
  · simp only [Pi.sub_apply]; ring
  · rw [mu]; ring

/-- Partial molar quantities: derivatives by the amount of a species at constant temperature and pressure. -/
theorem partial_n {T : ℝ} {n : ℕ → ℝ} {k : ℕ} (hk : k < f.kk) {V : ℝ → ℝ} {V' : ℝ} (hN : 0 < tot f.kk n)
    (o : f.Ok T (V (n k) / tot f.kk n) (frac f.kk n)) (hv : f.pV T (V (n k) / tot f.kk n) (frac f.kk n) ≠ 0)
    (hV : HasDerivAt V V' (n k))
    (hp : HasDerivAt (fun t => f.p T (V t / tot f.kk (Function.update n k t)) (frac f.kk (Function.update n k t)))
      0 (n k)) :
    V' = f.vb T (V (n k) / tot f.kk n) (frac f.kk n) k ∧
    HasDerivAt (fun t => tot f.kk (Function.update n k t) *
      f.h T (V t / tot f.kk (Function.update n k t)) (frac f.kk (Function.update n k t)))
      (f.hb T (V (n k) / tot f.kk n) (frac f.kk n) k) (n k) ∧
    HasDerivAt (fun t => tot f.kk (Function.update n k t) *
      f.s T (V t / tot f.kk (Function.update n k t)) (frac f.kk (Function.update n k t)))
      (f.sb T (V (n k) / tot f.kk n) (frac f.kk n) k) (n k) := by
  have hp' := (p_n hk hN o hV).unique hp
  have hw' : V' = f.vb T (V (n k) / tot f.kk n) (frac f.kk n) k := by
    have := hN.ne'
    rw [vb]
    rw [div_eq_zero_iff] at hp'
    rcases hp' with hp' | hp'
    · field_simp; linarith
    · exact absurd hp' this
  refine ⟨hw', ?_, ?_⟩
  · have q := (u_n hk hN o hV).add (hp.mul hV)
    refine (q.congr_of_eventuallyEq ((tot_ev hk hN).mono fun t ht => ?_)).congr_deriv ?_
    · simp only [h, Pi.add_apply, Pi.mul_apply]
      field_simp
    · simp only [Function.update_eq_self]
      rw [hw', hb, vb]
      field_simp
      ring
  · refine (s_n hk hN o hV).congr_deriv ?_
    rw [hw', sb]; ring

theorem mu_eq {T v : ℝ} {X : ℕ → ℝ} (k : ℕ) (hv : f.pV T v X ≠ 0) :
    f.mu T v X k = f.hb T v X k - T * f.sb T v X k := by
  rw [mu, hb, sb, vb]
  field_simp
  ring

theorem sum_pn {T v : ℝ} {X : ℕ → ℝ} (hX : ∑ i ∈ Finset.range f.kk, X i = 1) (o : f.Ok T v X) :
    ∑ k ∈ Finset.range f.kk, X k * f.pn T v X k = -(v * f.pV T v X) := by
  have e : ∀ k, X k * f.pn T v X k = X k * (f.R * T / (v - f.B X)) + X k * f.b k * (f.R * T / (v - f.B X) ^ 2) -
      X k * f.K T X k * (2 / f.Q v X) + X k * f.b k *
        (f.D T X * ((f.c1 + f.c2) * v + 2 * f.c1 * f.c2 * f.B X) / f.Q v X ^ 2) := by
    intro k; rw [pn]; ring
  simp only [e, Finset.sum_add_distrib, Finset.sum_sub_distrib, ← Finset.sum_mul]
  rw [hX]
  have hK : ∑ k ∈ Finset.range f.kk, X k * f.K T X k = f.D T X := sum_mixK f.kk (f.d T) X
  have hB : ∑ k ∈ Finset.range f.kk, X k * f.b k = f.B X := rfl
  rw [hK, hB, pV, Q]
  have e1 := o.dom.m.ne'; have e2 := o.dom.p1.ne'; have e3 := o.dom.p2.ne'
  generalize hm : v - f.B X = m at *
  generalize hp : v + f.c1 * f.B X = p at *
  generalize hq : v + f.c2 * f.B X = q at *
  field_simp
  rw [← hm, ← hp, ← hq]
  ring

theorem sum_uV {T v : ℝ} {X : ℕ → ℝ} (o : f.Ok T v X) :
    ∑ k ∈ Finset.range f.kk, X k * f.uV T v X k = f.u T v X + (T * f.pT T v X - f.p T v X) * -v := by
  have e : ∀ k, X k * f.uV T v X k = X k * (f.R * T * f.h0 T k - f.R * T) +
      X k * f.K1 T X k * (2 * T / ((f.c1 - f.c2) * f.B X) * f.L v X) -
      X k * f.K T X k * (2 / ((f.c1 - f.c2) * f.B X) * f.L v X) -
      X k * f.b k * ((T * f.D1 T X - f.D T X) / ((f.c1 - f.c2) * f.B X ^ 2) * f.L v X) +
      X k * f.b k * ((T * f.D1 T X - f.D T X) * v / (f.B X * f.Q v X)) := by
    intro k; rw [uV]; ring
  simp only [e, Finset.sum_add_distrib, Finset.sum_sub_distrib, ← Finset.sum_mul]
  have hK : ∑ k ∈ Finset.range f.kk, X k * f.K T X k = f.D T X := sum_mixK f.kk (f.d T) X
  have hK1 : ∑ k ∈ Finset.range f.kk, X k * f.K1 T X k = f.D1 T X := sum_mixK f.kk (f.d1 T) X
  have hB : ∑ k ∈ Finset.range f.kk, X k * f.b k = f.B X := rfl
  rw [hK, hK1, hB, pT_eq, u, Q]
  have e0 := o.dom.B0; have e2 := o.dom.p1.ne'; have e3 := o.dom.p2.ne'
  have hc := sub_ne_zero.2 o.dom.c
  generalize f.c1 - f.c2 = c at hc
  generalize ∑ k ∈ Finset.range f.kk, X k * (f.R * T * f.h0 T k - f.R * T) = S
  field_simp
  ring

theorem sum_sV {T v : ℝ} {X : ℕ → ℝ} (hX : ∑ i ∈ Finset.range f.kk, X i = 1) (o : f.Ok T v X) :
    ∑ k ∈ Finset.range f.kk, X k * f.sV T v X k = f.s T v X - f.pT T v X * v := by
  have e : ∀ k, X k * f.sV T v X k = X k * (f.R * f.s0 T k - f.R * Real.log (X k * (f.R * T) / (v * f.P0))) +
      X k * (f.R * Real.log ((v - f.B X) / v) - f.R) - X k * f.b k * (f.R / (v - f.B X)) +
      X k * f.K1 T X k * (2 / ((f.c1 - f.c2) * f.B X) * f.L v X) -
      X k * f.b k * (f.D1 T X / ((f.c1 - f.c2) * f.B X ^ 2) * f.L v X) +
      X k * f.b k * (f.D1 T X * v / (f.B X * f.Q v X)) := by
    intro k; rw [sV]; ring
  simp only [e, Finset.sum_add_distrib, Finset.sum_sub_distrib, ← Finset.sum_mul]
  have hK1 : ∑ k ∈ Finset.range f.kk, X k * f.K1 T X k = f.D1 T X := sum_mixK f.kk (f.d1 T) X
  have hB : ∑ k ∈ Finset.range f.kk, X k * f.b k = f.B X := rfl
  rw [hK1, hB, hX, pT, s, Q]
  have e0 := o.dom.B0; have e1 := o.dom.m.ne'; have e2 := o.dom.p1.ne'; have e3 := o.dom.p2.ne'
  have hc := sub_ne_zero.2 o.dom.c
  generalize f.c1 - f.c2 = c at hc
  generalize Real.log ((v - f.B X) / v) = l
  generalize ∑ k ∈ Finset.range f.kk, X k * (f.R * f.s0 T k - f.R * Real.log (X k * (f.R * T) / (v * f.P0))) = S
  field_simp
  ring

/-- Euler sums of partial molar quantities. -/
theorem euler {T v : ℝ} {X : ℕ → ℝ} (hX : ∑ i ∈ Finset.range f.kk, X i = 1) (o : f.Ok T v X)
    (hv : f.pV T v X ≠ 0) :
    ∑ k ∈ Finset.range f.kk, X k * f.vb T v X k = v ∧
    ∑ k ∈ Finset.range f.kk, X k * f.hb T v X k = f.h T v X ∧
    ∑ k ∈ Finset.range f.kk, X k * f.sb T v X k = f.s T v X ∧
    ∑ k ∈ Finset.range f.kk, X k * f.mu T v X k = f.h T v X - T * f.s T v X := by
  have h1 : ∑ k ∈ Finset.range f.kk, X k * f.vb T v X k = v := by
    have e : ∀ k, X k * f.vb T v X k = X k * f.pn T v X k * (-1 / f.pV T v X) := by intro k; rw [vb]; ring
    simp only [e, ← Finset.sum_mul, sum_pn hX o]
    field_simp
  have h2 : ∑ k ∈ Finset.range f.kk, X k * f.hb T v X k = f.h T v X := by
    have e : ∀ k, X k * f.hb T v X k = X k * f.uV T v X k + X k * f.pn T v X k * -(T * f.pT T v X / f.pV T v X) := by
      intro k; rw [hb]; ring
    simp only [e, Finset.sum_add_distrib, ← Finset.sum_mul, sum_pn hX o, sum_uV o, h]
    field_simp
    ring
  have h3 : ∑ k ∈ Finset.range f.kk, X k * f.sb T v X k = f.s T v X := by
    have e : ∀ k, X k * f.sb T v X k = X k * f.sV T v X k + X k * f.vb T v X k * f.pT T v X := by
      intro k; rw [sb]; ring
    simp only [e, Finset.sum_add_distrib, ← Finset.sum_mul, h1, sum_sV hX o]
    ring
  refine ⟨h1, h2, h3, ?_⟩
  rw [← h2, ← h3, Finset.mul_sum, ← Finset.sum_sub_distrib]
  exact Finset.sum_congr rfl fun k _ => by rw [mu_eq k hv]; ring

end Fld

end Verif.Fluid
