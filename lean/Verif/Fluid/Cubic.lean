import Verif.Thermo.Simplex
import Mathlib.Analysis.SpecialFunctions.Log.Deriv
import Mathlib.Analysis.SpecialFunctions.Sqrt

/-!
Calculus of two-parameter cubic equations of state, independent of the code.

For mole numbers `n`, `N = Σ n_k`, `B = Σ n_k b_k`, `D = Σ_ij n_i n_j d_ij(T)`, the residual Helmholtz energy is
`FE = -N R T ln((V - B)/V) - D/((c1 - c2) B) ln((V + c1 B)/(V + c2 B))`. Redlich-Kwong has `c1 = 1`, `c2 = 0`,
`d = a/√T`; Peng-Robinson has `c1, c2 = 1 ± √2`, `d = a α`.
-/

namespace Verif.Fluid

open Verif Verif.Thermo

variable (R c1 c2 : ℝ)

/-- Logarithm of the attraction term. -/
noncomputable def LL (V B : ℝ) : ℝ := Real.log ((V + c1 * B) / (V + c2 * B))

/-- Pressure. -/
noncomputable def PE (T V N B D : ℝ) : ℝ := N * R * T / (V - B) - D / ((V + c1 * B) * (V + c2 * B))

/-- Residual Helmholtz energy. -/
noncomputable def FE (T V N B D : ℝ) : ℝ :=
  -(N * R * T * Real.log ((V - B) / V)) - D / ((c1 - c2) * B) * LL c1 c2 V B

/-- Residual entropy at given volume; `D1` is the temperature derivative of `D`. -/
noncomputable def SE (V N B D1 : ℝ) : ℝ :=
  N * R * Real.log ((V - B) / V) + D1 / ((c1 - c2) * B) * LL c1 c2 V B

/-- Residual internal energy at given volume. -/
noncomputable def UE (T V B D D1 : ℝ) : ℝ := (T * D1 - D) / ((c1 - c2) * B) * LL c1 c2 V B

/-- Volumes and parameters for which all expressions are defined. -/
structure Dom (V B : ℝ) : Prop where
  V0 : 0 < V
  B0 : B ≠ 0
  m : 0 < V - B
  p1 : 0 < V + c1 * B
  p2 : 0 < V + c2 * B
  c : c1 ≠ c2

variable {R c1 c2}

theorem FE_eq (T V N B D D1 : ℝ) : FE R c1 c2 T V N B D = UE c1 c2 T V B D D1 - T * SE R c1 c2 V N B D1 := by
  rw [FE, UE, SE]; ring

theorem LL_path {V B : ℝ → ℝ} {V' B' t : ℝ} (h : Dom c1 c2 (V t) (B t)) (hV : HasDerivAt V V' t)
    (hB : HasDerivAt B B' t) : HasDerivAt (fun t => LL c1 c2 (V t) (B t))
      ((c1 - c2) * (V t * B' - B t * V') / ((V t + c1 * B t) * (V t + c2 * B t))) t := by
  have h1 := hV.add (hB.const_mul c1)
  have h2 := hV.add (hB.const_mul c2)
  have h3 := (h1.div h2 h.p2.ne').log (div_pos h.p1 h.p2).ne'
  refine h3.congr_deriv ?_
  have := h.p1.ne'; have := h.p2.ne'
  simp only [Pi.div_apply, Pi.add_apply]
  field_simp
  ring

theorem logm_path {V B : ℝ → ℝ} {V' B' t : ℝ} (h : Dom c1 c2 (V t) (B t)) (hV : HasDerivAt V V' t)
    (hB : HasDerivAt B B' t) : HasDerivAt (fun t => Real.log ((V t - B t) / V t))
      ((V t - B t)⁻¹ * (V' - B') - (V t)⁻¹ * V') t := by
  have h3 := ((hV.sub hB).div hV h.V0.ne').log (div_pos h.m h.V0).ne'
  refine h3.congr_deriv ?_
  have := h.V0.ne'; have := h.m.ne'
  simp only [Pi.div_apply, Pi.sub_apply]
  field_simp

theorem PE_path {T V N B D : ℝ → ℝ} {T' V' N' B' D' t : ℝ} (h : Dom c1 c2 (V t) (B t)) (hT : HasDerivAt T T' t)
    (hV : HasDerivAt V V' t) (hN : HasDerivAt N N' t) (hB : HasDerivAt B B' t) (hD : HasDerivAt D D' t) :
    HasDerivAt (fun t => PE R c1 c2 (T t) (V t) (N t) (B t) (D t))
      ((N' * R * T t + N t * R * T') / (V t - B t) - N t * R * T t * (V' - B') / (V t - B t) ^ 2 -
        D' / ((V t + c1 * B t) * (V t + c2 * B t)) +
        D t * ((V' + c1 * B') * (V t + c2 * B t) + (V t + c1 * B t) * (V' + c2 * B')) /
          ((V t + c1 * B t) * (V t + c2 * B t)) ^ 2) t := by
  have h1 := hV.add (hB.const_mul c1)
  have h2 := hV.add (hB.const_mul c2)
  have q := (((hN.mul_const R).mul hT).div (hV.sub hB) h.m.ne').sub (hD.div (h1.mul h2) (mul_ne_zero h.p1.ne' h.p2.ne'))
  refine q.congr_deriv ?_
  have e1 := h.m.ne'; have e2 := h.p1.ne'; have e3 := h.p2.ne'
  simp only [Pi.mul_apply, Pi.sub_apply, Pi.add_apply]
  generalize V t - B t = m at e1
  generalize V t + c1 * B t = p at e2
  generalize V t + c2 * B t = q at e3
  field_simp
  ring

theorem UE_path {T V B D D1 : ℝ → ℝ} {T' V' B' D' D1' t : ℝ} (h : Dom c1 c2 (V t) (B t)) (hT : HasDerivAt T T' t)
    (hV : HasDerivAt V V' t) (hB : HasDerivAt B B' t) (hD : HasDerivAt D D' t) (hD1 : HasDerivAt D1 D1' t) :
    HasDerivAt (fun t => UE c1 c2 (T t) (V t) (B t) (D t) (D1 t))
      ((T' * D1 t + T t * D1' - D') / ((c1 - c2) * B t) * LL c1 c2 (V t) (B t) -
        (T t * D1 t - D t) * B' / ((c1 - c2) * B t ^ 2) * LL c1 c2 (V t) (B t) +
        (T t * D1 t - D t) * (V t * B' - B t * V') / (B t * ((V t + c1 * B t) * (V t + c2 * B t)))) t := by
  have hc : c1 - c2 ≠ 0 := sub_ne_zero.2 h.c
  have q := (((hT.mul hD1).sub hD).div (hB.const_mul (c1 - c2)) (mul_ne_zero hc h.B0)).mul (LL_path h hV hB)
  refine q.congr_deriv ?_
  have := h.B0; have := h.p1.ne'; have := h.p2.ne'
  simp only [Pi.mul_apply, Pi.sub_apply, Pi.div_apply]
  field_simp

theorem SE_path {V N B D1 : ℝ → ℝ} {V' N' B' D1' t : ℝ} (h : Dom c1 c2 (V t) (B t))
    (hV : HasDerivAt V V' t) (hN : HasDerivAt N N' t) (hB : HasDerivAt B B' t) (hD1 : HasDerivAt D1 D1' t) :
    HasDerivAt (fun t => SE R c1 c2 (V t) (N t) (B t) (D1 t))
      (N' * R * Real.log ((V t - B t) / V t) + N t * R * ((V t - B t)⁻¹ * (V' - B') - (V t)⁻¹ * V') +
        (D1' / ((c1 - c2) * B t) * LL c1 c2 (V t) (B t) - D1 t * B' / ((c1 - c2) * B t ^ 2) * LL c1 c2 (V t) (B t) +
        D1 t * (V t * B' - B t * V') / (B t * ((V t + c1 * B t) * (V t + c2 * B t))))) t := by
  have hc : c1 - c2 ≠ 0 := sub_ne_zero.2 h.c
  have q := ((hN.mul_const R).mul (logm_path h hV hB)).add
    ((hD1.div (hB.const_mul (c1 - c2)) (mul_ne_zero hc h.B0)).mul (LL_path h hV hB))
  refine q.congr_deriv ?_
  have := h.B0; have := h.p1.ne'; have := h.p2.ne'
  simp only [Pi.div_apply]
  congr 1
  field_simp

/-! ### Mixtures -/

/-- `B = Σ n_k b_k`. -/
noncomputable def mixB (kk : ℕ) (b n : ℕ → ℝ) : ℝ := ∑ i ∈ Finset.range kk, n i * b i

/-- `D = Σ_ij n_i n_j d_ij`. -/
noncomputable def mixD (kk : ℕ) (d : ℕ → ℕ → ℝ) (n : ℕ → ℝ) : ℝ :=
  ∑ i ∈ Finset.range kk, ∑ j ∈ Finset.range kk, d i j * n i * n j

/-- `Σ_i n_i d_ik`. -/
noncomputable def mixK (kk : ℕ) (d : ℕ → ℕ → ℝ) (n : ℕ → ℝ) (k : ℕ) : ℝ := ∑ i ∈ Finset.range kk, n i * d i k

theorem mixB_deriv (kk : ℕ) (b n : ℕ → ℝ) (k : ℕ) (hk : k < kk) :
    HasDerivAt (fun t => mixB kk b (Function.update n k t)) (b k) (n k) := by
  have h := HasDerivAt.fun_sum (u := Finset.range kk) (fun i _ => (hasDerivAt_coord n k i).mul_const (b i))
  refine h.congr_deriv ?_
  simp [dlt, hk]

theorem mixD_deriv (kk : ℕ) (d : ℕ → ℕ → ℝ) (hs : ∀ i < kk, ∀ j < kk, d i j = d j i) (n : ℕ → ℝ) (k : ℕ) (hk : k < kk) :
    HasDerivAt (fun t => mixD kk d (Function.update n k t)) (2 * mixK kk d n k) (n k) := by
  have h := HasDerivAt.fun_sum (u := Finset.range kk) (fun i _ =>
    HasDerivAt.fun_sum (u := Finset.range kk) (fun j _ =>
      ((hasDerivAt_coord n k i).const_mul (d i j)).mul (hasDerivAt_coord n k j)))
  refine h.congr_deriv ?_
  simp only [update_self, Finset.sum_add_distrib]
  have e1 : ∑ i ∈ Finset.range kk, ∑ j ∈ Finset.range kk, d i j * dlt i k * n j = mixK kk d n k := by
    rw [Finset.sum_eq_single k]
    · rw [mixK]
      refine Finset.sum_congr rfl fun j hj => ?_
      rw [dlt_self, hs k hk j (Finset.mem_range.1 hj)]; ring
    · intro i _ hi
      refine Finset.sum_eq_zero fun j _ => ?_
      simp [dlt, hi]
    · intro h; exact absurd (Finset.mem_range.2 hk) h
  have e2 : ∑ i ∈ Finset.range kk, ∑ j ∈ Finset.range kk, d i j * n i * dlt j k = mixK kk d n k := by
    rw [mixK]
    refine Finset.sum_congr rfl fun i _ => ?_
    rw [Finset.sum_eq_single k]
    · rw [dlt_self]; ring
    · intro j _ hj; simp [dlt, hj]
    · intro h; exact absurd (Finset.mem_range.2 hk) h
  rw [e1, e2]; ring

theorem mixD_temp (kk : ℕ) (d : ℕ → ℕ → ℝ → ℝ) (d1 : ℕ → ℕ → ℝ) (T : ℝ)
    (h : ∀ i < kk, ∀ j < kk, HasDerivAt (d i j) (d1 i j) T) (n : ℕ → ℝ) :
    HasDerivAt (fun T => mixD kk (fun i j => d i j T) n) (mixD kk d1 n) T :=
  HasDerivAt.fun_sum fun i hi => HasDerivAt.fun_sum fun j hj =>
    ((h i (Finset.mem_range.1 hi) j (Finset.mem_range.1 hj)).mul_const (n i)).mul_const (n j)

theorem mixB_frac (kk : ℕ) (b n : ℕ → ℝ) : mixB kk b (frac kk n) = mixB kk b n / tot kk n := by
  simp only [mixB, frac, Finset.sum_div]
  exact Finset.sum_congr rfl fun i _ => by ring

theorem mixD_frac (kk : ℕ) (d : ℕ → ℕ → ℝ) (n : ℕ → ℝ) : mixD kk d (frac kk n) = mixD kk d n / tot kk n ^ 2 := by
  simp only [mixD, frac, Finset.sum_div]
  exact Finset.sum_congr rfl fun i _ => Finset.sum_congr rfl fun j _ => by
    by_cases h : tot kk n = 0
    · simp [h]
    · field_simp

theorem mixK_frac (kk : ℕ) (d : ℕ → ℕ → ℝ) (n : ℕ → ℝ) (k : ℕ) :
    mixK kk d (frac kk n) k = mixK kk d n k / tot kk n := by
  simp only [mixK, frac, Finset.sum_div]
  exact Finset.sum_congr rfl fun i _ => by ring

theorem sum_mixB (kk : ℕ) (b X : ℕ → ℝ) : ∑ k ∈ Finset.range kk, X k * b k = mixB kk b X := rfl

theorem sum_mixK (kk : ℕ) (d : ℕ → ℕ → ℝ) (X : ℕ → ℝ) :
    ∑ k ∈ Finset.range kk, X k * mixK kk d X k = mixD kk d X := by
  simp only [mixK, mixD, Finset.mul_sum]
  rw [Finset.sum_comm]
  exact Finset.sum_congr rfl fun i _ => Finset.sum_congr rfl fun j _ => by ring

/-! ### Ideal part -/

/-- Entropy of the ideal gas mixture at given volume (`s0` over `R`). -/
noncomputable def SI (R P0 : ℝ) (kk : ℕ) (s0 : ℕ → ℝ) (T V : ℝ) (n : ℕ → ℝ) : ℝ :=
  ∑ i ∈ Finset.range kk, n i * (R * s0 i - R * Real.log (n i * (R * T) / (V * P0)))

/-- Internal energy of the ideal gas mixture (`h0` over `RT`). -/
noncomputable def UI (R : ℝ) (kk : ℕ) (h0 : ℕ → ℝ) (T : ℝ) (n : ℕ → ℝ) : ℝ :=
  ∑ i ∈ Finset.range kk, n i * (R * T * h0 i - R * T)

theorem SI_n {R P0 : ℝ} (hR : 0 < R) (hP : 0 < P0) (kk : ℕ) (s0 : ℕ → ℝ) {T : ℝ} (hT : 0 < T) (n : ℕ → ℝ)
    (hn : ∀ i < kk, 0 < n i) (k : ℕ) (hk : k < kk) {V : ℝ → ℝ} {V' : ℝ} (hV : HasDerivAt V V' (n k)) (hV0 : 0 < V (n k)) :
    HasDerivAt (fun t => SI R P0 kk s0 T (V t) (Function.update n k t))
      (R * s0 k - R * Real.log (n k * (R * T) / (V (n k) * P0)) - R + tot kk n * R * V' / V (n k)) (n k) := by
  have h1 : ∀ i ∈ Finset.range kk, HasDerivAt (fun t => Function.update n k t i *
      (R * s0 i - R * Real.log (Function.update n k t i * (R * T) / (V t * P0))))
      (dlt i k * (R * s0 i - R * Real.log (n i * (R * T) / (V (n k) * P0)) - R) + n i * (R * V' / V (n k))) (n k) := by
    intro i hi
    have hni := hn i (Finset.mem_range.1 hi)
    have hc := hasDerivAt_coord n k i
    have hne : (V (n k)) * P0 ≠ 0 := by positivity
    have q := (hc.mul_const (R * T)).div (hV.mul_const P0) hne
    have q0 : (fun t => Function.update n k t i * (R * T) / (V t * P0)) (n k) ≠ 0 := by
      simp only [update_self]; positivity
    have q2 := hc.mul (((q.log q0).const_mul R).const_sub (R * s0 i))
    refine q2.congr_deriv ?_
    simp only [Pi.div_apply, update_self]
    field_simp
    ring
  refine (HasDerivAt.fun_sum h1).congr_deriv ?_
  rw [Finset.sum_add_distrib, ← Finset.sum_mul]
  have e : ∑ i ∈ Finset.range kk, dlt i k * (R * s0 i - R * Real.log (n i * (R * T) / (V (n k) * P0)) - R) =
      R * s0 k - R * Real.log (n k * (R * T) / (V (n k) * P0)) - R := by
    simp [dlt, hk]
  rw [e, tot]; ring

theorem SI_T {R P0 : ℝ} (hR : 0 < R) (hP : 0 < P0) (kk : ℕ) (s0 : ℕ → ℝ → ℝ) (cp0 : ℕ → ℝ) (n : ℕ → ℝ)
    (hn : ∀ i < kk, 0 < n i) {T V : ℝ → ℝ} {T' V' t : ℝ} (hT : HasDerivAt T T' t) (hV : HasDerivAt V V' t)
    (hT0 : 0 < T t) (hV0 : 0 < V t) (hs : ∀ i < kk, HasDerivAt (fun T => s0 i T) (cp0 i / T t) (T t)) :
    HasDerivAt (fun t => SI R P0 kk (fun i => s0 i (T t)) (T t) (V t) n)
      (∑ i ∈ Finset.range kk, n i * (R * (cp0 i - 1) * T' / T t + R * V' / V t)) t := by
  refine HasDerivAt.fun_sum fun i hi => ?_
  have hni := hn i (Finset.mem_range.1 hi)
  have hne : (V t) * P0 ≠ 0 := by positivity
  have q := ((hT.const_mul R).const_mul (n i)).div (hV.mul_const P0) hne
  have q0 : (fun t => n i * (R * T t) / (V t * P0)) t ≠ 0 := by
    have : 0 < n i * (R * T t) / (V t * P0) := by positivity
    exact this.ne'
  have q2 := ((((hs i (Finset.mem_range.1 hi)).comp t hT).const_mul R).sub ((q.log q0).const_mul R)).const_mul (n i)
  refine q2.congr_deriv ?_
  simp only [Pi.div_apply]
  field_simp
  ring

theorem UI_n {R : ℝ} (kk : ℕ) (h0 : ℕ → ℝ) {T : ℝ} (n : ℕ → ℝ) (k : ℕ) (hk : k < kk) :
    HasDerivAt (fun t => UI R kk h0 T (Function.update n k t)) (R * T * h0 k - R * T) (n k) :=
  mixB_deriv kk (fun i => R * T * h0 i - R * T) n k hk

theorem UI_T {R : ℝ} (kk : ℕ) (h0 : ℕ → ℝ → ℝ) (cp0 : ℕ → ℝ) (n : ℕ → ℝ) {T : ℝ → ℝ} {T' t : ℝ}
    (hT : HasDerivAt T T' t) (hh : ∀ i < kk, HasDerivAt (fun T => R * T * h0 i T) (R * cp0 i) (T t)) :
    HasDerivAt (fun t => UI R kk (fun i => h0 i (T t)) (T t) n)
      (∑ i ∈ Finset.range kk, n i * (R * (cp0 i - 1) * T')) t := by
  refine HasDerivAt.fun_sum fun i hi => ?_
  have q := (((hh i (Finset.mem_range.1 hi)).comp t hT).sub (hT.const_mul R)).const_mul (n i)
  refine q.congr_deriv ?_
  ring

end Verif.Fluid
