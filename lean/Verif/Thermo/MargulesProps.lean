import Verif.Thermo.Margules

/-!
# C63: theorems about Margules solutions

`GE` below is the excess Gibbs energy divided by `RT` of a mixture with mole numbers `n`
(MargulesVPSSTP.h, documentation of the class); it is independent of the code.
-/

namespace Verif.Thermo.Margules

open Verif Verif.Thermo

/-- Species indices are valid. -/
def InRange (kk : ℕ) (ints : List MInt) : Prop := ∀ i ∈ ints, i.A < kk ∧ i.B < kk

/-- Contribution `X_A X_B (g0 + g1 X_B)`. -/
def term (g0 g1 xA xB : ℝ) : ℝ := xA * xB * (g0 + g1 * xB)

/-- Excess Gibbs energy over RT per mole. -/
noncomputable def geMole (R : ℝ) (ints : List MInt) (T : ℝ) (X : ℕ → ℝ) : ℝ :=
  (ints.map (fun i => term ((i.hb - T * i.sb) / (R * T)) ((i.hc - T * i.sc) / (R * T)) (X i.A) (X i.B))).sum

/-- Excess Gibbs energy over RT of mole numbers. -/
noncomputable def GE (kk : ℕ) (R : ℝ) (ints : List MInt) (T : ℝ) (n : ℕ → ℝ) : ℝ :=
  tot kk n * geMole R ints T (frac kk n)

/-- Excess volume per mole. -/
noncomputable def veMole (ints : List MInt) (T : ℝ) (X : ℕ → ℝ) : ℝ :=
  (ints.map (fun i => term (i.vhb - T * i.vsb) (i.vhc - T * i.vsc) (X i.A) (X i.B))).sum

/-- What `addTerm` adds to entry `k`. -/
noncomputable def inc (A B : ℕ) (g0 g1 : ℝ) (X : ℕ → ℝ) (k : ℕ) : ℝ :=
  -(X A * X B) * (g0 + g1 * X B) - X A * X B * X B * g1 + dlt A k * (X B * (g0 + g1 * X B)) +
    dlt B k * (X A * (g0 + g1 * X B) + X A * X B * g1)

theorem addTerm_apply (kk A B : ℕ) (hA : A < kk) (hB : B < kk) (g0 g1 : ℝ) (X v : ℕ → ℝ) (k : ℕ) (hk : k < kk) :
    addTerm kk A B g0 g1 X v k = v k + inc A B g0 g1 X k := by
  unfold addTerm inc dlt
  by_cases e1 : A = k <;> by_cases e2 : B = k
  · subst e1; subst e2; simp [hA]; ring
  · subst e1
    simp [Function.update_of_ne (Ne.symm e2), hA, e2]; ring
  · subst e2
    simp [Function.update_of_ne (Ne.symm e1), hB, e1]; ring
  · simp [Function.update_of_ne (Ne.symm e1), Function.update_of_ne (Ne.symm e2), hk, e1, e2]

theorem fold_addTerm (kk : ℕ) (ints : List MInt) (h : InRange kk ints) (a b : MInt → ℝ) (X v : ℕ → ℝ) (k : ℕ)
    (hk : k < kk) :
    ints.foldl (fun v i => addTerm kk i.A i.B (a i) (b i) X v) v k =
      v k + (ints.map (fun i => inc i.A i.B (a i) (b i) X k)).sum :=
  foldl_vec ints _ (fun i => inc i.A i.B (a i) (b i) X) kk
    (fun v i hi k hk => addTerm_apply kk i.A i.B (h i hi).1 (h i hi).2 _ _ X v k hk) v k hk

theorem lnAct_eq (kk : ℕ) (R : ℝ) (ints : List MInt) (h : InRange kk ints) (T : ℝ) (X : ℕ → ℝ) (k : ℕ)
    (hk : k < kk) :
    lnAct kk R ints T X k = (ints.map (fun i => inc i.A i.B (i.g0 R T) (i.g1 R T) X k)).sum := by
  rw [lnAct, fold_addTerm kk ints h _ _ X _ k hk, zero_add]

/-- Derivative of `N * term` with respect to a mole number. -/
theorem term_deriv (kk A B : ℕ) (g0 g1 : ℝ) (n : ℕ → ℝ) (k : ℕ) (hk : k < kk) (hn : tot kk n ≠ 0) :
    HasDerivAt (fun t => tot kk (Function.update n k t) *
      term g0 g1 (frac kk (Function.update n k t) A) (frac kk (Function.update n k t) B))
      (inc A B g0 g1 (frac kk n) k) (n k) := by
  have hA := hasDerivAt_frac kk n k hk hn A
  have hB := hasDerivAt_frac kk n k hk hn B
  have h1 := (hasDerivAt_tot kk n k hk).mul ((hA.mul hB).mul ((hB.const_mul g1).const_add g0))
  refine h1.congr_deriv ?_
  simp only [Pi.mul_apply, update_self]
  rw [inc]
  field_simp
  ring

/-- C63: the logarithms of the activity coefficients are the derivatives of the total excess Gibbs energy (over `RT`)
with respect to the mole numbers. -/
theorem margules_activity (kk : ℕ) (R : ℝ) (ints : List MInt) (h : InRange kk ints) (T : ℝ) (n : ℕ → ℝ)
    (hn : tot kk n ≠ 0) (k : ℕ) (hk : k < kk) :
    HasDerivAt (fun t => GE kk R ints T (Function.update n k t)) (lnAct kk R ints T (frac kk n) k) (n k) := by
  rw [lnAct_eq kk R ints h T _ k hk]
  have := hasDerivAt_listSum ints (fun i t => tot kk (Function.update n k t) *
      term (i.g0 R T) (i.g1 R T) (frac kk (Function.update n k t) i.A) (frac kk (Function.update n k t) i.B))
    (fun i => inc i.A i.B (i.g0 R T) (i.g1 R T) (frac kk n) k) (n k)
    (fun i _ => term_deriv kk i.A i.B _ _ n k hk hn)
  refine this.congr_of_eventuallyEq (Filter.Eventually.of_forall fun t => ?_)
  simp only [GE, geMole]
  rw [mul_listSum]
  rfl

/-- Two interactions among three species. -/
def exInts : List MInt := [⟨0, 1, 1, 2, 0, 0, 3, 0, 0, 0⟩, ⟨1, 2, 4, 0, 1, 0, 0, 0, 0, 0⟩]

theorem ex_range : InRange 3 exInts := by
  intro i hi; simp [exInts] at hi; rcases hi with rfl | rfl <;> simp

theorem ex_tot : tot 3 (fun _ => 1) ≠ 0 := by norm_num [tot, Finset.sum_range_succ]

example : HasDerivAt (fun t => GE 3 1 exInts 1 (Function.update (fun _ => 1) 0 t))
    (lnAct 3 1 exInts 1 (frac 3 (fun _ => 1)) 0) 1 :=
  margules_activity 3 1 exInts ex_range 1 (fun _ => 1) ex_tot 0 (by norm_num)

theorem sum_inc (kk A B : ℕ) (hA : A < kk) (hB : B < kk) (g0 g1 : ℝ) (X : ℕ → ℝ)
    (hX : ∑ k ∈ Finset.range kk, X k = 1) :
    ∑ k ∈ Finset.range kk, X k * inc A B g0 g1 X k = term g0 g1 (X A) (X B) := by
  have e : ∀ k, X k * inc A B g0 g1 X k =
      X k * (-(X A * X B) * (g0 + g1 * X B) - X A * X B * X B * g1) +
      (X k * dlt A k) * (X B * (g0 + g1 * X B)) +
      (X k * dlt B k) * (X A * (g0 + g1 * X B) + X A * X B * g1) := by
    intro k; rw [inc]; ring
  simp only [e, Finset.sum_add_distrib, ← Finset.sum_mul, sum_dlt kk A hA, sum_dlt kk B hB, hX, term]
  ring

/-- C63: the molar excess Gibbs energy is the mole fraction average of `RT ln γ`. -/
theorem margules_euler (kk : ℕ) (R : ℝ) (ints : List MInt) (h : InRange kk ints) (T : ℝ) (X : ℕ → ℝ)
    (hX : ∑ k ∈ Finset.range kk, X k = 1) :
    ∑ k ∈ Finset.range kk, X k * lnAct kk R ints T X k = geMole R ints T X := by
  have e : ∀ k ∈ Finset.range kk, X k * lnAct kk R ints T X k =
      (ints.map (fun i => X k * inc i.A i.B (i.g0 R T) (i.g1 R T) X k)).sum := by
    intro k hk
    rw [lnAct_eq kk R ints h T X k (Finset.mem_range.1 hk), mul_listSum]
  rw [Finset.sum_congr rfl e, sum_comm_list, geMole]
  congr 1
  exact List.map_congr_left fun i hi => sum_inc kk i.A i.B (h i hi).1 (h i hi).2 _ _ X hX

example : ∑ k ∈ Finset.range 3, frac 3 (fun _ => 1) k = 1 := sum_frac 3 _ ex_tot

/-! ### Temperature -/

theorem g_deriv (a b R T : ℝ) (hR : R ≠ 0) (hT : T ≠ 0) :
    HasDerivAt (fun T => (a - T * b) / (R * T)) (-a * (1 / R * (1 / T) * (1 / T))) T := by
  have h1 : HasDerivAt (fun T => a - T * b) (-b) T := by
    simpa using ((hasDerivAt_id' T).mul_const b).const_sub a
  have h2 : HasDerivAt (fun T => R * T) R T := by simpa using (hasDerivAt_id' T).const_mul R
  refine (h1.div h2 (mul_ne_zero hR hT)).congr_deriv ?_
  field_simp; ring

theorem inc_deriv (A B : ℕ) (g0 g1 : ℝ → ℝ) (g0' g1' T : ℝ) (X : ℕ → ℝ) (k : ℕ) (h0 : HasDerivAt g0 g0' T)
    (h1 : HasDerivAt g1 g1' T) :
    HasDerivAt (fun T => inc A B (g0 T) (g1 T) X k) (inc A B g0' g1' X k) T := by
  unfold inc
  have hg := h0.add (h1.mul_const (X B))
  exact (((hg.const_mul (-(X A * X B))).sub (h1.const_mul (X A * X B * X B))).add
    ((hg.const_mul (X B)).const_mul (dlt A k))).add
    (((hg.const_mul (X A)).add (h1.const_mul (X A * X B))).const_mul (dlt B k))

theorem dT_eq (kk : ℕ) (R : ℝ) (ints : List MInt) (h : InRange kk ints) (T : ℝ) (X : ℕ → ℝ) (k : ℕ)
    (hk : k < kk) :
    dT kk R ints T X k = (ints.map (fun i => inc i.A i.B (-i.hb * (1 / R * (1 / T) * (1 / T)))
      (-i.hc * (1 / R * (1 / T) * (1 / T))) X k)).sum := by
  rw [dT, fold_addTerm kk ints h _ _ X _ k hk, zero_add]

theorem subTerm_apply (kk A B : ℕ) (hA : A < kk) (hB : B < kk) (g0 g1 m : ℝ) (X v : ℕ → ℝ) (k : ℕ) (hk : k < kk) :
    subTerm kk A B g0 g1 m X v k = v k + -m * inc A B g0 g1 X k := by
  unfold subTerm inc dlt
  by_cases e1 : A = k <;> by_cases e2 : B = k
  · subst e1; subst e2; simp [hA]; ring
  · subst e1
    simp [Function.update_of_ne (Ne.symm e2), hA, e2]; ring
  · subst e2
    simp [Function.update_of_ne (Ne.symm e1), hB, e1]; ring
  · simp [Function.update_of_ne (Ne.symm e1), Function.update_of_ne (Ne.symm e2), hk, e1, e2]; ring

theorem d2T_eq (kk : ℕ) (R : ℝ) (ints : List MInt) (h : InRange kk ints) (T : ℝ) (X : ℕ → ℝ) (k : ℕ)
    (hk : k < kk) : d2T kk R ints T X k = -(2 * (1 / T)) * dT kk R ints T X k := by
  rw [dT_eq kk R ints h T X k hk, mul_listSum, d2T,
    foldl_vec ints _ (fun i k => -(2 * (1 / T)) * inc i.A i.B (-i.hb * (1 / R * (1 / T) * (1 / T)))
      (-i.hc * (1 / R * (1 / T) * (1 / T))) X k) kk
      (fun v i hi k hk => subTerm_apply kk i.A i.B (h i hi).1 (h i hi).2 _ _ _ X v k hk) _ k hk, zero_add]

/-- C63: `getdlnActCoeffdT` and `getd2lnActCoeffdT2` return the first and second temperature derivatives of
the logarithms of the activity coefficients. -/
theorem margules_temperature (kk : ℕ) (R : ℝ) (hR : R ≠ 0) (ints : List MInt) (h : InRange kk ints) (T : ℝ)
    (hT : T ≠ 0) (X : ℕ → ℝ) (k : ℕ) (hk : k < kk) :
    HasDerivAt (fun T => lnAct kk R ints T X k) (dT kk R ints T X k) T ∧
    HasDerivAt (fun T => dT kk R ints T X k) (d2T kk R ints T X k) T := by
  constructor
  · simp only [lnAct_eq kk R ints h _ X k hk]
    rw [dT_eq kk R ints h T X k hk]
    exact hasDerivAt_listSum ints _ _ T fun i _ => inc_deriv i.A i.B _ _ _ _ T X k
      (g_deriv i.hb i.sb R T hR hT) (g_deriv i.hc i.sc R T hR hT)
  · rw [d2T_eq kk R ints h T X k hk, dT_eq kk R ints h T X k hk, mul_listSum]
    simp only [dT_eq kk R ints h _ X k hk]
    refine hasDerivAt_listSum ints _ _ T fun i _ => ?_
    have hi : ∀ a : ℝ, HasDerivAt (fun T : ℝ => -a * (1 / R * (1 / T) * (1 / T)))
        (-(2 * (1 / T)) * (-a * (1 / R * (1 / T) * (1 / T)))) T := by
      intro a
      have h1 : HasDerivAt (fun T : ℝ => 1 / T) (-(1 / T ^ 2)) T := by
        simpa [one_div] using hasDerivAt_inv hT
      refine (((h1.const_mul (1 / R)).mul h1).const_mul (-a)).congr_deriv ?_
      field_simp; ring
    refine (inc_deriv i.A i.B _ _ _ _ T X k (hi i.hb) (hi i.hc)).congr_deriv ?_
    rw [inc, inc]; ring

example : HasDerivAt (fun T => lnAct 3 1 exInts T (fun _ => 1 / 3) 0) (dT 3 1 exInts 2 (fun _ => 1 / 3) 0) 2 :=
  (margules_temperature 3 1 one_ne_zero exInts ex_range 2 two_ne_zero _ 0 (by norm_num)).1

/-- C63: entropies are minus the temperature derivatives of the chemical potentials, `μ = h̄ - T s̄`, and heat
capacities are the temperature derivatives of the partial molar enthalpies, if the standard state
functions are consistent. -/
theorem margules_partial_molar (kk : ℕ) (R : ℝ) (hR : R ≠ 0) (ints : List MInt) (h : InRange kk ints) (T : ℝ)
    (hT : T ≠ 0) (X : ℕ → ℝ) (k : ℕ) (hk : k < kk) (mu0 h0 s0 cp0 : ℝ → ℕ → ℝ)
    (hmu : ∀ T, mu0 T k = R * T * (h0 T k - s0 T k))
    (hs : HasDerivAt (fun T => mu0 T k) (-(R * s0 T k)) T)
    (hcp : HasDerivAt (fun T => h0 T k * (R * T)) (R * cp0 T k) T) :
    HasDerivAt (fun T => mu kk R ints (mu0 T) T X k) (-(sbar kk R ints (s0 T) T X k)) T ∧
    mu kk R ints (mu0 T) T X k = hbar kk R ints (h0 T) T X k - T * sbar kk R ints (s0 T) T X k ∧
    HasDerivAt (fun T => hbar kk R ints (h0 T) T X k) (cpbar kk R ints (cp0 T) T X k) T := by
  obtain ⟨d1, d2⟩ := margules_temperature kk R hR ints h T hT X k hk
  have hRT : HasDerivAt (fun T => R * T) R T := by simpa using (hasDerivAt_id' T).const_mul R
  refine ⟨?_, ?_, ?_⟩
  · refine (hs.add (hRT.mul (d1.const_add (Real.log (max (X k) small))))).congr_deriv ?_
    simp only [sbar]; ring
  · simp only [mu, hbar, sbar, hmu]; ring
  · have hRTT : HasDerivAt (fun T => R * T * T) (2 * R * T) T := by
      refine (hRT.mul (hasDerivAt_id' T)).congr_deriv ?_; ring
    refine (hcp.sub (hRTT.mul d2)).congr_deriv ?_
    simp only [cpbar]; ring

/-- The hypotheses on standard states hold, for example, for constant heat capacity zero. -/
example : ∃ mu0 h0 s0 cp0 : ℝ → ℕ → ℝ, (∀ T, mu0 T 0 = 1 * T * (h0 T 0 - s0 T 0)) ∧
    HasDerivAt (fun T => mu0 T 0) (-(1 * s0 2 0)) 2 ∧
    HasDerivAt (fun T => h0 T 0 * (1 * T)) (1 * cp0 2 0) 2 := by
  refine ⟨fun T _ => -(T * 3), fun _ _ => 0, fun _ _ => 3, fun _ _ => 0, fun T => by ring, ?_, ?_⟩
  · simpa using ((hasDerivAt_id' (2 : ℝ)).mul_const 3).fun_neg
  · simpa using hasDerivAt_const (2 : ℝ) (0 : ℝ)

/-- C63: the excess part of the heat capacity vanishes: `getPartialMolarCp` returns the standard values. -/
theorem margules_cp_ideal (kk : ℕ) (R : ℝ) (ints : List MInt) (h : InRange kk ints) (T : ℝ)
    (X : ℕ → ℝ) (k : ℕ) (hk : k < kk) (cp0 : ℕ → ℝ) : cpbar kk R ints cp0 T X k = cp0 k * R := by
  rw [cpbar, d2T_eq kk R ints h T X k hk]
  field_simp; ring

/-! ### Volumes -/

theorem vbar_eq (kk : ℕ) (ints : List MInt) (h : InRange kk ints) (V0 : ℕ → ℝ) (T : ℝ) (X : ℕ → ℝ) (k : ℕ)
    (hk : k < kk) : vbar kk ints V0 T X k = V0 k + (ints.map (fun i => inc i.A i.B (i.vhb - T * i.vsb)
      (i.vhc - T * i.vsc) X k)).sum := by
  rw [vbar, fold_addTerm kk ints h _ _ X _ k hk]

theorem molarVolume_eq (kk : ℕ) (V0 X : ℕ → ℝ) : molarVolume kk V0 X = ∑ k ∈ Finset.range kk, X k * V0 k := by
  unfold molarVolume
  induction kk with
  | zero => simp
  | succ kk ih => rw [List.range_succ, List.foldl_append, ih, Finset.sum_range_succ]; simp; ring

/-- C63: partial molar volumes are the derivatives of the total volume including the excess volume, and average to the
molar volume of the mixture plus the excess volume. -/
theorem margules_volumes (kk : ℕ) (ints : List MInt) (h : InRange kk ints) (V0 : ℕ → ℝ) (T : ℝ) :
    (∀ n, tot kk n ≠ 0 → ∀ k < kk,
      HasDerivAt (fun t => tot kk (Function.update n k t) *
        (molarVolume kk V0 (frac kk (Function.update n k t)) + veMole ints T (frac kk (Function.update n k t))))
        (vbar kk ints V0 T (frac kk n) k) (n k)) ∧
    (∀ X : ℕ → ℝ, ∑ k ∈ Finset.range kk, X k = 1 →
      ∑ k ∈ Finset.range kk, X k * vbar kk ints V0 T X k = molarVolume kk V0 X + veMole ints T X) := by
  refine ⟨?_, ?_⟩
  · intro n hn k hk
    have h1 := hasDerivAt_listSum ints (fun i t => tot kk (Function.update n k t) *
        term (i.vhb - T * i.vsb) (i.vhc - T * i.vsc) (frac kk (Function.update n k t) i.A)
          (frac kk (Function.update n k t) i.B))
      (fun i => inc i.A i.B (i.vhb - T * i.vsb) (i.vhc - T * i.vsc) (frac kk n) k) (n k)
      (fun i _ => term_deriv kk i.A i.B _ _ n k hk hn)
    have h2 : HasDerivAt (fun t => ∑ j ∈ Finset.range kk, Function.update n k t j * V0 j) (V0 k) (n k) := by
      have := HasDerivAt.fun_sum (u := Finset.range kk)
        (fun j _ => (hasDerivAt_coord n k j).mul_const (V0 j))
      refine this.congr_deriv ?_
      rw [Finset.sum_congr rfl (fun j _ => show dlt j k * V0 j = V0 j * dlt k j by
        simp only [dlt, eq_comm]; ring), sum_dlt kk k hk]
    rw [vbar_eq kk ints h V0 T _ k hk]
    refine (h2.add h1).congr_of_eventuallyEq ?_
    have hc : ContinuousAt (fun t => tot kk (Function.update n k t)) (n k) :=
      (hasDerivAt_tot kk n k hk).continuousAt
    have hne : ∀ᶠ t in nhds (n k), tot kk (Function.update n k t) ≠ 0 :=
      hc.eventually_ne (by rw [update_self]; exact hn)
    filter_upwards [hne] with t ht
    simp only [Pi.add_apply]
    rw [molarVolume_eq, mul_add, veMole, mul_listSum, Finset.mul_sum]
    congr 1
    apply Finset.sum_congr rfl
    intro j _
    rw [frac]; field_simp
  · intro X hX
    have e : ∀ k ∈ Finset.range kk, X k * vbar kk ints V0 T X k = X k * V0 k +
        (ints.map (fun i => X k * inc i.A i.B (i.vhb - T * i.vsb) (i.vhc - T * i.vsc) X k)).sum := by
      intro k hk
      rw [vbar_eq kk ints h V0 T X k (Finset.mem_range.1 hk), mul_add, mul_listSum]
    rw [Finset.sum_congr rfl e, Finset.sum_add_distrib, sum_comm_list, molarVolume_eq, veMole]
    congr 2
    exact List.map_congr_left fun i hi => sum_inc kk i.A i.B (h i hi).1 (h i hi).2 _ _ X hX

/-- C63, negation: the density assigned by `calcDensity` ignores the excess volume, so that the molar
volume of the phase is not the average of the partial molar volumes. -/
theorem density_ignores_excess_volume : ∃ (kk : ℕ) (ints : List MInt) (V0 X : ℕ → ℝ) (T : ℝ), InRange kk ints ∧
    ∑ k ∈ Finset.range kk, X k = 1 ∧
    molarVolume kk V0 X ≠ ∑ k ∈ Finset.range kk, X k * vbar kk ints V0 T X k := by
  refine ⟨3, exInts, fun _ => 1, fun _ => 1 / 3, 1, ex_range, by norm_num [Finset.sum_range_succ], ?_⟩
  rw [(margules_volumes 3 exInts ex_range (fun _ => 1) 1).2 _ (by norm_num [Finset.sum_range_succ])]
  norm_num [veMole, exInts, term]

/-! ### Composition derivatives -/

/-- Both species of each interaction differ. -/
def Distinct (ints : List MInt) : Prop := ∀ i ∈ ints, i.A ≠ i.B

theorem delB_eq (i : MInt) (h : i.A ≠ i.B) (k : ℕ) : delB i k = dlt i.B k ∧ delA i k = dlt i.A k := by
  refine ⟨?_, rfl⟩
  unfold delB dlt
  by_cases e : i.A = k
  · subst e; simp [Ne.symm h]
  · simp [e]

theorem foldl_add {α : Type} (l : List α) (f : α → ℝ) (s : ℝ) :
    l.foldl (fun s a => s + f a) s = s + (l.map f).sum := by
  induction l generalizing s with
  | nil => simp
  | cons a l ih => rw [List.foldl_cons, ih]; simp only [List.map_cons, List.sum_cons]; ring

/-- Second derivatives of one term. -/
noncomputable def jac (A B : ℕ) (g0 g1 : ℝ) (X : ℕ → ℝ) (k m : ℕ) : ℝ :=
  g0 * ((dlt A m - X A) * (dlt B k - X B) + (dlt A k - X A) * (dlt B m - X B)) +
    2 * g1 * ((dlt A m - X A) * (dlt B k - X B) * X B + (dlt A k - X A) * (dlt B m - X B) * X B +
      (dlt B m - X B) * (dlt B k - X B) * X A)

theorem dlnN_eq (R : ℝ) (ints : List MInt) (hd : Distinct ints) (T : ℝ) (X : ℕ → ℝ) (k m : ℕ) :
    dlnN R ints T X k m = X m * (ints.map (fun i => jac i.A i.B (i.g0 R T) (i.g1 R T) X k m)).sum := by
  unfold dlnN
  simp only [add_assoc]
  rw [foldl_add, zero_add]
  congr 2
  apply List.map_congr_left
  intro i hi
  rw [(delB_eq i (hd i hi) k).1, (delB_eq i (hd i hi) m).1, (delB_eq i (hd i hi) k).2,
    (delB_eq i (hd i hi) m).2, jac]
  ring

theorem inc_deriv_n (kk A B : ℕ) (g0 g1 : ℝ) (n : ℕ → ℝ) (k m : ℕ) (hm : m < kk) (hn : tot kk n ≠ 0) :
    HasDerivAt (fun t => inc A B g0 g1 (frac kk (Function.update n m t)) k)
      (jac A B g0 g1 (frac kk n) k m / tot kk n) (n m) := by
  have hA := hasDerivAt_frac kk n m hm hn A
  have hB := hasDerivAt_frac kk n m hm hn B
  have hg := (hB.const_mul g1).const_add g0
  have hAB := hA.mul hB
  have h1 := (((hAB.neg.mul hg).sub ((hAB.mul hB).mul_const g1)).add ((hB.mul hg).const_mul (dlt A k))).add
    (((hA.mul hg).add (hAB.mul_const g1)).const_mul (dlt B k))
  refine (h1.congr_deriv ?_)
  simp only [Pi.mul_apply, Pi.neg_apply, update_self]
  rw [jac]
  field_simp
  ring

/-- C63: `getdlnActCoeffdlnN` returns, in the documented layout, the derivatives of `ln γ_m` with respect to
`ln n_k` at fixed mole numbers of the other species; `getdlnActCoeffdlnN_diag` returns their diagonal. -/
theorem margules_dlnN (kk : ℕ) (R : ℝ) (ints : List MInt) (h : InRange kk ints) (hd : Distinct ints) (T : ℝ)
    (n : ℕ → ℝ) (hn : tot kk n ≠ 0) (k m : ℕ) (hk : k < kk) (hm : m < kk) (hnk : n k ≠ 0) :
    HasDerivAt (fun t => lnAct kk R ints T (frac kk (Function.update n k t)) m)
      (getdlnN kk R ints T (frac kk n) k m / n k) (n k) ∧
    dlnNdiag R ints T (frac kk n) k = getdlnN kk R ints T (frac kk n) k k := by
  have hget : ∀ j < kk, getdlnN kk R ints T (frac kk n) k j = dlnN R ints T (frac kk n) j k := by
    intro j hj
    rw [getdlnN, colMajor, Nat.mul_add_mod, Nat.mod_eq_of_lt hj, Nat.mul_add_div (by omega),
      Nat.div_eq_of_lt hj, add_zero]
  refine ⟨?_, ?_⟩
  · rw [hget m hm, dlnN_eq R ints hd]
    simp only [lnAct_eq kk R ints h T _ m hm]
    refine (hasDerivAt_listSum ints _ _ (n k)
      (fun i _ => inc_deriv_n kk i.A i.B (i.g0 R T) (i.g1 R T) n m k hk hn)).congr_deriv ?_
    have e : (ints.map (fun i => jac i.A i.B (i.g0 R T) (i.g1 R T) (frac kk n) m k / tot kk n)).sum =
        (1 / tot kk n) * (ints.map (fun i => jac i.A i.B (i.g0 R T) (i.g1 R T) (frac kk n) m k)).sum := by
      rw [mul_listSum]; congr 1; apply List.map_congr_left; intro i _; ring
    rw [e, frac]
    field_simp
  · rw [hget k hk, dlnN_eq R ints hd, dlnNdiag, foldl_add, zero_add]
    congr 2
    apply List.map_congr_left
    intro i hi
    rw [(delB_eq i (hd i hi) k).1, (delB_eq i (hd i hi) k).2, jac]
    ring

example : Distinct exInts ∧ getdlnN 3 1 exInts 1 (frac 3 (fun _ => 1)) 0 1 = 2 / 9 := by
  refine ⟨by intro i hi; simp [exInts] at hi; rcases hi with rfl | rfl <;> simp, ?_⟩
  norm_num [getdlnN, colMajor, dlnN, exInts, delA, delB, frac, tot, MInt.g0, MInt.g1, Finset.sum_range_succ]

/-- C63, Gibbs-Duhem: the mole fraction average of the composition derivatives of `ln γ` vanishes. -/
theorem margules_gibbs_duhem (kk : ℕ) (R : ℝ) (ints : List MInt) (h : InRange kk ints) (hd : Distinct ints)
    (T : ℝ) (X : ℕ → ℝ) (hX : ∑ k ∈ Finset.range kk, X k = 1) (m : ℕ) :
    ∑ k ∈ Finset.range kk, X k * dlnN R ints T X k m = 0 := by
  have e : ∀ k ∈ Finset.range kk, X k * dlnN R ints T X k m =
      X m * (ints.map (fun i => X k * jac i.A i.B (i.g0 R T) (i.g1 R T) X k m)).sum := by
    intro k _
    rw [dlnN_eq R ints hd, ← mul_listSum]; ring
  rw [Finset.sum_congr rfl e, ← Finset.mul_sum, sum_comm_list]
  have z : ints.map (fun i => ∑ k ∈ Finset.range kk, X k * jac i.A i.B (i.g0 R T) (i.g1 R T) X k m) =
      ints.map (fun _ => (0 : ℝ)) := by
    apply List.map_congr_left
    intro i hi
    obtain ⟨hA, hB⟩ := h i hi
    have e2 : ∀ k, X k * jac i.A i.B (i.g0 R T) (i.g1 R T) X k m =
        (X k * dlt i.B k) * (i.g0 R T * (dlt i.A m - X i.A) + 2 * i.g1 R T *
          ((dlt i.A m - X i.A) * X i.B + (dlt i.B m - X i.B) * X i.A)) +
        (X k * dlt i.A k) * (i.g0 R T * (dlt i.B m - X i.B) + 2 * i.g1 R T * ((dlt i.B m - X i.B) * X i.B)) +
        X k * (-(X i.B) * (i.g0 R T * (dlt i.A m - X i.A) + 2 * i.g1 R T *
          ((dlt i.A m - X i.A) * X i.B + (dlt i.B m - X i.B) * X i.A)) -
          X i.A * (i.g0 R T * (dlt i.B m - X i.B) + 2 * i.g1 R T * ((dlt i.B m - X i.B) * X i.B))) := by
      intro k; rw [jac]; ring
    simp only [e2, Finset.sum_add_distrib, ← Finset.sum_mul, sum_dlt kk i.A hA, sum_dlt kk i.B hB, hX]
    ring
  rw [z]; simp

example : ∑ k ∈ Finset.range 3, frac 3 (fun _ => 1) k * dlnN 1 exInts 1 (frac 3 (fun _ => 1)) k 0 = 0 :=
  margules_gibbs_duhem 3 1 exInts ex_range
    (by intro i hi; simp [exInts] at hi; rcases hi with rfl | rfl <;> simp) 1 _ (sum_frac 3 _ ex_tot) 0

/-! ### Derivatives along a line -/

/-- Composition part of the directional derivative of one term. -/
noncomputable def dsInc (A B : ℕ) (g0 g1 : ℝ) (X dX : ℕ → ℝ) (k : ℕ) : ℝ :=
  (-X B * dX A - X A * dX B) * (g0 + 2 * g1 * X B) - X B * (2 * g1 * X A * dX B) +
    dlt A k * (dX B * (g0 + 2 * g1 * X B)) + dlt B k * (dX A * (g0 + 2 * g1 * X B) + 2 * g1 * X A * dX B)

theorem dsStep_apply (kk : ℕ) (R T : ℝ) (X dX dTs : ℕ → ℝ) (dTds : ℝ) (v : ℕ → ℝ) (i : MInt) (hA : i.A < kk)
    (hB : i.B < kk) (k : ℕ) (hk : k < kk) :
    dsStep kk R T X dX dTs dTds v i k =
      v k + (dsInc i.A i.B (i.g0 R T) (i.g1 R T) X dX k + dTs k * dTds) := by
  obtain ⟨A, B, hb, hc, sb, sc, p, q, r, s⟩ := i
  simp only at hA hB
  unfold dsStep dsInc dlt
  by_cases e1 : A = k <;> by_cases e2 : B = k
  · subst e1; subst e2; simp [hA]; ring
  · subst e1
    simp [Function.update_of_ne (Ne.symm e2), hA, e2]; ring
  · subst e2
    simp [Function.update_of_ne (Ne.symm e1), hB, e1]; ring
  · simp [Function.update_of_ne (Ne.symm e1), Function.update_of_ne (Ne.symm e2), hk, e1, e2]

theorem ds_eq (kk : ℕ) (R : ℝ) (ints : List MInt) (h : InRange kk ints) (T : ℝ) (X dX : ℕ → ℝ) (dTds : ℝ) (k : ℕ)
    (hk : k < kk) :
    ds kk R ints T X dX dTds k =
      (ints.map (fun i => dsInc i.A i.B (i.g0 R T) (i.g1 R T) X dX k)).sum +
        ints.length * (dT kk R ints T X k * dTds) := by
  rw [ds, foldl_vec ints _ (fun i k => dsInc i.A i.B (i.g0 R T) (i.g1 R T) X dX k + dT kk R ints T X k * dTds) kk
    (fun v i hi k hk => dsStep_apply kk R T X dX _ dTds v i (h i hi).1 (h i hi).2 k hk) _ k hk, zero_add]
  generalize dT kk R ints T X k * dTds = c
  clear h hk
  induction ints with
  | nil => simp
  | cons i l ih => simp only [List.map_cons, List.sum_cons, ih, List.length_cons, Nat.cast_add, Nat.cast_one]; ring

/-- Along a line at fixed temperature the composition part is the derivative. -/
theorem ds_comp (kk : ℕ) (R : ℝ) (ints : List MInt) (h : InRange kk ints) (T : ℝ) (X : ℝ → ℕ → ℝ) (dX : ℕ → ℝ)
    (s : ℝ) (hX : ∀ k, HasDerivAt (fun s => X s k) (dX k) s) (k : ℕ) (hk : k < kk) :
    HasDerivAt (fun s => lnAct kk R ints T (X s) k)
      (ints.map (fun i => dsInc i.A i.B (i.g0 R T) (i.g1 R T) (X s) dX k)).sum s := by
  simp only [lnAct_eq kk R ints h T _ k hk]
  refine hasDerivAt_listSum ints _ _ s fun i _ => ?_
  have hA := hX i.A
  have hB := hX i.B
  have hg := (hB.const_mul (i.g1 R T)).const_add (i.g0 R T)
  have hAB := hA.mul hB
  have h1 := (((hAB.neg.mul hg).sub ((hAB.mul hB).mul_const (i.g1 R T))).add
    ((hB.mul hg).const_mul (dlt i.A k))).add (((hA.mul hg).add (hAB.mul_const (i.g1 R T))).const_mul (dlt i.B k))
  refine (h1.congr_deriv ?_)
  simp only [Pi.mul_apply, Pi.neg_apply]
  rw [dsInc]
  ring

/-- C63 (partial: exactly one interaction, or constant temperature): `getdlnActCoeffds` returns the
derivatives along a line of temperatures and compositions. -/
theorem margules_ds_partial (kk : ℕ) (R : ℝ) (hR : R ≠ 0) (ints : List MInt) (h : InRange kk ints) (T : ℝ → ℝ)
    (X : ℝ → ℕ → ℝ) (dX : ℕ → ℝ) (dTds s : ℝ) (hT : HasDerivAt T dTds s) (hT0 : T s ≠ 0)
    (hX : ∀ k, HasDerivAt (fun s => X s k) (dX k) s) (k : ℕ) (hk : k < kk)
    (hl : ints.length = 1 ∨ dTds = 0) :
    HasDerivAt (fun s => lnAct kk R ints (T s) (X s) k) (ds kk R ints (T s) (X s) dX dTds k) s := by
  rw [ds_eq kk R ints h _ _ _ _ k hk]
  have e : (ints.length : ℝ) * (dT kk R ints (T s) (X s) k * dTds) = dT kk R ints (T s) (X s) k * dTds := by
    rcases hl with hl | hl
    · rw [hl]; simp
    · rw [hl]; simp
  rw [e, dT_eq kk R ints h _ _ k hk, mul_comm _ dTds, mul_listSum, ← List.sum_map_add]
  simp only [lnAct_eq kk R ints h _ _ k hk]
  refine hasDerivAt_listSum ints _ _ s fun i _ => ?_
  have hA := hX i.A
  have hB := hX i.B
  have g0 := (g_deriv i.hb i.sb R (T s) hR hT0).comp s hT
  have g1 := (g_deriv i.hc i.sc R (T s) hR hT0).comp s hT
  have hg := g0.add (g1.mul hB)
  have hAB := hA.mul hB
  have h1 := (((hAB.neg.mul hg).sub ((hAB.mul hB).mul g1)).add
    ((hB.mul hg).const_mul (dlt i.A k))).add (((hA.mul hg).add (hAB.mul g1)).const_mul (dlt i.B k))
  refine h1.congr_deriv ?_
  simp only [Pi.mul_apply, Pi.neg_apply, Pi.add_apply, Function.comp, dsInc, inc, MInt.g0, MInt.g1]
  ring

example : InRange 2 [⟨0, 1, 1, 2, 0, 0, 0, 0, 0, 0⟩] := by
  intro i hi; simp at hi; subst hi; simp

/-- C63, negation: with two interactions the temperature part is counted twice. -/
theorem margules_ds_wrong : ∃ (kk : ℕ) (ints : List MInt) (T : ℝ → ℝ) (X : ℕ → ℝ) (d : ℝ), InRange kk ints ∧
    Distinct ints ∧ HasDerivAt T 1 1 ∧ T 1 ≠ 0 ∧
    HasDerivAt (fun s => lnAct kk 1 ints (T s) X 0) d 1 ∧
    ds kk 1 ints (T 1) X (fun _ => 0) 1 0 = 2 * d ∧ d ≠ 0 := by
  refine ⟨3, exInts, fun s => s, fun _ => 1 / 3, dT 3 1 exInts 1 (fun _ => 1 / 3) 0, ex_range, ?_,
    hasDerivAt_id' 1, one_ne_zero,
    (margules_temperature 3 1 one_ne_zero exInts ex_range 1 one_ne_zero _ 0 (by norm_num)).1, ?_, ?_⟩
  · intro i hi; simp [exInts] at hi; rcases hi with rfl | rfl <;> simp
  · rw [ds_eq 3 1 exInts ex_range _ _ _ _ 0 (by norm_num)]
    norm_num [exInts, dsInc]
  · rw [dT_eq 3 1 exInts ex_range _ _ 0 (by norm_num)]
    norm_num [exInts, inc, dlt]

/-- C63, negation: `getdlnActCoeffdlnX_diag` is not the derivative of `ln γ` with respect to `ln X`: in a binary
regular solution (`g1 = 0`) it returns zero, while the derivative along `dX_B = -dX_A` is
`-2 g0 X_A X_B`. -/
theorem margules_dlnX_wrong : ∃ (i : MInt), i.A = 0 ∧ i.B = 1 ∧ ∀ x : ℝ, 0 < x → x < 1 →
    ∃ d, HasDerivAt (fun x => lnAct 2 1 [i] 1 (fun k => if k = 0 then x else 1 - x) 0) d x ∧
      x * d = -2 * x * (1 - x) ∧ x * d ≠ 0 ∧
      dlnXdiag 1 [i] 1 (fun k => if k = 0 then x else 1 - x) 0 = 0 := by
  refine ⟨⟨0, 1, 1, 0, 0, 0, 0, 0, 0, 0⟩, rfl, rfl, ?_⟩
  intro x hx hx1
  have hr : InRange 2 [(⟨0, 1, 1, 0, 0, 0, 0, 0, 0, 0⟩ : MInt)] := by
    intro i hi; simp at hi; subst hi; simp
  have hd := ds_comp 2 1 _ hr 1 (fun x k => if k = 0 then x else 1 - x) (fun k => if k = 0 then 1 else -1) x
    (by
      intro k
      by_cases e : k = 0
      · subst e; simpa using hasDerivAt_id' x
      · simpa [e] using (hasDerivAt_id' x).const_sub 1) 0 (by norm_num)
  refine ⟨_, hd, ?_, ?_, ?_⟩
  · simp [dsInc, MInt.g0, MInt.g1, dlt]; ring
  · have : x * (-2 * (1 - x)) ≠ 0 := mul_ne_zero hx.ne' (mul_ne_zero (by norm_num) (by linarith))
    convert this using 1
    simp [dsInc, MInt.g0, MInt.g1, dlt]; ring
  · simp [dlnXdiag, MInt.g1, MInt.g0]

end Verif.Thermo.Margules
