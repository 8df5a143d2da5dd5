import Verif.Thermo.RedlichKister

/-!
# C64: theorems about Redlich-Kister solutions

`geMole` and `GE` below are the excess Gibbs energy divided by `RT` (RedlichKisterVPSSTP.h, documentation of the
class); they are independent of the code.
-/

namespace Verif.Thermo.RedlichKister

open Verif Verif.Thermo

/-- Species indices are valid and the two species of an interaction differ. -/
def Valid (kk : ℕ) (ints : List RInt) : Prop := ∀ i ∈ ints, i.A < kk ∧ i.B < kk ∧ i.A ≠ i.B

/-- The polynomial `Σ A_m δ^m` with its derivatives. -/
noncomputable def P (a : ℕ → ℝ) (N : ℕ) (d : ℝ) : ℝ := ∑ m ∈ Finset.range N, a m * d ^ m

noncomputable def P1 (a : ℕ → ℝ) (N : ℕ) (d : ℝ) : ℝ := ∑ m ∈ Finset.range N, a m * (m * d ^ (m - 1))

noncomputable def P2 (a : ℕ → ℝ) (N : ℕ) (d : ℝ) : ℝ :=
  ∑ m ∈ Finset.range N, a m * (m * ((m - 1) * d ^ (m - 2)))

theorem P_deriv (a : ℕ → ℝ) (N : ℕ) (d : ℝ) : HasDerivAt (P a N) (P1 a N d) d :=
  HasDerivAt.fun_sum fun m _ => (hasDerivAt_pow m d).const_mul (a m)

theorem P1_deriv (a : ℕ → ℝ) (N : ℕ) (d : ℝ) : HasDerivAt (P1 a N) (P2 a N d) d := by
  refine (HasDerivAt.fun_sum (u := Finset.range N)
    fun m _ => ((hasDerivAt_pow (m - 1) d).const_mul (m : ℝ)).const_mul (a m)).congr_deriv ?_
  refine Finset.sum_congr rfl fun m _ => ?_
  rcases m with _ | m
  · simp
  · rw [Nat.add_sub_cancel, show m + 1 - 2 = m - 1 by omega]; push_cast; ring

/-- Excess Gibbs energy over `RT` per mole. -/
noncomputable def geMole (R : ℝ) (ints : List RInt) (T : ℝ) (X : ℕ → ℝ) : ℝ :=
  (ints.map (fun i => X i.A * X i.B *
    ∑ m ∈ Finset.range (max i.hs.length i.ss.length),
      (i.hs.getD m 0 - T * i.ss.getD m 0) / (R * T) * (X i.A - X i.B) ^ m)).sum

/-- Excess Gibbs energy over `RT` of mole numbers. -/
noncomputable def GE (kk : ℕ) (R : ℝ) (ints : List RInt) (T : ℝ) (n : ℕ → ℝ) : ℝ :=
  tot kk n * geMole R ints T (frac kk n)

/-- Coefficients over `RT`. -/
noncomputable def cf (R T : ℝ) (i : RInt) : ℕ → ℝ := fun m => (i.he m - T * i.se m) / (R * T)

theorem geMole_eq (R : ℝ) (ints : List RInt) (T : ℝ) (X : ℕ → ℝ) :
    geMole R ints T X = (ints.map (fun i => X i.A * X i.B * P (cf R T i) i.N (X i.A - X i.B))).sum := rfl

theorem loop_eq (a : ℕ → ℝ) (N : ℕ) (d : ℝ) : loop a N d =
    ⟨d ^ N, d ^ (N - 1), d ^ (N - 2), P a N d, P a N d + d * P1 a N d, P1 a N d, 2 * P1 a N d + d * P2 a N d,
      P2 a N d⟩ := by
  unfold loop
  induction N with
  | zero => simp [P, P1, P2]
  | succ n ih =>
    rw [List.range_succ, List.foldl_append, ih]
    have e0 : P a (n + 1) d = P a n d + a n * d ^ n := Finset.sum_range_succ _ _
    have e1 : P1 a (n + 1) d = P1 a n d + a n * (n * d ^ (n - 1)) := Finset.sum_range_succ _ _
    have e2 : P2 a (n + 1) d = P2 a n d + a n * (n * ((n - 1) * d ^ (n - 2))) := Finset.sum_range_succ _ _
    rcases n with _ | _ | n
    · simp [step, P, P1, P2]
    · simp [step, e0, e1, e2]
      refine ⟨?_, ?_, ?_⟩ <;> ring
    · simp only [List.foldl_cons, List.foldl_nil, step, e0, e1, e2, if_pos (show 1 ≤ n + 1 + 1 by omega),
        if_pos (show 2 ≤ n + 1 + 1 by omega)]
      simp only [Acc.mk.injEq, show n + 1 + 1 - 2 = n by omega, show n + 1 + 1 - 1 = n + 1 by omega,
        show n + 1 + 1 + 1 - 1 = n + 2 by omega, show n + 1 + 1 + 1 - 2 = n + 1 by omega]
      push_cast
      refine ⟨?_, ?_, ?_, ?_, ?_, ?_, ?_, ?_⟩ <;> first | trivial | ring

/-- What one interaction adds to entry `k`, from the polynomial `S` and its derivative `S1`. -/
noncomputable def inc (A B : ℕ) (S S1 : ℝ) (X : ℕ → ℝ) (k : ℕ) : ℝ :=
  S * (dlt A k * X B + dlt B k * X A - X A * X B) + X A * X B * S1 * (dlt A k - dlt B k - (X A - X B))

theorem addTerm_apply (kk A B : ℕ) (hAB : A ≠ B) (a : ℕ → ℝ) (N : ℕ) (X v : ℕ → ℝ) (k : ℕ) (hk : k < kk) :
    addTerm kk A B a N X v k = v k + inc A B (P a N (X A - X B)) (P1 a N (X A - X B)) X k := by
  simp only [addTerm, loop_eq, if_pos hk, inc, dlt]
  by_cases e1 : A = k
  · subst e1
    simp only [if_true, if_neg (Ne.symm hAB)]; ring
  · by_cases e2 : B = k
    · simp only [e1, e2, if_true, if_false]; ring
    · simp only [e1, e2, if_false]; ring

theorem lnAct_eq (kk : ℕ) (R : ℝ) (ints : List RInt) (h : Valid kk ints) (T : ℝ) (X : ℕ → ℝ) (k : ℕ) (hk : k < kk) :
    lnAct kk R ints T X k = (ints.map (fun i =>
      inc i.A i.B (P (cf R T i) i.N (X i.A - X i.B)) (P1 (cf R T i) i.N (X i.A - X i.B)) X k)).sum := by
  rw [lnAct, foldl_vec ints (fun v i => addTerm kk i.A i.B (fun m => (i.he m - T * i.se m) / (R * T)) i.N X v) (fun i k =>
    inc i.A i.B (P (cf R T i) i.N (X i.A - X i.B)) (P1 (cf R T i) i.N (X i.A - X i.B)) X k) kk
    (fun v i hi k hk => addTerm_apply kk i.A i.B (h i hi).2.2 _ _ X v k hk) _ k hk, zero_add]

theorem dT_eq (kk : ℕ) (R : ℝ) (ints : List RInt) (h : Valid kk ints) (T : ℝ) (X : ℕ → ℝ) (k : ℕ) (hk : k < kk) :
    dT kk R ints T X k = (ints.map (fun i =>
      inc i.A i.B (P (fun m => -i.he m / (R * T * T)) i.N (X i.A - X i.B))
        (P1 (fun m => -i.he m / (R * T * T)) i.N (X i.A - X i.B)) X k)).sum := by
  rw [dT, foldl_vec ints _ (fun i k =>
    inc i.A i.B (P (fun m => -i.he m / (R * T * T)) i.N (X i.A - X i.B))
        (P1 (fun m => -i.he m / (R * T * T)) i.N (X i.A - X i.B)) X k) kk
    (fun v i hi k hk => addTerm_apply kk i.A i.B (h i hi).2.2 _ _ X v k hk) _ k hk, zero_add]

theorem term_deriv (kk A B : ℕ) (S : ℝ → ℝ) (S1 : ℝ) (n : ℕ → ℝ) (k : ℕ) (hk : k < kk) (hn : tot kk n ≠ 0)
    (hS : HasDerivAt S S1 (frac kk n A - frac kk n B)) :
    HasDerivAt (fun t => tot kk (Function.update n k t) *
      (frac kk (Function.update n k t) A * frac kk (Function.update n k t) B *
        S (frac kk (Function.update n k t) A - frac kk (Function.update n k t) B)))
      (inc A B (S (frac kk n A - frac kk n B)) S1 (frac kk n) k) (n k) := by
  have hA := hasDerivAt_frac kk n k hk hn A
  have hB := hasDerivAt_frac kk n k hk hn B
  have hS' : HasDerivAt S S1 ((fun t => frac kk (Function.update n k t) A - frac kk (Function.update n k t) B) (n k)) := by
    simpa only [update_self] using hS
  have h1 := (hasDerivAt_tot kk n k hk).mul ((hA.mul hB).mul (hS'.comp (n k) (hA.sub hB)))
  refine h1.congr_deriv ?_
  simp only [Pi.mul_apply, Function.comp, Pi.sub_apply, update_self]
  rw [inc]
  field_simp
  ring

/-- C64: the logarithms of the activity coefficients are the derivatives of the total excess Gibbs energy
(over `RT`) with respect to the mole numbers, for any number of polynomial coefficients. -/
theorem rk_activity (kk : ℕ) (R : ℝ) (ints : List RInt) (h : Valid kk ints) (T : ℝ) (n : ℕ → ℝ)
    (hn : tot kk n ≠ 0) (k : ℕ) (hk : k < kk) :
    HasDerivAt (fun t => GE kk R ints T (Function.update n k t)) (lnAct kk R ints T (frac kk n) k) (n k) := by
  rw [lnAct_eq kk R ints h T _ k hk]
  refine (hasDerivAt_listSum ints _ _ (n k)
    (fun i _ => term_deriv kk i.A i.B _ _ n k hk hn (P_deriv (cf R T i) i.N _))).congr_of_eventuallyEq
    (Filter.Eventually.of_forall fun t => ?_)
  simp only [GE, geMole_eq]
  rw [mul_listSum]

/-- Two interactions among three species, with three and two coefficients. -/
def exInts : List RInt := [⟨0, 1, [1, 2, 3], [1]⟩, ⟨2, 1, [4], [0, 1]⟩]

theorem ex_valid : Valid 3 exInts := by
  intro i hi; simp [exInts] at hi; rcases hi with rfl | rfl <;> simp

theorem ex_tot : tot 3 (fun _ => 1) ≠ 0 := by norm_num [tot, Finset.sum_range_succ]

example : HasDerivAt (fun t => GE 3 1 exInts 1 (Function.update (fun _ => 1) 0 t))
    (lnAct 3 1 exInts 1 (frac 3 (fun _ => 1)) 0) 1 :=
  rk_activity 3 1 exInts ex_valid 1 (fun _ => 1) ex_tot 0 (by norm_num)

theorem sum_inc (kk A B : ℕ) (hA : A < kk) (hB : B < kk) (S S1 : ℝ) (X : ℕ → ℝ)
    (hX : ∑ k ∈ Finset.range kk, X k = 1) :
    ∑ k ∈ Finset.range kk, X k * inc A B S S1 X k = X A * X B * S := by
  have e : ∀ k, X k * inc A B S S1 X k =
      X k * (-(X A * X B) * S - X A * X B * S1 * (X A - X B)) +
      (X k * dlt A k) * (X B * S + X A * X B * S1) + (X k * dlt B k) * (X A * S - X A * X B * S1) := by
    intro k; rw [inc]; ring
  simp only [e, Finset.sum_add_distrib, ← Finset.sum_mul, sum_dlt kk A hA, sum_dlt kk B hB, hX]
  ring

/-- C64: the molar excess Gibbs energy is the mole fraction average of `RT ln γ`. -/
theorem rk_euler (kk : ℕ) (R : ℝ) (ints : List RInt) (h : Valid kk ints) (T : ℝ) (X : ℕ → ℝ)
    (hX : ∑ k ∈ Finset.range kk, X k = 1) :
    ∑ k ∈ Finset.range kk, X k * lnAct kk R ints T X k = geMole R ints T X := by
  have e : ∀ k ∈ Finset.range kk, X k * lnAct kk R ints T X k = (ints.map (fun i => X k *
      inc i.A i.B (P (cf R T i) i.N (X i.A - X i.B)) (P1 (cf R T i) i.N (X i.A - X i.B)) X k)).sum := by
    intro k hk
    rw [lnAct_eq kk R ints h T X k (Finset.mem_range.1 hk), mul_listSum]
  rw [Finset.sum_congr rfl e, sum_comm_list, geMole_eq]
  congr 1
  exact List.map_congr_left fun i hi => sum_inc kk i.A i.B (h i hi).1 (h i hi).2.1 _ _ X hX

example : ∑ k ∈ Finset.range 3, frac 3 (fun _ => 1) k = 1 := sum_frac 3 _ ex_tot

/-! ### Temperature -/

theorem P_coef (a : ℕ → ℝ → ℝ) (a' : ℕ → ℝ) (N : ℕ) (d T : ℝ) (h : ∀ m, HasDerivAt (a m) (a' m) T) :
    HasDerivAt (fun T => P (fun m => a m T) N d) (P a' N d) T ∧
    HasDerivAt (fun T => P1 (fun m => a m T) N d) (P1 a' N d) T :=
  ⟨HasDerivAt.fun_sum fun m _ => (h m).mul_const _, HasDerivAt.fun_sum fun m _ => (h m).mul_const _⟩

theorem inc_deriv (A B : ℕ) (S S1 : ℝ → ℝ) (S' S1' T : ℝ) (X : ℕ → ℝ) (k : ℕ) (h0 : HasDerivAt S S' T)
    (h1 : HasDerivAt S1 S1' T) :
    HasDerivAt (fun T => inc A B (S T) (S1 T) X k) (inc A B S' S1' X k) T :=
  (h0.mul_const _).add ((h1.const_mul (X A * X B)).mul_const _)

theorem cf_deriv (R T : ℝ) (hR : R ≠ 0) (hT : T ≠ 0) (i : RInt) (m : ℕ) :
    HasDerivAt (fun T => cf R T i m) (-i.he m / (R * T * T)) T := by
  have h1 : HasDerivAt (fun T => i.he m - T * i.se m) (-i.se m) T := by
    simpa using ((hasDerivAt_id' T).mul_const (i.se m)).const_sub (i.he m)
  have h2 : HasDerivAt (fun T => R * T) R T := by simpa using (hasDerivAt_id' T).const_mul R
  refine (h1.div h2 (mul_ne_zero hR hT)).congr_deriv ?_
  field_simp; ring

/-- C64: `getdlnActCoeffdT` and `getd2lnActCoeffdT2` return the first and second temperature derivatives of
the logarithms of the activity coefficients. -/
theorem rk_temperature (kk : ℕ) (R : ℝ) (hR : R ≠ 0) (ints : List RInt) (h : Valid kk ints) (T : ℝ)
    (hT : T ≠ 0) (X : ℕ → ℝ) (k : ℕ) (hk : k < kk) :
    HasDerivAt (fun T => lnAct kk R ints T X k) (dT kk R ints T X k) T ∧
    HasDerivAt (fun T => dT kk R ints T X k) (d2T kk R ints T X k) T := by
  constructor
  · simp only [lnAct_eq kk R ints h _ X k hk]
    rw [dT_eq kk R ints h T X k hk]
    refine hasDerivAt_listSum ints _ _ T fun i _ => ?_
    have hp := P_coef (fun m T => cf R T i m) (fun m => -i.he m / (R * T * T)) i.N (X i.A - X i.B) T
      (cf_deriv R T hR hT i)
    exact inc_deriv i.A i.B _ _ _ _ T X k hp.1 hp.2
  · rw [d2T, dT_eq kk R ints h T X k hk, mul_listSum]
    simp only [dT_eq kk R ints h _ X k hk]
    refine hasDerivAt_listSum ints _ _ T fun i _ => ?_
    have hi : ∀ m, HasDerivAt (fun T : ℝ => -i.he m / (R * T * T)) (-2 / T * (-i.he m / (R * T * T))) T := by
      intro m
      have h1 : HasDerivAt (fun T : ℝ => R * T * T) (R * T + R * T) T := by
        refine (((hasDerivAt_id' T).const_mul R).mul (hasDerivAt_id' T)).congr_deriv ?_; ring
      refine ((hasDerivAt_const T (-i.he m)).div h1 (by simp [hR, hT])).congr_deriv ?_
      field_simp; ring
    have hp := P_coef (fun m T => -i.he m / (R * T * T)) _ i.N (X i.A - X i.B) T hi
    refine (inc_deriv i.A i.B _ _ _ _ T X k hp.1 hp.2).congr_deriv ?_
    have e0 : P (fun m => -2 / T * (-i.he m / (R * T * T))) i.N (X i.A - X i.B) =
        -2 / T * P (fun m => -i.he m / (R * T * T)) i.N (X i.A - X i.B) := by
      rw [P, P, Finset.mul_sum]; exact Finset.sum_congr rfl fun m _ => by ring
    have e1 : P1 (fun m => -2 / T * (-i.he m / (R * T * T))) i.N (X i.A - X i.B) =
        -2 / T * P1 (fun m => -i.he m / (R * T * T)) i.N (X i.A - X i.B) := by
      rw [P1, P1, Finset.mul_sum]; exact Finset.sum_congr rfl fun m _ => by ring
    rw [e0, e1, inc, inc]; ring

example : HasDerivAt (fun T => lnAct 3 1 exInts T (fun _ => 1 / 3) 0) (dT 3 1 exInts 2 (fun _ => 1 / 3) 0) 2 :=
  (rk_temperature 3 1 one_ne_zero exInts ex_valid 2 two_ne_zero _ 0 (by norm_num)).1

/-- C64: entropies are minus the temperature derivatives of the chemical potentials, `μ = h̄ - T s̄`, and heat
capacities are the temperature derivatives of the partial molar enthalpies, if the standard state
functions are consistent. -/
theorem rk_partial_molar (kk : ℕ) (R : ℝ) (hR : R ≠ 0) (ints : List RInt) (h : Valid kk ints) (T : ℝ)
    (hT : T ≠ 0) (X : ℕ → ℝ) (k : ℕ) (hk : k < kk) (mu0 h0 s0 cp0 : ℝ → ℕ → ℝ)
    (hmu : ∀ T, mu0 T k = R * T * (h0 T k - s0 T k))
    (hs : HasDerivAt (fun T => mu0 T k) (-(R * s0 T k)) T)
    (hcp : HasDerivAt (fun T => h0 T k * (R * T)) (R * cp0 T k) T) :
    HasDerivAt (fun T => mu kk R ints (mu0 T) T X k) (-(sbar kk R ints (s0 T) T X k)) T ∧
    mu kk R ints (mu0 T) T X k = hbar kk R ints (h0 T) T X k - T * sbar kk R ints (s0 T) T X k ∧
    HasDerivAt (fun T => hbar kk R ints (h0 T) T X k) (cpbar R (cp0 T) k) T := by
  obtain ⟨d1, d2⟩ := rk_temperature kk R hR ints h T hT X k hk
  have hRT : HasDerivAt (fun T => R * T) R T := by simpa using (hasDerivAt_id' T).const_mul R
  refine ⟨?_, ?_, ?_⟩
  · refine (hs.add (hRT.mul (d1.const_add (Real.log (max (X k) small))))).congr_deriv ?_
    simp only [sbar]; ring
  · simp only [mu, hbar, sbar, hmu]; ring
  · have hRTT : HasDerivAt (fun T => R * T * T) (2 * R * T) T := by
      refine (hRT.mul (hasDerivAt_id' T)).congr_deriv ?_; ring
    refine (hcp.sub (hRTT.mul d2)).congr_deriv ?_
    simp only [cpbar, d2T]; field_simp; ring

/-- The hypotheses on standard states hold, for example, for heat capacity zero. -/
example : ∃ mu0 h0 s0 cp0 : ℝ → ℕ → ℝ, (∀ T, mu0 T 0 = 1 * T * (h0 T 0 - s0 T 0)) ∧
    HasDerivAt (fun T => mu0 T 0) (-(1 * s0 2 0)) 2 ∧
    HasDerivAt (fun T => h0 T 0 * (1 * T)) (1 * cp0 2 0) 2 := by
  refine ⟨fun T _ => -(T * 3), fun _ _ => 0, fun _ _ => 3, fun _ _ => 0, fun T => by ring, ?_, ?_⟩
  · simpa using ((hasDerivAt_id' (2 : ℝ)).mul_const 3).fun_neg
  · simpa using hasDerivAt_const (2 : ℝ) (0 : ℝ)

/-! ### Composition derivatives -/

/-- Derivative of `inc` along a path of compositions. -/
noncomputable def incPath (A B : ℕ) (S S1 S2 : ℝ) (X dX : ℕ → ℝ) (k : ℕ) : ℝ :=
  S1 * (dX A - dX B) * (dlt A k * X B + dlt B k * X A - X A * X B) +
    S * (dlt A k * dX B + dlt B k * dX A - (dX A * X B + X A * dX B)) +
    ((dX A * X B + X A * dX B) * S1 + X A * X B * (S2 * (dX A - dX B))) * (dlt A k - dlt B k - (X A - X B)) -
    X A * X B * S1 * (dX A - dX B)

theorem path_deriv (kk : ℕ) (R : ℝ) (ints : List RInt) (h : Valid kk ints) (T : ℝ) (X : ℝ → ℕ → ℝ) (dX : ℕ → ℝ)
    (s : ℝ) (hX : ∀ k, HasDerivAt (fun s => X s k) (dX k) s) (k : ℕ) (hk : k < kk) :
    HasDerivAt (fun s => lnAct kk R ints T (X s) k)
      (ints.map (fun i => incPath i.A i.B (P (cf R T i) i.N (X s i.A - X s i.B))
        (P1 (cf R T i) i.N (X s i.A - X s i.B)) (P2 (cf R T i) i.N (X s i.A - X s i.B)) (X s) dX k)).sum s := by
  simp only [lnAct_eq kk R ints h T _ k hk]
  refine hasDerivAt_listSum ints _ _ s fun i _ => ?_
  have hA := hX i.A
  have hB := hX i.B
  have hd := hA.sub hB
  have h0 : HasDerivAt (fun s => P (cf R T i) i.N (X s i.A - X s i.B)) _ s := (P_deriv (cf R T i) i.N _).comp s hd
  have h1 : HasDerivAt (fun s => P1 (cf R T i) i.N (X s i.A - X s i.B)) _ s := (P1_deriv (cf R T i) i.N _).comp s hd
  have hAB := hA.mul hB
  have q := (h0.mul (((hB.const_mul (dlt i.A k)).add (hA.const_mul (dlt i.B k))).sub hAB)).add
    ((hAB.mul h1).mul (hd.const_sub (dlt i.A k - dlt i.B k)))
  refine q.congr_deriv ?_
  simp only [Pi.mul_apply, Pi.add_apply, Pi.sub_apply]
  rw [incPath]
  ring

theorem diagStep_apply (kk : ℕ) (R T : ℝ) (X v : ℕ → ℝ) (i : RInt) (k : ℕ) (hk : k < kk) (hAB : i.A ≠ i.B) :
    diagStep kk R T X v i k = v k +
      (dlt i.A k + dlt i.B k) * (X k * incPath i.A i.B (P (cf R T i) i.N (X i.A - X i.B))
        (P1 (cf R T i) i.N (X i.A - X i.B)) (P2 (cf R T i) i.N (X i.A - X i.B)) X
        (fun j => if j = k then 1 else if j = i.A ∨ j = i.B then -1 else 0) k) := by
  simp only [diagStep, loop_eq, if_pos hk]
  have hc : (fun m => (i.he m - T * i.se m) / (R * T)) = cf R T i := rfl
  rw [hc]
  generalize P (cf R T i) i.N (X i.A - X i.B) = S
  generalize P1 (cf R T i) i.N (X i.A - X i.B) = S1
  generalize P2 (cf R T i) i.N (X i.A - X i.B) = S2
  by_cases e1 : i.A = k
  · have e2 : i.B ≠ k := fun e => hAB (e1.trans e.symm)
    subst e1
    simp only [if_true, incPath, dlt, if_neg e2, or_true]; ring
  · by_cases e2 : i.B = k
    · subst e2
      simp only [if_true, incPath, dlt, if_neg e1, true_or]; ring
    · simp only [e1, e2, if_false, dlt]; ring

/-- C64: `getdlnActCoeffdlnX_diag` returns `X_a ∂ln γ_a/∂X_a` along the line on which the other species `b` of
all interactions makes up the change (in particular for every binary solution). -/
theorem rk_dlnX_diag (kk : ℕ) (R : ℝ) (ints : List RInt) (h : Valid kk ints) (T : ℝ) (a b : ℕ) (ha : a < kk)
    (hp : ∀ i ∈ ints, (i.A = a ∧ i.B = b) ∨ (i.A = b ∧ i.B = a)) (X : ℝ → ℕ → ℝ) (dX : ℕ → ℝ) (s : ℝ)
    (hX : ∀ k, HasDerivAt (fun s => X s k) (dX k) s) (hda : dX a = 1) (hdb : dX b = -1) :
    ∃ d, HasDerivAt (fun s => lnAct kk R ints T (X s) a) d s ∧ dlnXdiag kk R ints T (X s) a = X s a * d := by
  refine ⟨_, path_deriv kk R ints h T X dX s hX a ha, ?_⟩
  rw [dlnXdiag, foldl_vec ints _ _ kk
    (fun v i hi k hk => diagStep_apply kk R T (X s) v i k hk (h i hi).2.2) _ a ha, zero_add, mul_listSum]
  congr 1
  refine List.map_congr_left fun i hi => ?_
  have hab := (h i hi).2.2
  rcases hp i hi with ⟨e1, e2⟩ | ⟨e1, e2⟩
  · rw [e1, e2] at hab
    simp only [e1, e2, dlt, if_neg (Ne.symm hab), incPath, hda, hdb, if_true, true_or, or_true]; ring
  · rw [e1, e2] at hab
    simp only [e1, e2, dlt, if_neg hab, incPath, hda, hdb, if_true, true_or, or_true]; ring

example : ∃ (X : ℝ → ℕ → ℝ) (dX : ℕ → ℝ), (∀ k, HasDerivAt (fun s => X s k) (dX k) (1 / 3)) ∧ dX 0 = 1 ∧ dX 1 = -1 ∧
    X (1 / 3) 0 + X (1 / 3) 1 = 1 ∧ Valid 2 [⟨1, 0, [1, 2], []⟩] := by
  refine ⟨fun s k => if k = 0 then s else 1 - s, fun k => if k = 0 then 1 else -1, ?_, by simp, by simp, by norm_num, ?_⟩
  · intro k
    by_cases e : k = 0
    · subst e; simpa using hasDerivAt_id' (1 / 3 : ℝ)
    · simpa [e] using (hasDerivAt_id' (1 / 3 : ℝ)).const_sub 1
  · intro i hi; simp at hi; subst hi; simp

theorem P_scale (c : ℝ) (a : ℕ → ℝ) (N : ℕ) (d : ℝ) : P (fun m => a m / c) N d = P a N d / c ∧
    P1 (fun m => a m / c) N d = P1 a N d / c ∧ P2 (fun m => a m / c) N d = P2 a N d / c := by
  refine ⟨?_, ?_, ?_⟩
  · rw [P, P, Finset.sum_div]; exact Finset.sum_congr rfl fun m _ => by ring
  · rw [P1, P1, Finset.sum_div]; exact Finset.sum_congr rfl fun m _ => by ring
  · rw [P2, P2, Finset.sum_div]; exact Finset.sum_congr rfl fun m _ => by ring

/-- C64 (partial: the entry of row `B` and column `A` of each interaction is wrong, see `rk_dX_wrong`, and all entries
lack the factor `1/RT`): the entries of `dlnActCoeff_dX_` are `RT ∂ln γ_k/∂X_j`. -/
theorem rk_dX_partial (kk : ℕ) (R : ℝ) (T : ℝ) (hRT : R * T ≠ 0) (i : RInt) (h : Valid kk [i]) (X : ℕ → ℝ)
    (k : ℕ) (hk : k < kk) :
    (k ≠ i.B → HasDerivAt (fun t => R * T * lnAct kk R [i] T (Function.update X i.A t) k) (dXA T X i k) (X i.A)) ∧
    HasDerivAt (fun t => R * T * lnAct kk R [i] T (Function.update X i.B t) k) (dXB T X i k) (X i.B) := by
  have hAB := (h i (by simp)).2.2
  have hc : cf R T i = fun m => (fun m => i.he m - T * i.se m) m / (R * T) := rfl
  have key : ∀ c, HasDerivAt (fun t => R * T * lnAct kk R [i] T (Function.update X c t) k)
      (incPath i.A i.B (P (fun m => i.he m - T * i.se m) i.N (X i.A - X i.B))
        (P1 (fun m => i.he m - T * i.se m) i.N (X i.A - X i.B))
        (P2 (fun m => i.he m - T * i.se m) i.N (X i.A - X i.B)) X (fun j => dlt j c) k) (X c) := by
    intro c
    have q := path_deriv kk R [i] h T (fun t => Function.update X c t) (fun j => dlt j c) (X c)
      (fun j => hasDerivAt_coord X c j) k hk
    refine (q.const_mul (R * T)).congr_deriv ?_
    simp only [List.map_cons, List.map_nil, List.sum_cons, List.sum_nil, update_self, hc]
    obtain ⟨p0, p1, p2⟩ := P_scale (R * T) (fun m => i.he m - T * i.se m) i.N (X i.A - X i.B)
    rw [p0, p1, p2, incPath, incPath]
    generalize R * T = c at hRT
    field_simp
    ring
  constructor
  · intro hkB
    refine (key i.A).congr_deriv ?_
    simp only [dXA, loop_eq, incPath]
    have e3 : ¬ i.B = k := fun e => hkB e.symm
    by_cases e1 : i.A = k
    · subst e1; simp only [dlt, if_true, if_neg (Ne.symm hAB)]; ring
    · simp only [dlt, if_true, if_neg (Ne.symm hAB), if_neg e1, if_neg e3]; ring
  · refine (key i.B).congr_deriv ?_
    simp only [dXB, loop_eq, incPath]
    by_cases e1 : i.A = k
    · have e2 : i.B ≠ k := fun e => hAB (e1.trans e.symm)
      subst e1; simp only [dlt, if_true, if_neg (Ne.symm hAB), if_neg hAB]; ring
    · by_cases e2 : i.B = k
      · subst e2; simp only [dlt, if_true, if_neg hAB]; ring
      · simp only [dlt, if_true, if_neg hAB, if_neg e1, if_neg e2]; ring

example : Valid 2 [⟨0, 1, [0, 1], []⟩] ∧ (1 : ℝ) * 2 ≠ 0 := by
  refine ⟨?_, by norm_num⟩
  intro i hi; simp at hi; subst hi; simp

/-- C64, negation: the entry of row `B` and column `A` is not the derivative, even up to the factor. -/
theorem rk_dX_wrong : ∃ (i : RInt) (X : ℕ → ℝ) (d : ℝ), Valid 2 [i] ∧ X 0 + X 1 = 1 ∧ i.A = 0 ∧ i.B = 1 ∧
    HasDerivAt (fun t => lnAct 2 1 [i] 1 (Function.update X 0 t) 1) d (X 0) ∧ d = -(1 / 2) ∧ dXA 1 X i 1 = 1 / 2 := by
  have hv : Valid 2 [⟨0, 1, [0, 1], []⟩] := by
    intro i hi; simp at hi; subst hi; simp
  refine ⟨⟨0, 1, [0, 1], []⟩, fun _ => 1 / 2, _, hv, by norm_num, rfl, rfl,
    path_deriv 2 1 _ hv 1 (fun t => Function.update (fun _ => 1 / 2) 0 t) (fun j => dlt j 0) (1 / 2)
      (fun j => hasDerivAt_coord (fun _ => 1 / 2) 0 j) 1 (by norm_num), ?_, ?_⟩
  · norm_num [incPath, P, P1, P2, cf, RInt.he, RInt.se, RInt.N, Finset.sum_range_succ, dlt, Function.update]
  · norm_num [dXA, loop_eq, P, P1, P2, RInt.he, RInt.se, RInt.N, Finset.sum_range_succ]

/-! ### Size of the matrix -/

theorem forM_inv {α σ : Type} (f : σ → α → Outcome σ) (I : σ → Prop) (hf : ∀ s a s', I s → f s a = .ok s' → I s')
    (l : List α) (s s' : σ) (hs : I s) (h : forM f l s = .ok s') : I s' := by
  induction l generalizing s with
  | nil => simp only [forM, Outcome.ok.injEq] at h; exact h ▸ hs
  | cons a l ih =>
    simp only [forM] at h
    split at h
    · exact ih _ (hf _ _ _ hs (by assumption)) h
    · simp at h
    · simp at h

theorem addAt_length (N : ℕ) (data d' : List ℝ) (k j : ℕ) (v : ℝ) (h : addAt N data k j v = .ok d') :
    d'.length = data.length := by
  unfold addAt at h
  split at h
  · simp only [Outcome.ok.injEq] at h; rw [← h]; simp
  · simp at h

theorem updateDX_length (kk : ℕ) (ints : List RInt) (T : ℝ) (X : ℕ → ℝ) (data : List ℝ)
    (h : updateDX kk ints T X = .ok data) : data.length = matSize ints * matSize ints := by
  refine forM_inv _ (fun d => d.length = matSize ints * matSize ints) ?_ ints _ data (by simp) h
  intro d i d' hd h1
  refine forM_inv _ (fun d => d.length = matSize ints * matSize ints) ?_ (List.range kk) d d' hd h1
  intro d k d' hd h1
  split at h1
  · rw [addAt_length _ _ _ _ _ _ h1, addAt_length _ _ _ _ _ _ (by assumption), hd]
  · simp at h1
  · simp at h1

theorem forM_notThrow {α σ : Type} (f : σ → α → Outcome σ) (l : List α) (hf : ∀ s, ∀ a ∈ l, f s a ≠ .throw) (s : σ) :
    forM f l s ≠ .throw := by
  induction l generalizing s with
  | nil => simp [forM]
  | cons a l ih =>
    simp only [forM]
    split
    · exact ih (fun s b hb => hf s b (by simp [hb])) _
    · rename_i e; exact absurd e (hf s a (by simp))
    · simp

theorem addAt_notThrow (N : ℕ) (data : List ℝ) (k j : ℕ) (v : ℝ) : addAt N data k j v ≠ .throw := by
  unfold addAt; split <;> simp

theorem updateDX_notThrow (kk : ℕ) (ints : List RInt) (T : ℝ) (X : ℕ → ℝ) : updateDX kk ints T X ≠ .throw := by
  refine forM_notThrow _ _ (fun s i _ => forM_notThrow _ _ (fun s k _ => ?_) _) _
  split
  · exact addAt_notThrow _ _ _ _ _
  · rename_i e; exact absurd e (addAt_notThrow _ _ _ _ _)
  · simp

theorem forM_mem_ub {α σ : Type} (f : σ → α → Outcome σ) (l : List α) (hf : ∀ s, ∀ a ∈ l, f s a ≠ .throw) (s : σ)
    (b : α) (hb : b ∈ l) (hub : ∀ s, f s b = .ub) : forM f l s = .ub := by
  induction l generalizing s with
  | nil => simp at hb
  | cons a l ih =>
    simp only [forM]
    split
    · rename_i s' e
      rcases List.mem_cons.1 hb with rfl | hb
      · rw [hub] at e; simp at e
      · exact ih (fun s c hc => hf s c (by simp [hc])) _ hb
    · rename_i e; exact absurd e (hf s a (by simp))
    · rfl

/-- C64, negation: `getdlnActCoeffds` is undefined behaviour in every phase with more species than the last
interaction has coefficients. -/
theorem rk_ds_ub (kk : ℕ) (R : ℝ) (ints : List RInt) (i : RInt) (T : ℝ) (X dX : ℕ → ℝ) (dTds : ℝ) (k : ℕ)
    (h : max i.hs.length i.ss.length < kk) : ds kk R (ints ++ [i]) T X dX dTds k = .ub := by
  have hm : matSize (ints ++ [i]) = max i.hs.length i.ss.length := by
    simp [matSize, RInt.N]
  unfold ds
  split
  · rename_i data e
    have hl := updateDX_length kk _ T X data e
    rw [hm] at hl ⊢
    refine forM_mem_ub _ _ ?_ _ (max i.hs.length i.ss.length) (List.mem_range.2 h) ?_
    · intro s j _; split <;> simp
    · intro s
      rw [if_neg]
      rw [hl]; omega
  · rename_i e; exact absurd e (updateDX_notThrow _ _ _ _)
  · rfl

example : ds 2 1 [⟨0, 1, [1], []⟩] 1 (fun _ => 1 / 2) (fun _ => 0) 0 0 = .ub :=
  rk_ds_ub 2 1 [] ⟨0, 1, [1], []⟩ 1 _ _ 0 0 (by simp)

/-- C64, negation: where `getdlnActCoeffds` is defined it lacks the factor `1/RT`: for a regular solution of two
species at `RT = 2` it returns twice the derivative. -/
theorem rk_ds_wrong : ∃ (X : ℝ → ℕ → ℝ) (dX : ℕ → ℝ) (d : ℝ), (∀ k, HasDerivAt (fun s => X s k) (dX k) (1 / 4)) ∧
    (∀ s, X s 0 + X s 1 = 1) ∧ HasDerivAt (fun s => lnAct 2 1 [⟨0, 1, [1, 0], []⟩] 2 (X s) 0) d (1 / 4) ∧ d ≠ 0 ∧
    ds 2 1 [⟨0, 1, [1, 0], []⟩] 2 (X (1 / 4)) dX 0 0 = .ok (2 * d) := by
  have hX : ∀ k : ℕ, HasDerivAt (fun s : ℝ => if k = 0 then s else 1 - s) (if k = 0 then 1 else -1) (1 / 4) := by
    intro k
    by_cases e : k = 0
    · subst e; simpa using hasDerivAt_id' (1 / 4 : ℝ)
    · simpa [e] using (hasDerivAt_id' (1 / 4 : ℝ)).const_sub 1
  have hv : Valid 2 [⟨0, 1, [1, 0], []⟩] := by
    intro i hi; simp at hi; subst hi; simp
  refine ⟨fun s k => if k = 0 then s else 1 - s, fun k => if k = 0 then 1 else -1, _, hX, fun s => by simp,
    path_deriv 2 1 _ hv 2 (fun s k => if k = 0 then s else 1 - s) _ (1 / 4) hX 0 (by norm_num), ?_, ?_⟩
  · norm_num [incPath, P, P1, P2, cf, RInt.he, RInt.se, RInt.N, Finset.sum_range_succ, dlt]
  · norm_num [ds, updateDX, forM, addAt, matSize, RInt.N, List.range_succ, dXA, dXB, loop_eq, P, P1, P2, RInt.he,
      RInt.se, Finset.sum_range_succ, incPath, dlt, cf]

/-- C64, negation: `getdlnActCoeffdlnN` never returns anything but zeros. -/
theorem rk_dlnN_zero (kk : ℕ) (ints : List RInt) (T : ℝ) (X : ℕ → ℝ) (k m : ℕ) (v : ℝ)
    (h : getdlnN kk ints T X k m = .ok v) : v = 0 := by
  unfold getdlnN at h
  split at h
  · simpa using h.symm
  · simp at h
  · simp at h

example : getdlnN 2 [⟨0, 1, [1, 0], []⟩] 2 (fun _ => 1 / 2) 0 0 = .ok 0 := by
  norm_num [getdlnN, updateDX, forM, addAt, matSize, RInt.N, List.range_succ]

end Verif.Thermo.RedlichKister
