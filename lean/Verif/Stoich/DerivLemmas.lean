import Verif.Stoich.MulLemmas
import Mathlib.Analysis.SpecialFunctions.Pow.Deriv
import Mathlib.Analysis.Calculus.Deriv.Mul

namespace Verif.Stoich

open Verif Topology

theorem jacAdd_eq (J : Jac) (r k : ℕ) (x : ℝ) :
    jacAdd J r k x = J + Pi.single r (Pi.single k x) := by
  funext i j
  by_cases h : i = r
  · subst h
    by_cases h2 : j = k
    · subst h2; simp [jacAdd]
    · simp [jacAdd, h2]
  · simp [jacAdd, h]

theorem foldl_addJ {α : Type*} (f : Jac → α → Jac) (g : α → Jac) (h : ∀ S a, f S a = S + g a)
    (l : List α) (S : Jac) : l.foldl f S = S + (l.map g).sum := by
  induction l generalizing S with
  | nil => simp
  | cons a l ih => simp [ih, h, add_assoc]

/-- Derivative contribution per handler as a vector over species. -/
noncomputable def C1.der (c : C1) (_S : Vec) (x : ℝ) : Vec := Pi.single c.ic0 x
open Classical in
noncomputable def C2.der (c : C2) (S : Vec) (x : ℝ) : Vec :=
  (if S c.ic1 > 0 then Pi.single c.ic0 (x * S c.ic1) else 0) +
  (if S c.ic0 > 0 then Pi.single c.ic1 (x * S c.ic0) else 0)
open Classical in
noncomputable def C3.der (c : C3) (S : Vec) (x : ℝ) : Vec :=
  (if S c.ic1 > 0 ∧ S c.ic2 > 0 then Pi.single c.ic0 (x * S c.ic1 * S c.ic2) else 0) +
  (if S c.ic0 > 0 ∧ S c.ic2 > 0 then Pi.single c.ic1 (x * S c.ic0 * S c.ic2) else 0) +
  (if S c.ic0 > 0 ∧ S c.ic1 > 0 then Pi.single c.ic2 (x * S c.ic0 * S c.ic1) else 0)
open Classical in
noncomputable def CN.der (c : CN) (S : Vec) (x : ℝ) : Vec :=
  (c.parts.zipIdx.map (fun pi =>
    (Pi.single pi.1.ic (if S pi.1.ic > 0 ∧ pi.1.order ≠ 0 then
        derivProd S pi.2 (x * (pi.1.order * S pi.1.ic ^ (pi.1.order - 1))) c.parts.zipIdx
      else 0) : Vec))).sum

theorem C1.der_eq (c : C1) (S R : Vec) (J : Jac) :
    c.derivatives S R J = J + Pi.single c.rxn (c.der S (R c.rxn)) := jacAdd_eq _ _ _ _
theorem C2.der_eq (c : C2) (S R : Vec) (J : Jac) :
    c.derivatives S R J = J + Pi.single c.rxn (c.der S (R c.rxn)) := by
  simp only [C2.derivatives, C2.der]
  rw [Pi.single_add, ← add_assoc]
  split <;> split <;> simp [jacAdd_eq]
theorem C3.der_eq (c : C3) (S R : Vec) (J : Jac) :
    c.derivatives S R J = J + Pi.single c.rxn (c.der S (R c.rxn)) := by
  simp only [C3.derivatives, C3.der]
  rw [Pi.single_add, Pi.single_add, ← add_assoc, ← add_assoc]
  split <;> split <;> split <;> simp [jacAdd_eq]

theorem single_sumJ {α : Type*} (i : ℕ) (f : α → Vec) (l : List α) :
    (l.map (fun a => (Pi.single i (f a) : Jac))).sum = Pi.single i (l.map f).sum := by
  induction l with
  | nil => simp
  | cons a l ih => simp [ih, Pi.single_add]

theorem CN.der_eq (c : CN) (S R : Vec) (J : Jac) :
    c.derivatives S R J = J + Pi.single c.rxn (c.der S (R c.rxn)) := by
  simp only [CN.derivatives, CN.der]
  rw [← single_sumJ]
  apply foldl_addJ
  intro J pi
  exact jacAdd_eq _ _ _ _

/-- Sum of all contributions. -/
noncomputable def Mgr.der (m : Mgr) (S R : Vec) : Jac :=
  (m.c1.map (fun c => (Pi.single c.rxn (c.der S (R c.rxn)) : Jac))).sum +
  (m.c2.map (fun c => (Pi.single c.rxn (c.der S (R c.rxn)) : Jac))).sum +
  (m.c3.map (fun c => (Pi.single c.rxn (c.der S (R c.rxn)) : Jac))).sum +
  (m.cn.map (fun c => (Pi.single c.rxn (c.der S (R c.rxn)) : Jac))).sum

theorem Mgr.der_eq (m : Mgr) (S R : Vec) : m.derivatives S R = m.der S R := by
  simp only [Mgr.derivatives]
  rw [foldl_addJ _ _ (fun J c => C1.der_eq c S R J), foldl_addJ _ _ (fun J c => C2.der_eq c S R J),
    foldl_addJ _ _ (fun J c => C3.der_eq c S R J), foldl_addJ _ _ (fun J c => CN.der_eq c S R J)]
  simp only [Mgr.der]
  have : (fun _ _ => 0 : Jac) = 0 := rfl
  rw [this, zero_add]

open Classical in
/-- Derivative contribution of a declaration: that of the handler `add` selects. -/
noncomputable def Decl.der (d : Decl) (S : Vec) (x : ℝ) : Vec :=
  if (∃ p ∈ d.parts, p.frac) ∨ d.k.length > 3 then CN.der ⟨d.rxn, d.parts⟩ S x
  else match kRep d.parts with
    | [a] => C1.der ⟨d.rxn, a⟩ S x
    | [a, b] => C2.der ⟨d.rxn, a, b⟩ S x
    | [a, b, c] => C3.der ⟨d.rxn, a, b, c⟩ S x
    | _ => CN.der ⟨d.rxn, d.parts⟩ S x

theorem add_der (m m' : Mgr) (d : Decl) (h : m.add d = .ok m') (S R : Vec) :
    m'.der S R = m.der S R + Pi.single d.rxn (d.der S (R d.rxn)) := by
  simp only [Mgr.add] at h
  split at h
  · simp at h
  split at h
  · simp at h
  simp only [Decl.der]
  split at h
  · rename_i hc
    simp only [Outcome.ok.injEq] at h
    subst h
    rw [if_pos hc]
    simp only [Mgr.der, List.map_append, List.sum_append, List.map_cons, List.map_nil,
      List.sum_cons, List.sum_nil, add_zero, add_assoc]
  · rename_i hc
    rw [if_neg hc]
    split at h <;> (simp only [Outcome.ok.injEq] at h; subst h)
    all_goals
      simp only [Mgr.der, List.map_append, List.sum_append, List.map_cons, List.map_nil,
        List.sum_cons, List.sum_nil, add_zero, *]
      abel

theorem addAll_der (ds : List Decl) (m m' : Mgr) (h : m.addAll ds = .ok m') (S R : Vec) :
    m'.der S R = m.der S R +
      (ds.map (fun d => (Pi.single d.rxn (d.der S (R d.rxn)) : Jac))).sum := by
  induction ds generalizing m with
  | nil => simp only [Mgr.addAll, Outcome.ok.injEq] at h; subst h; simp
  | cons d ds ih =>
    simp only [Mgr.addAll] at h
    cases hd : m.add d with
    | ok m1 =>
      rw [hd, Outcome.bind_ok] at h
      rw [ih m1 h, add_der m m1 d hd, List.map_cons, List.sum_cons, add_assoc]
    | throw => rw [hd] at h; simp at h
    | ub => rw [hd] at h; simp at h

theorem empty_der (S R : Vec) : Mgr.empty.der S R = 0 := by simp [Mgr.der, Mgr.empty]

theorem sum_single_apply (ds : List Decl) (g : Decl → Vec) (i : ℕ) :
    (ds.map (fun d => (Pi.single d.rxn (g d) : Jac))).sum i =
      ((ds.filter (fun d => d.rxn = i)).map g).sum := by
  induction ds with
  | nil => simp
  | cons d ds ih =>
    rw [List.map_cons, List.sum_cons, Pi.add_apply, ih]
    by_cases h : d.rxn = i
    · rw [List.filter_cons_of_pos (by simpa using h)]; subst h; simp
    · rw [List.filter_cons_of_neg (by simpa using h), Pi.single_eq_of_ne (fun e => h e.symm),
        zero_add]

/-! ### The analytic derivative of the mass-action product -/

/-- Derivative of one concentration with respect to the concentration of species `k`. -/
theorem hasDerivAt_update (S : Vec) (k a : ℕ) :
    HasDerivAt (fun x => Function.update S k x a) ((Pi.single a 1 : Vec) k) (S k) := by
  by_cases h : a = k
  · subst h; simpa using hasDerivAt_id' (S a)
  · have h' : k ≠ a := fun e => h e.symm
    simp only [Function.update_of_ne h, Pi.single_eq_of_ne h']
    exact hasDerivAt_const _ _

theorem hasDerivAt_pow (S : Vec) (k a : ℕ) (o : ℝ) (h : 0 < S a) :
    HasDerivAt (fun x => Function.update S k x a ^ o)
      ((Pi.single a (o * S a ^ (o - 1)) : Vec) k) (S k) := by
  have h1 := (hasDerivAt_update S k a).rpow_const (p := o) (Or.inl (by simpa using h.ne'))
  convert h1 using 1
  by_cases e : a = k
  · subst e; simp [mul_comm]
  · simp [Pi.single_eq_of_ne (fun e' => e e'.symm)]

/-- Product rule in the recursive form. -/
noncomputable def dprod (S : Vec) (k : ℕ) : List Part → ℝ
  | [] => 0
  | p :: ps => (Pi.single p.ic (p.order * S p.ic ^ (p.order - 1)) : Vec) k *
      (ps.map (fun p => S p.ic ^ p.order)).prod + S p.ic ^ p.order * dprod S k ps

theorem hasDerivAt_dprod (S : Vec) (k : ℕ) (ps : List Part) (h : ∀ p ∈ ps, 0 < S p.ic) :
    HasDerivAt (fun x => (ps.map (fun p => Function.update S k x p.ic ^ p.order)).prod)
      (dprod S k ps) (S k) := by
  induction ps with
  | nil => simpa [dprod] using hasDerivAt_const (S k) (1 : ℝ)
  | cons p ps ih =>
    have h1 := hasDerivAt_pow S k p.ic p.order (h p (by simp))
    have h2 := ih (fun q hq => h q (by simp [hq]))
    have := h1.mul h2
    simp only [Function.update_eq_self] at this
    exact this

theorem derivProd_eq (S : Vec) (i : ℕ) (x : ℝ) (l : List (Part × ℕ))
    (h : ∀ q ∈ l, 0 < S q.1.ic) :
    derivProd S i x l =
      x * ((l.filter (fun q => q.2 ≠ i)).map (fun q => S q.1.ic ^ q.1.order)).prod := by
  induction l generalizing x with
  | nil => simp [derivProd]
  | cons q l ih =>
    obtain ⟨p, j⟩ := q
    have hp : 0 < S p.ic := h (p, j) (by simp)
    have ih' := fun x => ih x (fun q hq => h q (by simp [hq]))
    by_cases e : i = j
    · subst e
      simp [derivProd, ih']
    · have e' : j ≠ i := fun h => e h.symm
      rw [List.filter_cons_of_pos (by simpa using e')]
      simp only [derivProd, ne_eq, e, not_false_eq_true, if_true, gt_iff_lt, hp, ih',
        List.map_cons, List.prod_cons, mul_assoc]

theorem cn_der_eq_dprod (ps : List Part) (S : Vec) (x : ℝ) (k : ℕ) (n : ℕ)
    (h : ∀ p ∈ ps, 0 < S p.ic) (pre : List (Part × ℕ)) (hpre : ∀ q ∈ pre, q.2 < n)
    (hpos : ∀ q ∈ pre, 0 < S q.1.ic) :
    ((ps.zipIdx n).map (fun pi =>
      (Pi.single pi.1.ic (if S pi.1.ic > 0 ∧ pi.1.order ≠ 0 then
        derivProd S pi.2 (x * (pi.1.order * S pi.1.ic ^ (pi.1.order - 1))) (pre ++ ps.zipIdx n)
      else 0) : Vec))).sum k =
    x * (pre.map (fun q => S q.1.ic ^ q.1.order)).prod * dprod S k ps := by
  induction ps generalizing n pre with
  | nil => simp [dprod]
  | cons p ps ih =>
    have hp : 0 < S p.ic := h p (by simp)
    have hall : ∀ q ∈ pre ++ (p :: ps).zipIdx n, 0 < S q.1.ic := by
      intro q hq
      rcases List.mem_append.1 hq with hq | hq
      · exact hpos q hq
      · exact h _ (List.fst_mem_of_mem_zipIdx hq)
    have hih := ih (n + 1) (fun q hq => h q (by simp [hq])) (pre ++ [(p, n)])
      (by
        intro q hq
        rcases List.mem_append.1 hq with hq | hq
        · exact Nat.lt_succ_of_lt (hpre q hq)
        · simp only [List.mem_singleton] at hq; subst hq; exact Nat.lt_succ_self n)
      (by
        intro q hq
        rcases List.mem_append.1 hq with hq | hq
        · exact hpos q hq
        · simp only [List.mem_singleton] at hq; subst hq; exact hp)
    rw [List.zipIdx_cons, List.map_cons, List.sum_cons, Pi.add_apply]
    simp only [List.append_assoc, List.singleton_append] at hih
    rw [hih]
    have hfirst : (Pi.single p.ic (if S p.ic > 0 ∧ p.order ≠ 0 then
        derivProd S n (x * (p.order * S p.ic ^ (p.order - 1))) (pre ++ (p, n) :: ps.zipIdx (n + 1))
        else 0) : Vec) k =
        x * (pre.map (fun q => S q.1.ic ^ q.1.order)).prod *
        ((Pi.single p.ic (p.order * S p.ic ^ (p.order - 1)) : Vec) k *
          (ps.map (fun p => S p.ic ^ p.order)).prod) := by
      by_cases ek : p.ic = k
      · subst ek
        simp only [Pi.single_eq_same]
        by_cases ho : p.order = 0
        · simp [ho]
        · rw [if_pos ⟨hp, ho⟩, derivProd_eq S n _ _ (by simpa [List.zipIdx_cons] using hall)]
          have hf1 : pre.filter (fun q => decide (q.2 ≠ n)) = pre := by
            apply List.filter_eq_self.2
            intro q hq
            have := hpre q hq
            simp; omega
          have hf2 : (ps.zipIdx (n + 1)).filter (fun q => decide (q.2 ≠ n)) = ps.zipIdx (n + 1) := by
            apply List.filter_eq_self.2
            intro q hq
            have := List.le_snd_of_mem_zipIdx hq
            simp; omega
          rw [List.filter_append, hf1, List.filter_cons_of_neg (by simp), hf2]
          have hm : (ps.zipIdx (n + 1)).map (fun q => S q.1.ic ^ q.1.order) =
              ps.map (fun p => S p.ic ^ p.order) := by
            have := List.map_map (f := Prod.fst) (g := fun p : Part => S p.ic ^ p.order)
              (l := ps.zipIdx (n + 1))
            rw [List.zipIdx_map_fst] at this
            exact this.symm
          rw [List.map_append, List.prod_append, hm]
          ring
      · simp [Pi.single_eq_of_ne (fun e' => ek e'.symm)]
    simp only [] at hfirst ⊢
    rw [hfirst]
    simp only [List.map_append, List.prod_append, List.map_cons, List.map_nil, List.prod_cons,
      List.prod_nil, mul_one, dprod]
    ring

theorem eventually_pos (S : Vec) (k a : ℕ) (h : 0 < S a) :
    ∀ᶠ x in 𝓝 (S k), 0 < Function.update S k x a := by
  have hc := (hasDerivAt_update S k a).continuousAt
  apply hc.eventually_const_lt
  simpa using h

theorem eventually_pos_list (S : Vec) (k : ℕ) (ps : List Part) (h : ∀ p ∈ ps, 0 < S p.ic) :
    ∀ᶠ x in 𝓝 (S k), ∀ p ∈ ps, 0 < Function.update S k x p.ic := by
  induction ps with
  | nil => simp
  | cons p ps ih =>
    have h1 := eventually_pos S k p.ic (h p (by simp))
    have h2 := ih (fun q hq => h q (by simp [hq]))
    filter_upwards [h1, h2] with x a b
    intro q hq
    rcases List.mem_cons.1 hq with rfl | hq
    · exact a
    · exact b q hq

/-- For positive concentrations the derivative entries of a declaration are the partial derivatives
of its rate factor. -/
theorem decl_hasDerivAt (d : Decl) (S : Vec) (r : ℝ) (k : ℕ) (h0 : ∀ p ∈ d.parts, 0 ≤ p.stoich)
    (hpos : ∀ p ∈ d.parts, 0 < S p.ic) :
    HasDerivAt (fun x => r * d.fac (Function.update S k x)) (d.der S r k) (S k) := by
  have hev := eventually_pos_list S k d.parts hpos
  have hfac : (fun x => r * d.fac (Function.update S k x)) =ᶠ[𝓝 (S k)]
      fun x => r * (d.parts.map (fun p => Function.update S k x p.ic ^ p.order)).prod := by
    filter_upwards [hev] with x hx
    rw [decl_fac_eq d _ h0 (fun p hp => Or.inl (hx p hp))]
  have hcn : HasDerivAt (fun x => r * d.fac (Function.update S k x))
      (CN.der ⟨d.rxn, d.parts⟩ S r k) (S k) := by
    have h1 := (hasDerivAt_dprod S k d.parts hpos).const_mul r
    have h2 := cn_der_eq_dprod d.parts S r k 0 hpos [] (by simp) (by simp)
    simp only [List.nil_append, List.map_nil, List.prod_nil, mul_one] at h2
    have h3 : CN.der ⟨d.rxn, d.parts⟩ S r k = r * dprod S k d.parts := h2
    rw [h3]
    exact h1.congr_of_eventuallyEq hfac
  have hkpos : ∀ a ∈ kRep d.parts, 0 < S a := by
    intro a ha
    obtain ⟨p, hp, rfl⟩ := mem_kRep _ _ ha
    exact hpos p hp
  simp only [Decl.der]
  split
  · exact hcn
  · rename_i hc
    have hf : ∀ p ∈ d.parts, ¬ p.frac := fun p hp hf => hc (Or.inl ⟨p, hp, hf⟩)
    have hk : (fun x => r * d.fac (Function.update S k x)) =ᶠ[𝓝 (S k)]
        fun x => r * ((kRep d.parts).map (Function.update S k x)).prod := by
      filter_upwards [hfac] with x hx
      rw [hx, kRep_prod d.parts _ h0 hf]
    rcases hl : kRep d.parts with _ | ⟨a, _ | ⟨b, _ | ⟨c, _ | ⟨e, l⟩⟩⟩⟩
    · exact hcn
    · have ha := hl
      rw [ha] at hk
      have h1 := (hasDerivAt_update S k a).const_mul r
      refine HasDerivAt.congr_of_eventuallyEq ?_ hk
      simp only [List.map_cons, List.map_nil, List.prod_cons, List.prod_nil, mul_one]
      refine h1.congr_deriv (Eq.symm ?_)
      simp only [C1.der]
      by_cases e : a = k
      · subst e; simp
      · simp [Pi.single_eq_of_ne (fun e' => e e'.symm)]
    · have ha := hl
      rw [ha] at hk hkpos
      have hpa : 0 < S a := hkpos a (by simp)
      have hpb : 0 < S b := hkpos b (by simp)
      have h1 := ((hasDerivAt_update S k a).mul (hasDerivAt_update S k b)).const_mul r
      refine HasDerivAt.congr_of_eventuallyEq ?_ hk
      simp only [List.map_cons, List.map_nil, List.prod_cons, List.prod_nil, mul_one]
      refine h1.congr_deriv (Eq.symm ?_)
      simp only [C2.der, gt_iff_lt, hpa, hpb, if_true, Pi.add_apply, Function.update_eq_self,
        Pi.single_apply]
      split_ifs <;> ring
    · have ha := hl
      rw [ha] at hk hkpos
      have hpa : 0 < S a := hkpos a (by simp)
      have hpb : 0 < S b := hkpos b (by simp)
      have hpc : 0 < S c := hkpos c (by simp)
      have h1 := ((hasDerivAt_update S k a).mul ((hasDerivAt_update S k b).mul
        (hasDerivAt_update S k c))).const_mul r
      refine HasDerivAt.congr_of_eventuallyEq ?_ hk
      simp only [List.map_cons, List.map_nil, List.prod_cons, List.prod_nil, mul_one]
      refine h1.congr_deriv (Eq.symm ?_)
      simp only [C3.der, gt_iff_lt, hpa, hpb, hpc, and_self, if_true, Pi.add_apply,
        Function.update_eq_self, Pi.mul_apply, Pi.single_apply]
      split_ifs <;> ring
    · exact hcn

end Verif.Stoich
