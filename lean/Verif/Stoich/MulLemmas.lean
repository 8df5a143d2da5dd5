import Verif.Stoich.Lemmas
import Mathlib.Algebra.Order.BigOperators.GroupWithZero.List

namespace Verif.Stoich

open Verif

open Classical in
/-- Factor applied to the rate by each handler. -/
noncomputable def C1.fac (c : C1) (S : Vec) : ℝ := S c.ic0
open Classical in
noncomputable def C2.fac (c : C2) (S : Vec) : ℝ :=
  if S c.ic0 < 0 ∧ S c.ic1 < 0 then 0 else S c.ic0 * S c.ic1
open Classical in
noncomputable def C3.fac (c : C3) (S : Vec) : ℝ :=
  if (S c.ic0 < 0 ∧ (S c.ic1 < 0 ∨ S c.ic2 < 0)) ∨ (S c.ic1 < 0 ∧ S c.ic2 < 0) then 0
  else S c.ic0 * S c.ic1 * S c.ic2
open Classical in
noncomputable def Part.fac (p : Part) (S : Vec) : ℝ :=
  if p.order ≠ 0 then (if S p.ic > 0 then S p.ic ^ p.order else 0) else 1
noncomputable def CN.fac (c : CN) (S : Vec) : ℝ := (c.parts.map (fun p => p.fac S)).prod

theorem C1.mul_eq (c : C1) (S R : Vec) : c.multiply S R = R * Pi.mulSingle c.rxn (c.fac S) :=
  mulAt_eq _ _ _
theorem C2.mul_eq (c : C2) (S R : Vec) : c.multiply S R = R * Pi.mulSingle c.rxn (c.fac S) := by
  simp only [C2.multiply, C2.fac]
  split
  · exact update_zero_eq _ _
  · exact mulAt_eq _ _ _
theorem C3.mul_eq (c : C3) (S R : Vec) : c.multiply S R = R * Pi.mulSingle c.rxn (c.fac S) := by
  simp only [C3.multiply, C3.fac]
  split
  · exact update_zero_eq _ _
  · exact mulAt_eq _ _ _

theorem mulSingle_prod {α : Type*} (i : ℕ) (f : α → ℝ) (l : List α) :
    (l.map (fun a => (Pi.mulSingle i (f a) : Vec))).prod = Pi.mulSingle i (l.map f).prod := by
  induction l with
  | nil => simp
  | cons a l ih => simp [ih, Pi.mulSingle_mul]

theorem CN.mul_eq (c : CN) (S R : Vec) : c.multiply S R = R * Pi.mulSingle c.rxn (c.fac S) := by
  simp only [CN.multiply, CN.fac]
  rw [foldl_mul _ (fun p => Pi.mulSingle c.rxn (p.fac S))]
  · rw [mulSingle_prod]
  · intro R p
    simp only [Part.fac]
    split
    · split
      · exact mulAt_eq _ _ _
      · exact update_zero_eq _ _
    · simp

/-- Product of all factors. -/
noncomputable def Mgr.fac (m : Mgr) (S : Vec) : Vec :=
  (m.c1.map (fun c => Pi.mulSingle c.rxn (c.fac S))).prod *
  (m.c2.map (fun c => Pi.mulSingle c.rxn (c.fac S))).prod *
  (m.c3.map (fun c => Pi.mulSingle c.rxn (c.fac S))).prod *
  (m.cn.map (fun c => Pi.mulSingle c.rxn (c.fac S))).prod

theorem Mgr.mul_eq (m : Mgr) (S R : Vec) : m.multiply S R = R * m.fac S := by
  simp only [Mgr.multiply]
  rw [foldl_mul _ _ (fun R c => C1.mul_eq c S R), foldl_mul _ _ (fun R c => C2.mul_eq c S R),
    foldl_mul _ _ (fun R c => C3.mul_eq c S R), foldl_mul _ _ (fun R c => CN.mul_eq c S R)]
  simp only [Mgr.fac, mul_assoc]

open Classical in
/-- Factor of a declaration: that of the handler `add` selects. -/
noncomputable def Decl.fac (d : Decl) (S : Vec) : ℝ :=
  if (∃ p ∈ d.parts, p.frac) ∨ d.k.length > 3 then CN.fac ⟨d.rxn, d.parts⟩ S
  else match kRep d.parts with
    | [a] => C1.fac ⟨d.rxn, a⟩ S
    | [a, b] => C2.fac ⟨d.rxn, a, b⟩ S
    | [a, b, c] => C3.fac ⟨d.rxn, a, b, c⟩ S
    | _ => CN.fac ⟨d.rxn, d.parts⟩ S

theorem add_fac (m m' : Mgr) (d : Decl) (h : m.add d = .ok m') (S : Vec) :
    m'.fac S = m.fac S * Pi.mulSingle d.rxn (d.fac S) := by
  simp only [Mgr.add] at h
  split at h
  · simp at h
  split at h
  · simp at h
  simp only [Decl.fac]
  split at h
  · rename_i hc
    simp only [Outcome.ok.injEq] at h
    subst h
    rw [if_pos hc]
    simp only [Mgr.fac, List.map_append, List.prod_append, List.map_cons, List.map_nil,
      List.prod_cons, List.prod_nil, mul_one, mul_assoc]
  · rename_i hc
    rw [if_neg hc]
    split at h <;> (simp only [Outcome.ok.injEq] at h; subst h)
    all_goals
      simp only [Mgr.fac, List.map_append, List.prod_append, List.map_cons, List.map_nil,
        List.prod_cons, List.prod_nil, mul_one, *]
      ac_rfl

theorem addAll_fac (ds : List Decl) (m m' : Mgr) (h : m.addAll ds = .ok m') (S : Vec) :
    m'.fac S = m.fac S * (ds.map (fun d => (Pi.mulSingle d.rxn (d.fac S) : Vec))).prod := by
  induction ds generalizing m with
  | nil => simp only [Mgr.addAll, Outcome.ok.injEq] at h; subst h; simp
  | cons d ds ih =>
    simp only [Mgr.addAll] at h
    cases hd : m.add d with
    | ok m1 =>
      rw [hd, Outcome.bind_ok] at h
      rw [ih m1 h, add_fac m m1 d hd, List.map_cons, List.prod_cons, mul_assoc]
    | throw => rw [hd] at h; simp at h
    | ub => rw [hd] at h; simp at h

theorem empty_fac (S : Vec) : Mgr.empty.fac S = 1 := by simp [Mgr.fac, Mgr.empty]

theorem prod_mulSingle_apply (ds : List Decl) (S : Vec) (i : ℕ) :
    (ds.map (fun d => (Pi.mulSingle d.rxn (d.fac S) : Vec))).prod i =
      ((ds.filter (fun d => d.rxn = i)).map (fun d => d.fac S)).prod := by
  induction ds with
  | nil => simp
  | cons d ds ih =>
    rw [List.map_cons, List.prod_cons, Pi.mul_apply, ih]
    by_cases h : d.rxn = i
    · rw [List.filter_cons_of_pos (by simpa using h)]; subst h; simp
    · rw [List.filter_cons_of_neg (by simpa using h), Pi.mulSingle_eq_of_ne (fun e => h e.symm),
        one_mul]

/-! ### Value of the factor for admissible concentrations -/

theorem kRep_prod (ps : List Part) (S : Vec) (h0 : ∀ p ∈ ps, 0 ≤ p.stoich)
    (hf : ∀ p ∈ ps, ¬ p.frac) :
    ((kRep ps).map S).prod = (ps.map (fun p => S p.ic ^ p.order)).prod := by
  induction ps with
  | nil => simp [kRep]
  | cons p ps ih =>
    have h1 : kRep (p :: ps) = List.replicate ⌈p.stoich⌉₊ p.ic ++ kRep ps := by
      simp [kRep]
    rw [h1, List.map_append, List.prod_append, ih (fun q hq => h0 q (by simp [hq]))
      (fun q hq => hf q (by simp [hq])), List.map_cons, List.prod_cons]
    congr 1
    have hfr := hf p (by simp)
    simp only [Part.frac, not_or, not_not] at hfr
    rw [List.map_replicate, List.prod_replicate, ← hfr.2]
    conv_rhs => rw [← ceil_eq p.stoich (h0 p (by simp)) hfr.1]
    rw [Real.rpow_natCast]

/-- Every participant has positive concentration, or zero with a non-negative order. -/
def Adm (ps : List Part) (S : Vec) : Prop :=
  ∀ p ∈ ps, 0 < S p.ic ∨ (S p.ic = 0 ∧ 0 ≤ p.order)

theorem cn_fac_eq (ps : List Part) (r : ℕ) (S : Vec) (h : Adm ps S) :
    CN.fac ⟨r, ps⟩ S = (ps.map (fun p => S p.ic ^ p.order)).prod := by
  simp only [CN.fac]
  congr 1
  apply List.map_congr_left
  intro p hp
  simp only [Part.fac]
  split
  · rename_i ho
    rcases h p hp with h | ⟨h, hord⟩
    · simp [h]
    · have : 0 < p.order := lt_of_le_of_ne hord (Ne.symm ho)
      simp [h, Real.zero_rpow this.ne']
  · rename_i ho
    have : p.order = 0 := by simpa using ho
    simp [this]

theorem mem_kRep (ps : List Part) (k : ℕ) (h : k ∈ kRep ps) : ∃ p ∈ ps, p.ic = k := by
  simp only [kRep, List.mem_flatMap, List.mem_replicate] at h
  obtain ⟨p, hp, _, rfl⟩ := h
  exact ⟨p, hp, rfl⟩

theorem decl_fac_eq (d : Decl) (S : Vec) (h0 : ∀ p ∈ d.parts, 0 ≤ p.stoich) (h : Adm d.parts S) :
    d.fac S = (d.parts.map (fun p => S p.ic ^ p.order)).prod := by
  have hnn : ∀ k ∈ kRep d.parts, ¬ S k < 0 := by
    intro k hk
    obtain ⟨p, hp, rfl⟩ := mem_kRep _ _ hk
    rcases h p hp with h | ⟨h, _⟩
    · exact not_lt.2 h.le
    · rw [h]; exact lt_irrefl 0
  simp only [Decl.fac]
  split
  · exact cn_fac_eq _ _ _ h
  · rename_i hc
    have hf : ∀ p ∈ d.parts, ¬ p.frac := fun p hp hf => hc (Or.inl ⟨p, hp, hf⟩)
    have hk := kRep_prod d.parts S h0 hf
    split
    · rename_i a ha
      rw [ha] at hk; simpa [C1.fac] using hk
    · rename_i a b ha
      rw [ha] at hk hnn
      simp only [C2.fac, hnn a (by simp), false_and, if_false]
      simpa using hk
    · rename_i a b c ha
      rw [ha] at hk hnn
      simp only [C3.fac, hnn a (by simp), hnn b (by simp), false_and, or_self, if_false]
      simpa [mul_assoc] using hk
    · exact cn_fac_eq _ _ _ h

/-! ### Negative concentrations -/

theorem part_fac_nonneg (p : Part) (S : Vec) : 0 ≤ p.fac S := by
  simp only [Part.fac]
  split
  · split
    · rename_i h; exact Real.rpow_nonneg h.le _
    · exact le_refl 0
  · exact zero_le_one

theorem decl_fac_nonpos (d : Decl) (S : Vec) (h0 : ∀ p ∈ d.parts, 0 ≤ p.stoich)
    (p : Part) (hp : p ∈ d.parts) (ho : p.order ≠ 0) (hneg : S p.ic < 0) : d.fac S ≤ 0 := by
  have hcn : CN.fac ⟨d.rxn, d.parts⟩ S ≤ 0 := by
    have : p.fac S = 0 := by simp [Part.fac, ho, not_lt.2 hneg.le]
    rw [CN.fac, List.prod_eq_zero]
    exact List.mem_map.2 ⟨p, hp, this⟩
  simp only [Decl.fac]
  split
  · exact hcn
  · rename_i hc
    have hf : ¬ p.frac := fun hf => hc (Or.inl ⟨p, hp, hf⟩)
    simp only [Part.frac, not_or, not_not] at hf
    have hmem : p.ic ∈ kRep d.parts := by
      simp only [kRep, List.mem_flatMap, List.mem_replicate]
      refine ⟨p, hp, ?_, rfl⟩
      have : 0 < p.stoich := lt_of_le_of_ne (h0 p hp) (by rw [hf.2]; exact Ne.symm ho)
      have := Nat.ceil_pos.2 this
      omega
    split
    · rename_i a ha
      rw [ha] at hmem
      simp only [List.mem_singleton] at hmem
      simpa [C1.fac, ← hmem] using hneg.le
    · rename_i a b ha
      rw [ha] at hmem
      simp only [List.mem_cons, List.not_mem_nil, or_false] at hmem
      simp only [C2.fac]
      split
      · exact le_refl 0
      · rename_i hnb
        rcases hmem with e | e
        · rw [e] at hneg
          have : 0 ≤ S b := by
            by_contra hb; exact hnb ⟨hneg, not_le.1 hb⟩
          exact mul_nonpos_of_nonpos_of_nonneg hneg.le this
        · rw [e] at hneg
          have : 0 ≤ S a := by
            by_contra hb; exact hnb ⟨not_le.1 hb, hneg⟩
          exact mul_nonpos_of_nonneg_of_nonpos this hneg.le
    · rename_i a b c ha
      rw [ha] at hmem
      simp only [List.mem_cons, List.not_mem_nil, or_false] at hmem
      simp only [C3.fac]
      split
      · exact le_refl 0
      · rename_i hnb
        push Not at hnb
        rcases hmem with e | e | e <;> rw [e] at hneg
        · have h1 := (hnb.1 hneg).1
          have h2 := (hnb.1 hneg).2
          exact mul_nonpos_of_nonpos_of_nonneg (mul_nonpos_of_nonpos_of_nonneg hneg.le h1) h2
        · have h2 := hnb.2 hneg
          have h1 : 0 ≤ S a := by
            by_contra hb; exact absurd (hnb.1 (not_le.1 hb)).1 (not_le.2 hneg)
          exact mul_nonpos_of_nonpos_of_nonneg (mul_nonpos_of_nonneg_of_nonpos h1 hneg.le) h2
        · have h1 : 0 ≤ S a := by
            by_contra hb; exact absurd (hnb.1 (not_le.1 hb)).2 (not_le.2 hneg)
          have h2 : 0 ≤ S b := by
            by_contra hb; exact absurd (hnb.2 (not_le.1 hb)) (not_le.2 hneg)
          exact mul_nonpos_of_nonneg_of_nonpos (mul_nonneg h1 h2) hneg.le
    · exact hcn

end Verif.Stoich
