import Verif.Stoich.Model
import Mathlib.Algebra.Group.Pi.Basic
import Mathlib.Algebra.BigOperators.Group.List.Basic
import Mathlib.Algebra.Order.Floor.Semiring
import Mathlib.Tactic.Ring
import Mathlib.Tactic.Abel

namespace Verif.Stoich

open Verif

theorem addAt_eq (S : Vec) (i : ℕ) (x : ℝ) : addAt S i x = S + Pi.single i x := by
  funext j
  by_cases h : j = i
  · subst h; simp [addAt]
  · simp [addAt, h]

theorem mulAt_eq (S : Vec) (i : ℕ) (x : ℝ) : mulAt S i x = S * Pi.mulSingle i x := by
  funext j
  by_cases h : j = i
  · subst h; simp [mulAt]
  · simp [mulAt, h]

theorem update_zero_eq (S : Vec) (i : ℕ) : Function.update S i 0 = S * Pi.mulSingle i 0 := by
  funext j
  by_cases h : j = i
  · subst h; simp
  · simp [h]

theorem foldl_add {α : Type*} (f : Vec → α → Vec) (g : α → Vec) (h : ∀ S a, f S a = S + g a)
    (l : List α) (S : Vec) : l.foldl f S = S + (l.map g).sum := by
  induction l generalizing S with
  | nil => simp
  | cons a l ih => simp [ih, h, add_assoc]

theorem foldl_mul {α : Type*} (f : Vec → α → Vec) (g : α → Vec) (h : ∀ S a, f S a = S * g a)
    (l : List α) (S : Vec) : l.foldl f S = S * (l.map g).prod := by
  induction l generalizing S with
  | nil => simp
  | cons a l ih => simp [ih, h, mul_assoc]

/-! ### Contributions of each handler, in a common format -/

/-- Sum of `f` over the participants of a handler weighted with its coefficients. -/
noncomputable def C1.lin (c : C1) (f : ℕ → Vec) : Vec := f c.ic0
noncomputable def C2.lin (c : C2) (f : ℕ → Vec) : Vec := f c.ic0 + f c.ic1
noncomputable def C3.lin (c : C3) (f : ℕ → Vec) : Vec := f c.ic0 + f c.ic1 + f c.ic2
noncomputable def CN.lin (c : CN) (f : ℕ → Vec) : Vec := (c.parts.map (fun p => p.stoich • f p.ic)).sum

theorem single_smul (i : ℕ) (a x : ℝ) : (Pi.single i (a * x) : Vec) = a • Pi.single i x := by
  funext j; by_cases h : j = i
  · subst h; simp
  · simp [h]

theorem single_sum {α : Type*} (i : ℕ) (f : α → ℝ) (l : List α) :
    (l.map (fun a => (Pi.single i (f a) : Vec))).sum = Pi.single i (l.map f).sum := by
  induction l with
  | nil => simp
  | cons a l ih => simp [ih, Pi.single_add]

theorem C1.inc_eq (c : C1) (R S : Vec) :
    c.incrementSpecies R S = S + c.lin (fun k => Pi.single k (R c.rxn)) := addAt_eq _ _ _
theorem C2.inc_eq (c : C2) (R S : Vec) :
    c.incrementSpecies R S = S + c.lin (fun k => Pi.single k (R c.rxn)) := by
  simp only [C2.incrementSpecies, addAt_eq, C2.lin, add_assoc]
theorem C3.inc_eq (c : C3) (R S : Vec) :
    c.incrementSpecies R S = S + c.lin (fun k => Pi.single k (R c.rxn)) := by
  simp only [C3.incrementSpecies, addAt_eq, C3.lin, add_assoc]
theorem CN.inc_eq (c : CN) (R S : Vec) :
    c.incrementSpecies R S = S + c.lin (fun k => Pi.single k (R c.rxn)) := by
  simp only [CN.incrementSpecies, CN.lin]
  rw [foldl_add _ (fun p => p.stoich • Pi.single p.ic (R c.rxn))]
  intro S p; rw [addAt_eq, single_smul]

theorem C1.dec_eq (c : C1) (R S : Vec) :
    c.decrementSpecies R S = S + c.lin (fun k => Pi.single k (-R c.rxn)) := addAt_eq _ _ _
theorem C2.dec_eq (c : C2) (R S : Vec) :
    c.decrementSpecies R S = S + c.lin (fun k => Pi.single k (-R c.rxn)) := by
  simp only [C2.decrementSpecies, addAt_eq, C2.lin, add_assoc]
theorem C3.dec_eq (c : C3) (R S : Vec) :
    c.decrementSpecies R S = S + c.lin (fun k => Pi.single k (-R c.rxn)) := by
  simp only [C3.decrementSpecies, addAt_eq, C3.lin, add_assoc]
theorem CN.dec_eq (c : CN) (R S : Vec) :
    c.decrementSpecies R S = S + c.lin (fun k => Pi.single k (-R c.rxn)) := by
  simp only [CN.decrementSpecies, CN.lin]
  rw [foldl_add _ (fun p => p.stoich • Pi.single p.ic (-R c.rxn))]
  intro S p; rw [addAt_eq, ← single_smul]; congr 2; ring

theorem C1.incR_eq (c : C1) (S R : Vec) :
    c.incrementReaction S R = R + c.lin (fun k => Pi.single c.rxn (S k)) := addAt_eq _ _ _
theorem C2.incR_eq (c : C2) (S R : Vec) :
    c.incrementReaction S R = R + c.lin (fun k => Pi.single c.rxn (S k)) := by
  simp only [C2.incrementReaction, addAt_eq, C2.lin, Pi.single_add]
theorem C3.incR_eq (c : C3) (S R : Vec) :
    c.incrementReaction S R = R + c.lin (fun k => Pi.single c.rxn (S k)) := by
  simp only [C3.incrementReaction, addAt_eq, C3.lin, Pi.single_add]
theorem CN.incR_eq (c : CN) (S R : Vec) :
    c.incrementReaction S R = R + c.lin (fun k => Pi.single c.rxn (S k)) := by
  simp only [CN.incrementReaction, CN.lin]
  rw [foldl_add _ (fun p => p.stoich • Pi.single c.rxn (S p.ic))]
  intro S p; rw [addAt_eq, single_smul]

theorem C1.decR_eq (c : C1) (S R : Vec) :
    c.decrementReaction S R = R + c.lin (fun k => Pi.single c.rxn (-S k)) := addAt_eq _ _ _
theorem C2.decR_eq (c : C2) (S R : Vec) :
    c.decrementReaction S R = R + c.lin (fun k => Pi.single c.rxn (-S k)) := by
  simp only [C2.decrementReaction, addAt_eq, C2.lin, ← Pi.single_add]; congr 2; ring
theorem C3.decR_eq (c : C3) (S R : Vec) :
    c.decrementReaction S R = R + c.lin (fun k => Pi.single c.rxn (-S k)) := by
  simp only [C3.decrementReaction, addAt_eq, C3.lin, ← Pi.single_add]; congr 2; ring
theorem CN.decR_eq (c : CN) (S R : Vec) :
    c.decrementReaction S R = R + c.lin (fun k => Pi.single c.rxn (-S k)) := by
  simp only [CN.decrementReaction, CN.lin]
  rw [foldl_add _ (fun p => p.stoich • Pi.single c.rxn (-S p.ic))]
  intro S p; rw [addAt_eq, ← single_smul]; congr 2; ring

/-- Sum over all handlers; `f rxn k` is the contribution of one molecule of `k` in reaction `rxn`. -/
noncomputable def Mgr.lin (m : Mgr) (f : ℕ → ℕ → Vec) : Vec :=
  (m.c1.map (fun c => c.lin (f c.rxn))).sum + (m.c2.map (fun c => c.lin (f c.rxn))).sum +
  (m.c3.map (fun c => c.lin (f c.rxn))).sum + (m.cn.map (fun c => c.lin (f c.rxn))).sum

theorem Mgr.inc_eq (m : Mgr) (R S : Vec) :
    m.incrementSpecies R S = S + m.lin (fun r k => Pi.single k (R r)) := by
  simp only [Mgr.incrementSpecies]
  rw [foldl_add _ _ (fun S c => C1.inc_eq c R S), foldl_add _ _ (fun S c => C2.inc_eq c R S),
    foldl_add _ _ (fun S c => C3.inc_eq c R S), foldl_add _ _ (fun S c => CN.inc_eq c R S)]
  simp only [Mgr.lin, add_assoc]

theorem Mgr.dec_eq (m : Mgr) (R S : Vec) :
    m.decrementSpecies R S = S + m.lin (fun r k => Pi.single k (-R r)) := by
  simp only [Mgr.decrementSpecies]
  rw [foldl_add _ _ (fun S c => C1.dec_eq c R S), foldl_add _ _ (fun S c => C2.dec_eq c R S),
    foldl_add _ _ (fun S c => C3.dec_eq c R S), foldl_add _ _ (fun S c => CN.dec_eq c R S)]
  simp only [Mgr.lin, add_assoc]

theorem Mgr.incR_eq (m : Mgr) (S R : Vec) :
    m.incrementReactions S R = R + m.lin (fun r k => Pi.single r (S k)) := by
  simp only [Mgr.incrementReactions]
  rw [foldl_add _ _ (fun R c => C1.incR_eq c S R), foldl_add _ _ (fun R c => C2.incR_eq c S R),
    foldl_add _ _ (fun R c => C3.incR_eq c S R), foldl_add _ _ (fun R c => CN.incR_eq c S R)]
  simp only [Mgr.lin, add_assoc]

theorem Mgr.decR_eq (m : Mgr) (S R : Vec) :
    m.decrementReactions S R = R + m.lin (fun r k => Pi.single r (-S k)) := by
  simp only [Mgr.decrementReactions]
  rw [foldl_add _ _ (fun R c => C1.decR_eq c S R), foldl_add _ _ (fun R c => C2.decR_eq c S R),
    foldl_add _ _ (fun R c => C3.decR_eq c S R), foldl_add _ _ (fun R c => CN.decR_eq c S R)]
  simp only [Mgr.lin, add_assoc]

/-! ### `add` -/

/-- Contribution of a declaration. -/
noncomputable def Decl.lin (d : Decl) (f : ℕ → Vec) : Vec :=
  (d.parts.map (fun p => p.stoich • f p.ic)).sum

theorem ceil_eq (x : ℝ) (h0 : 0 ≤ x) (h : Int.fract x = 0) : ((⌈x⌉₊ : ℕ) : ℝ) = x := by
  have : x = (⌊x⌋ : ℝ) := by
    have := Int.self_sub_floor x; rw [h] at this; linarith
  obtain ⟨n, hn⟩ := Int.eq_ofNat_of_zero_le (Int.floor_nonneg.2 h0)
  rw [this, hn]
  simp

theorem kRep_sum (ps : List Part) (f : ℕ → Vec) (h0 : ∀ p ∈ ps, 0 ≤ p.stoich)
    (hf : ∀ p ∈ ps, ¬ p.frac) :
    ((kRep ps).map f).sum = (ps.map (fun p => p.stoich • f p.ic)).sum := by
  induction ps with
  | nil => simp [kRep]
  | cons p ps ih =>
    have h1 : kRep (p :: ps) = List.replicate ⌈p.stoich⌉₊ p.ic ++ kRep ps := by
      simp [kRep]
    rw [h1, List.map_append, List.sum_append, ih (fun q hq => h0 q (by simp [hq]))
      (fun q hq => hf q (by simp [hq])), List.map_cons, List.sum_cons]
    congr 1
    have hfr : Int.fract p.stoich = 0 := by
      have := hf p (by simp)
      simp only [Part.frac, not_or, not_not] at this
      exact this.1
    rw [List.map_replicate, List.sum_replicate]
    conv_rhs => rw [← ceil_eq p.stoich (h0 p (by simp)) hfr]
    exact (Nat.cast_smul_eq_nsmul ℝ _ _).symm

/-- The four possible results of `add`. -/
theorem add_cases (m m' : Mgr) (d : Decl) (h : m.add d = .ok m') :
    d.order.length = d.k.length ∧ d.stoich.length = d.k.length ∧
    m'.coeffs = m.coeffs ++ d.parts.map (fun p => (p.ic, d.rxn, p.stoich)) ∧
    ((m'.cn = m.cn ++ [⟨d.rxn, d.parts⟩] ∧ m'.c1 = m.c1 ∧ m'.c2 = m.c2 ∧ m'.c3 = m.c3) ∨
     ((∀ p ∈ d.parts, ¬ p.frac) ∧
      ((∃ a, kRep d.parts = [a] ∧ m'.c1 = m.c1 ++ [⟨d.rxn, a⟩] ∧ m'.c2 = m.c2 ∧ m'.c3 = m.c3 ∧
          m'.cn = m.cn) ∨
       (∃ a b, kRep d.parts = [a, b] ∧ m'.c2 = m.c2 ++ [⟨d.rxn, a, b⟩] ∧ m'.c1 = m.c1 ∧
          m'.c3 = m.c3 ∧ m'.cn = m.cn) ∨
       (∃ a b c, kRep d.parts = [a, b, c] ∧ m'.c3 = m.c3 ++ [⟨d.rxn, a, b, c⟩] ∧ m'.c1 = m.c1 ∧
          m'.c2 = m.c2 ∧ m'.cn = m.cn)))) := by
  simp only [Mgr.add] at h
  split at h
  · simp at h
  rename_i h1
  split at h
  · simp at h
  rename_i h2
  refine ⟨by simpa using h1, by simpa using h2, ?_⟩
  split at h
  · simp only [Outcome.ok.injEq] at h
    subst h
    exact ⟨rfl, Or.inl ⟨rfl, rfl, rfl, rfl⟩⟩
  · rename_i hfr
    have hfr' : ∀ p ∈ d.parts, ¬ p.frac := by
      intro p hp hf; exact hfr (Or.inl ⟨p, hp, hf⟩)
    split at h <;> (simp only [Outcome.ok.injEq] at h; subst h; refine ⟨rfl, ?_⟩)
    · rename_i a ha; exact Or.inr ⟨hfr', Or.inl ⟨a, ha, rfl, rfl, rfl, rfl⟩⟩
    · rename_i a b ha; exact Or.inr ⟨hfr', Or.inr (Or.inl ⟨a, b, ha, rfl, rfl, rfl, rfl⟩)⟩
    · rename_i a b c ha; exact Or.inr ⟨hfr', Or.inr (Or.inr ⟨a, b, c, ha, rfl, rfl, rfl, rfl⟩)⟩
    · exact Or.inl ⟨rfl, rfl, rfl, rfl⟩

theorem add_lin (m m' : Mgr) (d : Decl) (h : m.add d = .ok m')
    (h0 : ∀ p ∈ d.parts, 0 ≤ p.stoich) (f : ℕ → ℕ → Vec) :
    m'.lin f = m.lin f + d.lin (f d.rxn) := by
  obtain ⟨_, _, _, hc⟩ := add_cases m m' d h
  rcases hc with ⟨e1, e2, e3, e4⟩ | ⟨hf, ⟨a, ha, e1, e2, e3, e4⟩ | ⟨a, b, ha, e1, e2, e3, e4⟩ |
    ⟨a, b, c, ha, e1, e2, e3, e4⟩⟩
  · simp only [Mgr.lin, e1, e2, e3, e4, List.map_append, List.sum_append, List.map_cons, List.map_nil,
      List.sum_cons, List.sum_nil, add_zero, CN.lin, Decl.lin, add_assoc]
  all_goals
    have hk := kRep_sum d.parts (f d.rxn) h0 hf
    rw [ha] at hk
    simp only [List.map_cons, List.map_nil, List.sum_cons, List.sum_nil, add_zero] at hk
    simp only [Mgr.lin, e1, e2, e3, e4, List.map_append, List.sum_append, List.map_cons, List.map_nil,
      List.sum_cons, List.sum_nil, add_zero, C1.lin, C2.lin, C3.lin, Decl.lin, ← hk]
    abel

theorem addAll_lin (ds : List Decl) (m m' : Mgr) (h : m.addAll ds = .ok m')
    (h0 : ∀ d ∈ ds, ∀ p ∈ d.parts, 0 ≤ p.stoich) (f : ℕ → ℕ → Vec) :
    m'.lin f = m.lin f + (ds.map (fun d => d.lin (f d.rxn))).sum := by
  induction ds generalizing m with
  | nil => simp only [Mgr.addAll, Outcome.ok.injEq] at h; subst h; simp
  | cons d ds ih =>
    simp only [Mgr.addAll] at h
    cases hd : m.add d with
    | ok m1 =>
      rw [hd, Outcome.bind_ok] at h
      rw [ih m1 h (fun d' hd' => h0 d' (by simp [hd'])), add_lin m m1 d hd (h0 d (by simp)),
        List.map_cons, List.sum_cons, add_assoc]
    | throw => rw [hd] at h; simp at h
    | ub => rw [hd] at h; simp at h

theorem empty_lin (f : ℕ → ℕ → Vec) : Mgr.empty.lin f = 0 := by simp [Mgr.lin, Mgr.empty]

theorem add_isOk (m : Mgr) (d : Decl) (h1 : d.order.length = d.k.length)
    (h2 : d.stoich.length = d.k.length) : ∃ m', m.add d = .ok m' := by
  simp only [Mgr.add, h1, h2, ne_eq, not_true, if_false]
  split
  · exact ⟨_, rfl⟩
  · split <;> exact ⟨_, rfl⟩

theorem addAll_isOk (ds : List Decl) (m : Mgr)
    (h : ∀ d ∈ ds, d.order.length = d.k.length ∧ d.stoich.length = d.k.length) :
    ∃ m', m.addAll ds = .ok m' := by
  induction ds generalizing m with
  | nil => exact ⟨m, rfl⟩
  | cons d ds ih =>
    obtain ⟨m1, hm1⟩ := add_isOk m d (h d (by simp)).1 (h d (by simp)).2
    obtain ⟨m2, hm2⟩ := ih m1 (fun d' hd' => h d' (by simp [hd']))
    exact ⟨m2, by simp [Mgr.addAll, hm1, hm2]⟩

end Verif.Stoich
