import Verif.Kinetics.ReactionPath
import Mathlib.Algebra.BigOperators.Group.Finset.Sigma
import Mathlib.Algebra.BigOperators.Field
import Mathlib.Algebra.Order.BigOperators.Ring.Finset
import Mathlib.Tactic.Linarith
import Mathlib.Tactic.FieldSimp
import Mathlib.Tactic.Ring

/-!
# Reaction path analysis: lemmas
-/

namespace Verif.RPath

/-! ## Sums over lists -/

theorem sum_getD (l : List ℕ) (f : ℕ → ℝ) :
    ∑ j ∈ Finset.range l.length, f (l.getD j 0) = (l.map f).sum := by
  induction l with
  | nil => simp
  | cons x l ih =>
    rw [List.length_cons, Finset.sum_range_succ']
    simp only [List.getD_cons_succ, List.getD_cons_zero, List.map_cons, List.sum_cons]
    rw [ih]; ring

theorem sum_flatMap {α β : Type} (l : List α) (g : α → List β) (c : β → ℝ) :
    ((l.flatMap g).map c).sum = (l.map fun i => ((g i).map c).sum).sum := by
  induction l with
  | nil => simp
  | cons x l ih => simp [ih]

theorem sum_range_list (n : ℕ) (f : ℕ → ℝ) :
    ((List.range n).map f).sum = ∑ i ∈ Finset.range n, f i := by
  induction n with
  | zero => simp
  | succ n ih => rw [List.range_succ, Finset.sum_range_succ]; simp [ih]

theorem sum_replicates (n : ℕ) (c : ℕ → ℕ) (f : ℕ → ℝ) :
    ((((List.range n).flatMap fun k => List.replicate (c k) k)).map f).sum =
      ∑ k ∈ Finset.range n, (c k : ℝ) * f k := by
  rw [sum_flatMap, sum_range_list]
  refine Finset.sum_congr rfl fun k _ => ?_
  simp [List.map_replicate, List.sum_replicate]

theorem mem_reac {M : Mech} {i k : ℕ} : k ∈ reac M i ↔ k < M.ns ∧ net M i k < 0 := by
  unfold reac
  simp only [List.mem_flatMap, List.mem_range, List.mem_replicate]
  constructor
  · rintro ⟨a, h, h1, rfl⟩; exact ⟨h, by omega⟩
  · rintro ⟨h, h1⟩; exact ⟨k, h, by omega, rfl⟩

theorem mem_prods {M : Mech} {i k : ℕ} : k ∈ prods M i ↔ k < M.ns ∧ 0 < net M i k := by
  unfold prods
  simp only [List.mem_flatMap, List.mem_range, List.mem_replicate]
  constructor
  · rintro ⟨a, h, h1, rfl⟩; exact ⟨h, by omega⟩
  · rintro ⟨h, h1⟩; exact ⟨k, h, by omega, rfl⟩

theorem getD_mem {l : List ℕ} {j : ℕ} (h : j < l.length) : l.getD j 0 ∈ l := by
  simp [List.getD, h]

/-! ## Groups -/

theorem signLoop_one (c : List ℤ) :
    signLoop c 1 = if ∀ x ∈ c, 0 ≤ x then some 1 else none := by
  induction c with
  | nil => simp [signLoop]
  | cons x c ih =>
    unfold signLoop
    by_cases hx : x = 0
    · simp [hx, ih]
    · by_cases hn : x < 0
      · have : ¬ (0 ≤ x) := by omega
        simp [hx, hn, this]
      · have : 0 ≤ x := by omega
        simp [hx, this, ih]

theorem signLoop_neg (c : List ℤ) :
    signLoop c (-1) = if ∀ x ∈ c, x ≤ 0 then some (-1) else none := by
  induction c with
  | nil => simp [signLoop]
  | cons x c ih =>
    unfold signLoop
    by_cases hx : x = 0
    · simp [hx, ih]
    · by_cases hn : 0 < x
      · have : ¬ (x ≤ 0) := by omega
        simp [hx, this]
      · have : x ≤ 0 := by omega
        simp [hx, this, ih]

theorem signLoop_zero (c : List ℤ) :
    signLoop c 0 = if ∀ x ∈ c, x = 0 then some 0
      else if ∀ x ∈ c, 0 ≤ x then some 1
      else if ∀ x ∈ c, x ≤ 0 then some (-1) else none := by
  induction c with
  | nil => simp [signLoop]
  | cons x c ih =>
    unfold signLoop
    by_cases hx : x = 0
    · simp [hx, ih]
    · rcases lt_or_gt_of_ne hx with h | h
      · have h1 : x / |x| = -1 := by
          rw [abs_of_neg h]; rw [Int.ediv_neg, Int.ediv_self hx]
        have h2 : ¬ (0 ≤ x) := by omega
        have h3 : x ≤ 0 := by omega
        simp [hx, h1, signLoop_neg, h2, h3]
      · have h1 : x / |x| = 1 := by
          rw [abs_of_pos h, Int.ediv_self hx]
        have h2 : 0 ≤ x := by omega
        have h3 : ¬ (x ≤ 0) := by omega
        simp [hx, h1, signLoop_one, h2, h3]

theorem validate_comp (g : Grp) : g.validate.comp = g.comp := by
  unfold Grp.validate
  split
  · rfl
  · split <;> rfl

theorem validate_valid (c : List ℤ) (s : ℤ) (hs : s ≠ -999) :
    (Grp.mk c s).validate.valid ↔ (∀ x ∈ c, 0 ≤ x) ∨ (∀ x ∈ c, x ≤ 0) := by
  unfold Grp.validate Grp.valid
  simp only [hs, if_false]
  rw [signLoop_zero]
  by_cases h0 : ∀ x ∈ c, x = 0
  · rw [if_pos h0]
    simp only [ne_eq]
    exact ⟨fun _ => Or.inl fun x hx => (h0 x hx).ge, fun _ => by norm_num⟩
  · rw [if_neg h0]
    by_cases h1 : ∀ x ∈ c, 0 ≤ x
    · rw [if_pos h1]; exact ⟨fun _ => Or.inl h1, fun _ => by simp⟩
    · rw [if_neg h1]
      by_cases h2 : ∀ x ∈ c, x ≤ 0
      · rw [if_pos h2]; exact ⟨fun _ => Or.inr h2, fun _ => by simp⟩
      · rw [if_neg h2]; simp only [ne_eq, not_true_eq_false, false_iff]
        rintro (h | h)
        · exact h1 h
        · exact h2 h

theorem validate_pos (c : List ℤ) (s : ℤ) (hs : s ≠ -999) :
    0 < (Grp.mk c s).validate.sign ↔ (∀ x ∈ c, 0 ≤ x) ∧ ∃ x ∈ c, x ≠ 0 := by
  unfold Grp.validate
  simp only [hs, if_false]
  rw [signLoop_zero]
  by_cases h0 : ∀ x ∈ c, x = 0
  · rw [if_pos h0]
    simp only [lt_self_iff_false, false_iff]
    rintro ⟨_, x, hx, h⟩; exact h (h0 x hx)
  · rw [if_neg h0]
    have h0' : ∃ x ∈ c, x ≠ 0 := by push Not at h0; exact h0
    by_cases h1 : ∀ x ∈ c, 0 ≤ x
    · rw [if_pos h1]; exact ⟨fun _ => ⟨h1, h0'⟩, fun _ => by simp⟩
    · rw [if_neg h1]
      by_cases h2 : ∀ x ∈ c, x ≤ 0
      · rw [if_pos h2]; simp [h1]
      · rw [if_neg h2]; simp [h1]

theorem mul_valid (g : Grp) (hg : g.valid) (h : (∀ x ∈ g.comp, 0 ≤ x) ∨ (∀ x ∈ g.comp, x ≤ 0)) :
    (g.mul (-1)).valid := by
  unfold Grp.mul
  rw [validate_valid _ _ hg]
  rcases h with h | h
  · right; intro x hx
    obtain ⟨y, hy, rfl⟩ := List.mem_map.1 hx
    have := h y hy; omega
  · left; intro x hx
    obtain ⟨y, hy, rfl⟩ := List.mem_map.1 hx
    have := h y hy; omega

theorem trunc_nat (n : ℕ) : trunc (n : ℝ) = n := by
  unfold trunc
  rw [if_pos (Nat.cast_nonneg n)]
  exact Int.floor_natCast n

theorem sgroup_comp {M : Mech} {A : ℕ → ℕ → ℕ} (hA : ∀ k m, M.atoms k m = A k m) (j : ℕ) :
    (sgroup M j).comp = (List.range M.nel).map fun m => (A j m : ℤ) := by
  unfold sgroup Grp.ofComp
  rw [validate_comp]
  simp only [hA, trunc_nat]

theorem sgroup_valid {M : Mech} {A : ℕ → ℕ → ℕ} (hA : ∀ k m, M.atoms k m = A k m) (j : ℕ) :
    (sgroup M j).valid := by
  have := sgroup_comp hA j
  unfold sgroup Grp.ofComp at this ⊢
  rw [validate_comp] at this
  simp only at this
  rw [validate_valid _ _ (by norm_num)]
  left; intro x hx
  rw [this] at hx
  obtain ⟨y, _, rfl⟩ := List.mem_map.1 hx
  exact Int.natCast_nonneg _

theorem zipWith_map_range (n : ℕ) (f g : ℕ → ℤ) :
    List.zipWith (· - ·) ((List.range n).map f) ((List.range n).map g) =
      (List.range n).map fun m => f m - g m := by
  induction n with
  | zero => rfl
  | succ n ih =>
    rw [List.range_succ]
    simp only [List.map_append, List.map_cons, List.map_nil]
    rw [List.zipWith_append (by simp), ih]
    rfl

theorem sub_comp {M : Mech} {A : ℕ → ℕ → ℕ} (hA : ∀ k m, M.atoms k m = A k m) (p r : ℕ) :
    ((sgroup M p).sub (sgroup M r)).comp =
      (List.range M.nel).map fun m => (A p m : ℤ) - A r m := by
  unfold Grp.sub
  rw [validate_comp, sgroup_comp hA, sgroup_comp hA]
  exact zipWith_map_range _ _ _

theorem sub_valid {M : Mech} {A : ℕ → ℕ → ℕ} (hA : ∀ k m, M.atoms k m = A k m) (p r : ℕ) :
    ((sgroup M p).sub (sgroup M r)).valid ↔
      (∀ m < M.nel, A r m ≤ A p m) ∨ (∀ m < M.nel, A p m ≤ A r m) := by
  unfold Grp.sub
  rw [validate_valid _ _ (sgroup_valid hA p), sgroup_comp hA, sgroup_comp hA, zipWith_map_range]
  simp only [List.mem_map, List.mem_range, forall_exists_index, and_imp, forall_apply_eq_imp_iff₂]
  constructor
  · rintro (h | h)
    · left; intro m hm; have := h m hm; omega
    · right; intro m hm; have := h m hm; omega
  · rintro (h | h)
    · left; intro m hm; have := h m hm; omega
    · right; intro m hm; have := h m hm; omega

theorem sub_pos {M : Mech} {A : ℕ → ℕ → ℕ} (hA : ∀ k m, M.atoms k m = A k m) (p r : ℕ) :
    0 < ((sgroup M p).sub (sgroup M r)).sign ↔
      (∀ m < M.nel, A r m ≤ A p m) ∧ ∃ m < M.nel, A p m ≠ A r m := by
  unfold Grp.sub
  rw [validate_pos _ _ (sgroup_valid hA p), sgroup_comp hA, sgroup_comp hA, zipWith_map_range]
  simp only [List.mem_map, List.mem_range, forall_exists_index, and_imp, forall_apply_eq_imp_iff₂]
  constructor
  · rintro ⟨h, x, ⟨m, hm, rfl⟩, hx⟩
    exact ⟨fun m hm => by have := h m hm; omega, m, hm, by omega⟩
  · rintro ⟨h, m, hm, hx⟩
    exact ⟨fun m hm => by have := h m hm; omega, _, ⟨m, hm, rfl⟩, by omega⟩

theorem nAtoms_of {g : Grp} {n : ℕ} {f : ℕ → ℤ} (hg : g.comp = (List.range n).map f) {m : ℕ}
    (hm : m < n) : g.nAtoms m = f m := by
  unfold Grp.nAtoms
  have h : g.comp ≠ [] := by
    rw [hg]; intro hc
    have := congrArg List.length hc
    simp at this; omega
  rw [if_neg h, hg]
  simp [List.getD, hm]

theorem mul_comp {M : Mech} {A : ℕ → ℕ → ℕ} (hA : ∀ k m, M.atoms k m = A k m) (p r : ℕ) :
    (((sgroup M p).sub (sgroup M r)).mul (-1)).comp =
      (List.range M.nel).map fun m => (A r m : ℤ) - A p m := by
  unfold Grp.mul
  rw [validate_comp, sub_comp hA, List.map_map]
  refine List.map_congr_left fun m _ => ?_
  simp only [Function.comp]
  ring

theorem sub_mul_valid {M : Mech} {A : ℕ → ℕ → ℕ} (hA : ∀ k m, M.atoms k m = A k m) (p r : ℕ)
    (h : ((sgroup M p).sub (sgroup M r)).valid) :
    (((sgroup M p).sub (sgroup M r)).mul (-1)).valid := by
  refine mul_valid _ h ?_
  rw [sub_comp hA]
  rw [sub_valid hA] at h
  simp only [List.mem_map, List.mem_range, forall_exists_index, and_imp, forall_apply_eq_imp_iff₂]
  rcases h with h | h
  · left; intro m hm; have := h m hm; omega
  · right; intro m hm; have := h m hm; omega

/-! ## The diagram -/

/-- Consistency of a diagram which `build` keeps. -/
structure Inv (d : Diag) : Prop where
  keys : d.keys = d.nums
  nodup : d.nums.Nodup
  nin : ∀ k, d.nin k = 0
  nout : ∀ k, d.nout k = 0
  plist : ∀ a b, (a, b) ∈ d.plist ↔ d.path a b ≠ none
  pnodup : d.plist.Nodup
  ends : ∀ a b, d.path a b ≠ none → a ∈ d.nums ∧ b ∈ d.nums ∧ a ≠ b
  pos : ∀ a b p, d.path a b = some p → 0 < p.total ∧ p.total ≤ d.flxmax
  mx : d.flxmax = 0 ∨ ∃ a b p, d.path a b = some p ∧ p.total = d.flxmax
  mx0 : 0 ≤ d.flxmax

theorem inv_empty : Inv Diag.empty := by
  constructor <;> simp [Diag.empty]

/-- Flow of a reaction in a path. -/
def Diag.rxnFlow (d : Diag) (a b : ℕ) (j : ℤ) : ℝ :=
  match d.path a b with
  | some p => p.rxn j
  | none => 0

theorem ensure_spec {d : Diag} (h : Inv d) (k : ℕ) :
    Inv (d.ensure k) ∧ (d.ensure k).path = d.path ∧ (d.ensure k).nums =
      (if k ∈ d.nums then d.nums else d.nums ++ [k]) := by
  by_cases c : k ∈ d.nums
  · have c' : k ∈ d.keys := by rw [h.keys]; exact c
    have e : d.ensure k = d := by
      unfold Diag.ensure Diag.hasNode Diag.touch
      simp [c, c']
    rw [e, if_pos c]
    exact ⟨h, rfl, rfl⟩
  · have c' : k ∉ d.keys := by rw [h.keys]; exact c
    have e : d.ensure k = { d with keys := d.keys ++ [k], nums := d.nums ++ [k] } := by
      unfold Diag.ensure Diag.hasNode Diag.addNode Diag.touch
      simp [c, c']
    rw [e, if_neg c]
    refine ⟨?_, rfl, rfl⟩
    constructor
    · simp only [h.keys]
    · simp only [List.nodup_append, h.nodup, true_and]
      refine ⟨by simp, ?_⟩
      intro a ha b hb hab
      simp only [List.mem_singleton] at hb
      subst hb; subst hab; exact c ha
    · exact h.nin
    · exact h.nout
    · exact h.plist
    · exact h.pnodup
    · intro a b hp
      obtain ⟨h1, h2, h3⟩ := h.ends a b hp
      exact ⟨List.mem_append_left _ h1, List.mem_append_left _ h2, h3⟩
    · exact h.pos
    · exact h.mx
    · exact h.mx0

theorem link_spec {d : Diag} (h : Inv d) {a b : ℕ} (ha : a ∈ d.nums) (hb : b ∈ d.nums)
    (hab : a ≠ b) (r : ℤ) {v : ℝ} (hv : 0 < v) :
    ∃ d', d.link a b r v = .ok d' ∧ Inv d' ∧ d'.nums = d.nums ∧
      (∀ x y, d'.flow x y = d.flow x y + if a = x ∧ b = y then v else 0) ∧
      (∀ x y j, d'.rxnFlow x y j = d.rxnFlow x y j + if a = x ∧ b = y ∧ r = j then v else 0) := by
  unfold Diag.link
  cases hp : d.path a b with
  | some p =>
    refine ⟨_, rfl, ?_, rfl, ?_, ?_⟩
    · obtain ⟨hp0, hpm⟩ := h.pos a b p hp
      constructor
      · exact h.keys
      · exact h.nodup
      · exact h.nin
      · exact h.nout
      · intro x y
        simp only
        rw [h.plist x y]
        by_cases c : x = a ∧ y = b
        · obtain ⟨rfl, rfl⟩ := c; simp [hp]
        · rw [if_neg c]
      · exact h.pnodup
      · intro x y hxy
        simp only at hxy
        by_cases c : x = a ∧ y = b
        · obtain ⟨rfl, rfl⟩ := c; exact ⟨ha, hb, hab⟩
        · rw [if_neg c] at hxy; exact h.ends x y hxy
      · intro x y q hq
        simp only at hq ⊢
        by_cases c : x = a ∧ y = b
        · rw [if_pos c] at hq
          obtain rfl := Option.some.inj hq
          exact ⟨by simp only [PathD.add]; linarith, le_max_left _ _⟩
        · rw [if_neg c] at hq
          exact ⟨(h.pos x y q hq).1, (h.pos x y q hq).2.trans (le_max_right _ _)⟩
      · right
        rcases le_total (p.add r v).total d.flxmax with c | c
        · simp only [max_eq_right c]
          rcases h.mx with h0 | ⟨x, y, q, hq, hm⟩
          · exfalso; simp only [PathD.add] at c; linarith
          · by_cases c' : x = a ∧ y = b
            · obtain ⟨rfl, rfl⟩ := c'
              rw [hp] at hq
              obtain rfl := Option.some.inj hq
              simp only [PathD.add] at c; exfalso; linarith
            · exact ⟨x, y, q, by rw [if_neg c']; exact hq, hm⟩
        · simp only [max_eq_left c]
          exact ⟨a, b, _, if_pos ⟨rfl, rfl⟩, rfl⟩
      · simp only
        exact h.mx0.trans (le_max_right _ _)
    · intro x y
      unfold Diag.flow
      simp only
      by_cases c : x = a ∧ y = b
      · obtain ⟨rfl, rfl⟩ := c; simp [hp, PathD.add]
      · have c' : ¬ (a = x ∧ b = y) := fun q => c ⟨q.1.symm, q.2.symm⟩
        rw [if_neg c, if_neg c', add_zero]
    · intro x y j
      unfold Diag.rxnFlow
      simp only
      by_cases c : x = a ∧ y = b
      · obtain ⟨rfl, rfl⟩ := c
        by_cases cj : r = j
        · subst cj; simp [hp, PathD.add]
        · have : ¬ j = r := fun q => cj q.symm
          simp [hp, PathD.add, cj, this]
      · have c' : ¬ (a = x ∧ b = y ∧ r = j) := fun q => c ⟨q.1.symm, q.2.1.symm⟩
        rw [if_neg c, if_neg c', add_zero]
  | none =>
    simp only [ha, hb, and_self, if_true]
    refine ⟨_, rfl, ?_, rfl, ?_, ?_⟩
    · constructor
      · exact h.keys
      · exact h.nodup
      · intro k; simp only; split <;> simp [h.nin]
      · intro k; simp only; split <;> simp [h.nout]
      · intro x y
        simp only [List.mem_append, List.mem_singleton, Prod.mk.injEq, h.plist]
        by_cases c : x = a ∧ y = b
        · simp [c]
        · simp [c]
      · simp only [List.nodup_append, h.pnodup, true_and]
        refine ⟨by simp, ?_⟩
        intro q hq q' hq' e
        simp only [List.mem_singleton] at hq'
        subst hq'; subst e
        exact (h.plist a b).1 hq hp
      · intro x y hxy
        simp only at hxy
        by_cases c : x = a ∧ y = b
        · obtain ⟨rfl, rfl⟩ := c; exact ⟨ha, hb, hab⟩
        · rw [if_neg c] at hxy; exact h.ends x y hxy
      · intro x y q hq
        simp only at hq ⊢
        by_cases c : x = a ∧ y = b
        · rw [if_pos c] at hq
          obtain rfl := Option.some.inj hq
          exact ⟨by simp only [PathD.add]; linarith, le_max_left _ _⟩
        · rw [if_neg c] at hq
          exact ⟨(h.pos x y q hq).1, (h.pos x y q hq).2.trans (le_max_right _ _)⟩
      · right
        rcases le_total (PathD.add ⟨0, fun _ => 0⟩ r v).total d.flxmax with c | c
        · simp only [max_eq_right c]
          rcases h.mx with h0 | ⟨x, y, q, hq, hm⟩
          · exfalso; simp only [PathD.add] at c; linarith
          · by_cases c' : x = a ∧ y = b
            · obtain ⟨rfl, rfl⟩ := c'
              rw [hp] at hq; cases hq
            · exact ⟨x, y, q, by rw [if_neg c']; exact hq, hm⟩
        · simp only [max_eq_left c]
          exact ⟨a, b, _, if_pos ⟨rfl, rfl⟩, rfl⟩
      · simp only
        exact h.mx0.trans (le_max_right _ _)
    · intro x y
      unfold Diag.flow
      simp only
      by_cases c : x = a ∧ y = b
      · obtain ⟨rfl, rfl⟩ := c; simp [hp, PathD.add]
      · have c' : ¬ (a = x ∧ b = y) := fun q => c ⟨q.1.symm, q.2.symm⟩
        rw [if_neg c, if_neg c', add_zero]
    · intro x y j
      unfold Diag.rxnFlow
      simp only
      by_cases c : x = a ∧ y = b
      · obtain ⟨rfl, rfl⟩ := c
        by_cases cj : r = j
        · subst cj; simp [hp, PathD.add]
        · have : ¬ j = r := fun q => cj q.symm
          simp [hp, PathD.add, cj, this]
      · have c' : ¬ (a = x ∧ b = y ∧ r = j) := fun q => c ⟨q.1.symm, q.2.1.symm⟩
        rw [if_neg c, if_neg c', add_zero]

/-! ## Steps -/

/-- The pair of positions may carry a flow. -/
def Pair (M : Mech) (inc exc : List ℕ) (m : ℕ) (t : ℕ × ℕ × ℕ) : Prop :=
  (reac M t.1).getD t.2.1 0 ≠ (prods M t.1).getD t.2.2 0 ∧
  0 < M.atoms ((reac M t.1).getD t.2.1 0) m ∧ 0 < M.atoms ((prods M t.1).getD t.2.2 0) m ∧
  0 ≤ status inc exc ((reac M t.1).getD t.2.1 0) ∧
  0 ≤ status inc exc ((prods M t.1).getD t.2.2 0)

open Classical in
/-- The flows which a pair of positions contributes: begin, end, reaction number, value. -/
noncomputable def evs (M : Mech) (E : ℕ → ℝ) (ropf ropr : ℕ → ℝ) (inc exc : List ℕ) (m : ℕ)
    (t : ℕ × ℕ × ℕ) : List (ℕ × ℕ × ℤ × ℝ) :=
  if Pair M inc exc m t then
    (if 0 < ropf t.1 * factorE M (E t.1) m t.1 t.2.1 t.2.2 then
      [((reac M t.1).getD t.2.1 0, (prods M t.1).getD t.2.2 0, (t.1 : ℤ),
        ropf t.1 * factorE M (E t.1) m t.1 t.2.1 t.2.2)] else []) ++
    (if 0 < ropr t.1 * factorE M (E t.1) m t.1 t.2.1 t.2.2 then
      [((prods M t.1).getD t.2.2 0, (reac M t.1).getD t.2.1 0, -(t.1 : ℤ),
        ropr t.1 * factorE M (E t.1) m t.1 t.2.1 t.2.2)] else [])
  else []

/-- Sum of the flows from `a` to `b`. -/
noncomputable def evFlow (l : List (ℕ × ℕ × ℤ × ℝ)) (a b : ℕ) : ℝ :=
  (l.map fun e => if e.1 = a ∧ e.2.1 = b then e.2.2.2 else 0).sum

/-- Sum of the flows from `a` to `b` due to number `j`. -/
noncomputable def evRxn (l : List (ℕ × ℕ × ℤ × ℝ)) (a b : ℕ) (j : ℤ) : ℝ :=
  (l.map fun e => if e.1 = a ∧ e.2.1 = b ∧ e.2.2.1 = j then e.2.2.2 else 0).sum

theorem step_spec (M : Mech) (E : ℕ → ℝ) (ropf ropr : ℕ → ℝ) (inc exc : List ℕ) (m : ℕ)
    {d : Diag} (h : Inv d) (t : ℕ × ℕ × ℕ) :
    ∃ d', step M (E t.1) ropf ropr inc exc m d t = .ok d' ∧ Inv d' ∧
      (∀ k, k ∈ d.nums → k ∈ d'.nums) ∧
      (∀ a b, d'.flow a b = d.flow a b + evFlow (evs M E ropf ropr inc exc m t) a b) ∧
      (∀ a b j, d'.rxnFlow a b j =
        d.rxnFlow a b j + evRxn (evs M E ropf ropr inc exc m t) a b j) := by
  unfold step evs
  simp only [or_iff_left_of_imp And.left]
  by_cases hg : Pair M inc exc m t
  swap
  · rw [if_neg hg]
    unfold Pair at hg
    rw [if_neg hg]
    exact ⟨d, rfl, h, fun k hk => hk, by simp [evFlow], by simp [evRxn]⟩
  rw [if_pos hg]
  have hg' := hg
  unfold Pair at hg'
  rw [if_pos hg']
  have hne := hg'.1
  generalize (reac M t.1).getD t.2.1 0 = r at hne ⊢
  generalize (prods M t.1).getD t.2.2 0 = p at hne ⊢
  generalize ropf t.1 * factorE M (E t.1) m t.1 t.2.1 t.2.2 = vf
  generalize ropr t.1 * factorE M (E t.1) m t.1 t.2.1 t.2.2 = vr
  obtain ⟨i1, e1, n1⟩ := ensure_spec h r
  obtain ⟨i2, e2, n2⟩ := ensure_spec i1 p
  have hr1 : r ∈ (d.ensure r).nums := by
    rw [n1]; split
    · assumption
    · simp
  have sub1 : ∀ k, k ∈ d.nums → k ∈ (d.ensure r).nums := by
    intro k hk; rw [n1]; split
    · exact hk
    · exact List.mem_append_left _ hk
  have sub2 : ∀ k, k ∈ (d.ensure r).nums → k ∈ ((d.ensure r).ensure p).nums := by
    intro k hk; rw [n2]; split
    · exact hk
    · exact List.mem_append_left _ hk
  have hp2 : p ∈ ((d.ensure r).ensure p).nums := by
    rw [n2]; split
    · assumption
    · simp
  have hr2 := sub2 r hr1
  have hfl : ∀ a b, ((d.ensure r).ensure p).flow a b = d.flow a b := by
    intro a b; unfold Diag.flow; rw [e2, e1]
  have hrx : ∀ a b j, ((d.ensure r).ensure p).rxnFlow a b j = d.rxnFlow a b j := by
    intro a b j; unfold Diag.rxnFlow; rw [e2, e1]
  have sub : ∀ k, k ∈ d.nums → k ∈ ((d.ensure r).ensure p).nums := fun k hk => sub2 k (sub1 k hk)
  by_cases cf : 0 < vf
  · obtain ⟨d2, l2, j2, m2, f2, x2⟩ := link_spec i2 hr2 hp2 hne (t.1 : ℤ) cf
    by_cases cr : 0 < vr
    · obtain ⟨d3, l3, j3, m3, f3, x3⟩ := link_spec j2 (a := p) (b := r) (by rw [m2]; exact hp2)
        (by rw [m2]; exact hr2) hne.symm (-(t.1 : ℤ)) cr
      simp only [cf, cr, or_self, if_true, l2, Outcome.bind_ok]
      refine ⟨d3, l3, j3, fun k hk => by rw [m3, m2]; exact sub k hk, ?_, ?_⟩
      · intro a b; rw [f3, f2, hfl]; simp [evFlow]; ring
      · intro a b j; rw [x3, x2, hrx]; simp [evRxn]; ring
    · simp only [cf, cr, or_false, if_true, if_false, l2, Outcome.bind_ok]
      refine ⟨d2, rfl, j2, fun k hk => by rw [m2]; exact sub k hk, ?_, ?_⟩
      · intro a b; rw [f2, hfl]; simp [evFlow]
      · intro a b j; rw [x2, hrx]; simp [evRxn]
  · by_cases cr : 0 < vr
    · obtain ⟨d3, l3, j3, m3, f3, x3⟩ := link_spec i2 (a := p) (b := r) hp2 hr2
        hne.symm (-(t.1 : ℤ)) cr
      simp only [cf, cr, false_or, if_true, if_false, Outcome.bind_ok]
      refine ⟨d3, l3, j3, fun k hk => by rw [m3]; exact sub k hk, ?_, ?_⟩
      · intro a b; rw [f3, hfl]; simp [evFlow]
      · intro a b j; rw [x3, hrx]; simp [evRxn]
    · simp only [cf, cr, or_self, if_false, Outcome.bind_ok]
      exact ⟨d, rfl, h, fun k hk => hk, by simp [evFlow], by simp [evRxn]⟩

theorem steps_spec (M : Mech) (E : ℕ → ℝ) (ropf ropr : ℕ → ℝ) (inc exc : List ℕ) (m : ℕ)
    (l : List (ℕ × ℕ × ℕ)) : ∀ {d : Diag}, Inv d →
    ∃ d', steps M E ropf ropr inc exc m l d = .ok d' ∧ Inv d' ∧
      (∀ k, k ∈ d.nums → k ∈ d'.nums) ∧
      (∀ a b, d'.flow a b = d.flow a b + evFlow (l.flatMap (evs M E ropf ropr inc exc m)) a b) ∧
      (∀ a b j, d'.rxnFlow a b j =
        d.rxnFlow a b j + evRxn (l.flatMap (evs M E ropf ropr inc exc m)) a b j) := by
  induction l with
  | nil => intro d h; exact ⟨d, rfl, h, fun k hk => hk, by simp [evFlow], by simp [evRxn]⟩
  | cons t l ih =>
    intro d h
    obtain ⟨d1, s1, i1, n1, f1, x1⟩ := step_spec M E ropf ropr inc exc m h t
    obtain ⟨d2, s2, i2, n2, f2, x2⟩ := ih i1
    refine ⟨d2, ?_, i2, fun k hk => n2 k (n1 k hk), ?_, ?_⟩
    · unfold steps; rw [s1, Outcome.bind_ok, s2]
    · intro a b; rw [f2, f1]; simp [evFlow, add_assoc]
    · intro a b j; rw [x2, x1]; simp [evRxn, add_assoc]

end Verif.RPath
