import Verif.Reaction.Duplicates
import Mathlib.Algebra.BigOperators.Group.Finset.Basic
import Mathlib.Algebra.BigOperators.Group.List.Lemmas

/-!
# Detection of duplicate reactions (C10), theorems
-/

namespace Verif.Duplicates

/-! ## The comparison of coefficients -/

/-- The test in the loops of `checkDuplicateStoich`. -/
def Diff (ratio x y : ℝ) : Prop :=
  (x ≠ 0 ∧ y = 0) ∨ (x = 0 ∧ y ≠ 0) ∨ (x ≠ 0 ∧ |y / x - ratio| > 1e-8)

theorem not_diff_iff {ratio x y : ℝ} : ¬ Diff ratio x y ↔ Near ratio x y := by
  unfold Diff Near
  by_cases hx : x = 0
  · subst hx
    by_cases hy : y = 0 <;> simp [hy]
  · have hpos : 0 < |x| := abs_pos.mpr hx
    have key : |y / x - ratio| * |x| = |y - ratio * x| := by
      rw [← abs_mul]; congr 1; field_simp
    have : |y / x - ratio| > 1e-8 ↔ ¬ |y - ratio * x| ≤ 1e-8 * |x| := by
      rw [not_le, gt_iff_lt, ← key]
      exact (mul_lt_mul_iff_of_pos_right hpos).symm
    by_cases hy : y = 0
    · simp [hx, hy]
    · rw [this]; simp [hx, hy]

/-- `r'` is `r` with additional empty entries from `A` and `-A`. -/
def Ext (A : Finset ℤ) (r r' : Net) : Prop :=
  r'.val = r.val ∧ r.keys ⊆ r'.keys ∧ ∀ k ∈ r'.keys, k ∈ r.keys ∨ k ∈ A ∨ -k ∈ A

theorem Ext.refl (A : Finset ℤ) (r : Net) : Ext A r r :=
  ⟨rfl, Finset.Subset.refl _, fun _ h => Or.inl h⟩

theorem Ext.trans {A : Finset ℤ} {a b c : Net} (h1 : Ext A a b) (h2 : Ext A b c) : Ext A a c := by
  refine ⟨h2.1.trans h1.1, h1.2.1.trans h2.2.1, fun k hk => ?_⟩
  rcases h2.2.2 k hk with h | h
  · exact h1.2.2 k h
  · exact Or.inr h

theorem Ext.touch {A : Finset ℤ} (r : Net) {k : ℤ} (h : k ∈ A ∨ -k ∈ A) : Ext A r (r.touch k) := by
  refine ⟨rfl, Finset.subset_insert _ _, fun j hj => ?_⟩
  rcases Finset.mem_insert.mp hj with rfl | hj
  · exact Or.inr h
  · exact Or.inl hj

theorem sameLoop_spec {A : Finset ℤ} (ratio : ℝ) : ∀ (ks : List ℤ) (r1 r2 : Net),
    (∀ k ∈ ks, k ∈ A) →
    ((sameLoop ratio ks r1 r2).1 = false ↔ ∀ k ∈ ks, ¬ Diff ratio (r1.val k) (r2.val k)) ∧
    Ext A r1 (sameLoop ratio ks r1 r2).2.1 ∧ Ext A r2 (sameLoop ratio ks r1 r2).2.2
  | [], r1, r2, _ => by simp [sameLoop, Ext.refl]
  | k :: ks, r1, r2, h => by
    obtain ⟨i1, i2, i3⟩ := sameLoop_spec (A := A) ratio ks (r1.touch k) (r2.touch k)
      (fun j hj => h j (List.mem_cons_of_mem _ hj))
    have hk : k ∈ A ∨ -k ∈ A := Or.inl (h k List.mem_cons_self)
    rw [sameLoop]
    by_cases hd : Diff ratio (r1.val k) (r2.val k)
    · have hd' := hd
      unfold Diff at hd'
      rw [if_pos hd']
      refine ⟨?_, Ext.touch r1 hk, Ext.touch r2 hk⟩
      simp [hd]
    · have hd' := hd
      unfold Diff at hd'
      rw [if_neg hd']
      refine ⟨?_, (Ext.touch r1 hk).trans i2, (Ext.touch r2 hk).trans i3⟩
      rw [i1, List.forall_mem_cons]
      simp only [hd, not_false_eq_true, true_and]
      rfl

theorem revLoop_spec {A : Finset ℤ} (ratio : ℝ) : ∀ (ks : List ℤ) (r1 r2 : Net),
    (∀ k ∈ ks, k ∈ A) →
    ((∀ k ∈ ks, ¬ Diff ratio (r1.val k) (r2.val (-k))) →
      (revLoop ratio ks r1 r2).1 = ratio ∧ ∀ k ∈ ks, k ∈ (revLoop ratio ks r1 r2).2.1.keys) ∧
    ((¬ ∀ k ∈ ks, ¬ Diff ratio (r1.val k) (r2.val (-k))) → (revLoop ratio ks r1 r2).1 = 0) ∧
    Ext A r1 (revLoop ratio ks r1 r2).2.1 ∧ Ext A r2 (revLoop ratio ks r1 r2).2.2
  | [], r1, r2, _ => by simp [revLoop, Ext.refl]
  | k :: ks, r1, r2, h => by
    obtain ⟨i1, i1', i2, i3⟩ := revLoop_spec (A := A) ratio ks (r1.touch k) (r2.touch (-k))
      (fun j hj => h j (List.mem_cons_of_mem _ hj))
    have hk : k ∈ A := h k List.mem_cons_self
    rw [revLoop]
    by_cases hd : Diff ratio (r1.val k) (r2.val (-k))
    · have hd' := hd
      unfold Diff at hd'
      rw [if_pos hd']
      refine ⟨fun hc => absurd hd (hc k List.mem_cons_self), fun _ => rfl,
        Ext.touch r1 (Or.inl hk), Ext.touch r2 (Or.inr (by rw [neg_neg]; exact hk))⟩
    · have hd' := hd
      unfold Diff at hd'
      rw [if_neg hd']
      refine ⟨fun hc => ?_, fun hc => i1' (fun hall => hc (fun j hj => ?_)),
        (Ext.touch r1 (Or.inl hk)).trans i2,
        (Ext.touch r2 (Or.inr (by rw [neg_neg]; exact hk))).trans i3⟩
      · obtain ⟨j1, j2⟩ := i1 (fun j hj => hc j (List.mem_cons_of_mem _ hj))
        refine ⟨j1, fun j hj => ?_⟩
        rcases List.mem_cons.mp hj with rfl | hj
        · exact i2.2.1 (Finset.mem_insert_self _ _)
        · exact j2 j hj
      · rcases List.mem_cons.mp hj with rfl | hj
        · exact hd
        · exact hall j hj

/-- All entries match in the same direction. -/
def AllSame (v1 v2 : ℤ → ℝ) (k1 : ℤ) (K : Finset ℤ) : Prop :=
  v1 k1 ≠ 0 ∧ v2 k1 ≠ 0 ∧ ∀ k ∈ K, ¬ Diff (v2 k1 / v1 k1) (v1 k) (v2 k)

/-- All entries match in the reverse direction. -/
def AllRev (v1 v2 : ℤ → ℝ) (k1 : ℤ) (K : Finset ℤ) : Prop :=
  v1 k1 ≠ 0 ∧ v2 (-k1) ≠ 0 ∧ ∀ k ∈ K, ¬ Diff (v2 (-k1) / v1 k1) (v1 k) (v2 (-k))

theorem revPart_spec {A : Finset ℤ} {ks : List ℤ} (hks : ∀ k, k ∈ ks ↔ k ∈ A) {k1 : ℤ}
    (hk1 : k1 ∈ A) (r1 r2 : Net) :
    (AllRev r1.val r2.val k1 A → (revPart ks k1 r1 r2).1 = r2.val (-k1) / r1.val k1 ∧
      A ⊆ (revPart ks k1 r1 r2).2.1.keys) ∧
    (¬ AllRev r1.val r2.val k1 A → (revPart ks k1 r1 r2).1 = 0) ∧
    Ext A r1 (revPart ks k1 r1 r2).2.1 ∧ Ext A r2 (revPart ks k1 r1 r2).2.2 := by
  have ht : Ext A r2 (r2.touch (-k1)) := Ext.touch r2 (Or.inr (by rw [neg_neg]; exact hk1))
  unfold revPart
  by_cases h1 : r1.val k1 = 0
  · rw [if_pos h1]
    exact ⟨fun h => absurd h1 h.1, fun _ => rfl, Ext.refl _ _, Ext.refl _ _⟩
  rw [if_neg h1]
  by_cases h2 : r2.val (-k1) = 0
  · rw [if_pos h2]
    exact ⟨fun h => absurd h2 h.2.1, fun _ => rfl, Ext.refl _ _, ht⟩
  rw [if_neg h2]
  obtain ⟨i1, i1', i2, i3⟩ := revLoop_spec (A := A) (r2.val (-k1) / r1.val k1) ks r1
    (r2.touch (-k1)) (fun k hk => (hks k).mp hk)
  refine ⟨fun h => ?_, fun h => i1' (fun hall => h ⟨h1, h2, fun k hk => ?_⟩), i2, ht.trans i3⟩
  · obtain ⟨a1, a2⟩ := i1 (fun k hk => h.2.2 k ((hks k).mp hk))
    exact ⟨a1, fun k hk => a2 k ((hks k).mpr hk)⟩
  · exact hall k ((hks k).mpr hk)

/-- What `checkDuplicateStoich` returns and which entries it makes. -/
theorem checkFrom_spec {A : Finset ℤ} {ks : List ℤ} (hks : ∀ k, k ∈ ks ↔ k ∈ A) {k1 : ℤ}
    (hk1 : k1 ∈ A) (r1 r2 : Net) :
    (AllSame r1.val r2.val k1 A → (checkFrom ks k1 r1 r2).1 = r2.val k1 / r1.val k1) ∧
    (¬ AllSame r1.val r2.val k1 A → AllRev r1.val r2.val k1 A →
      (checkFrom ks k1 r1 r2).1 = r2.val (-k1) / r1.val k1 ∧
      A ⊆ (checkFrom ks k1 r1 r2).2.1.keys) ∧
    (¬ AllSame r1.val r2.val k1 A → ¬ AllRev r1.val r2.val k1 A →
      (checkFrom ks k1 r1 r2).1 = 0) ∧
    Ext A r1 (checkFrom ks k1 r1 r2).2.1 ∧ Ext A r2 (checkFrom ks k1 r1 r2).2.2 := by
  have hA : Ext A r2 (open Classical in if r1.val k1 ≠ 0 then r2.touch k1 else r2) := by
    split_ifs
    · exact Ext.touch r2 (Or.inl hk1)
    · exact Ext.refl _ _
  unfold checkFrom
  simp only
  generalize (open Classical in if r1.val k1 ≠ 0 then r2.touch k1 else r2) = r2a at hA
  by_cases h1 : r1.val k1 ≠ 0 ∧ r2.val k1 ≠ 0
  · rw [if_pos h1]
    obtain ⟨i1, i2, i3⟩ := sameLoop_spec (A := A) (r2.val k1 / r1.val k1) ks r1 r2a
      (fun k hk => (hks k).mp hk)
    rw [hA.1] at i1
    have i3' := hA.trans i3
    generalize sameLoop (r2.val k1 / r1.val k1) ks r1 r2a = q at i1 i2 i3'
    have hsame : q.1 = false ↔ AllSame r1.val r2.val k1 A := by
      rw [i1]
      unfold AllSame
      constructor
      · intro h; exact ⟨h1.1, h1.2, fun k hk => h k ((hks k).mpr hk)⟩
      · intro h k hk; exact h.2.2 k ((hks k).mp hk)
    by_cases hq : q.1 = false
    · rw [if_pos hq]
      have hs := hsame.mp hq
      exact ⟨fun _ => rfl, fun h => absurd hs h, fun h => absurd hs h, i2, i3'⟩
    · rw [if_neg hq]
      have hs : ¬ AllSame r1.val r2.val k1 A := fun h => hq (hsame.mpr h)
      obtain ⟨j1, j2, j3, j4⟩ := revPart_spec hks hk1 q.2.1 q.2.2
      rw [i2.1, i3'.1] at j1 j2
      exact ⟨fun h => absurd h hs, fun _ h => j1 h, fun _ h => j2 h, i2.trans j3, i3'.trans j4⟩
  · rw [if_neg h1]
    have hs : ¬ AllSame r1.val r2.val k1 A := fun h => h1 ⟨h.1, h.2.1⟩
    obtain ⟨j1, j2, j3, j4⟩ := revPart_spec hks hk1 r1 r2a
    rw [hA.1] at j1 j2
    exact ⟨fun h => absurd h hs, fun _ h => j1 h, fun _ h => j2 h, j3, hA.trans j4⟩

/-! ## The coefficients of a reaction -/

theorem foldl_add (f : ℕ × ℝ → ℤ) (g : ℕ × ℝ → ℝ) : ∀ (l : List (ℕ × ℝ)) (a : Net),
    (∀ j, (l.foldl (fun a x => a.add (f x) (g x)) a).val j =
      a.val j + ((l.filter (fun x => f x = j)).map g).sum) ∧
    (∀ j, j ∈ (l.foldl (fun a x => a.add (f x) (g x)) a).keys ↔ j ∈ a.keys ∨ ∃ x ∈ l, f x = j)
  | [], a => by simp
  | x :: l, a => by
    obtain ⟨h1, h2⟩ := foldl_add f g l (a.add (f x) (g x))
    refine ⟨fun j => ?_, fun j => ?_⟩
    · rw [List.foldl_cons, h1]
      by_cases hj : f x = j
      · subst hj
        simp [Net.add, add_assoc]
      · have : ¬ j = f x := fun h => hj h.symm
        simp [Net.add, hj, this]
    · rw [List.foldl_cons, h2]
      simp only [Net.add, Finset.mem_insert, List.mem_cons, exists_eq_or_imp]
      constructor
      · rintro ((rfl | h) | h)
        · exact Or.inr (Or.inl rfl)
        · exact Or.inl h
        · exact Or.inr (Or.inr h)
      · rintro (h | (h | h))
        · exact Or.inl (Or.inr h)
        · exact Or.inl (Or.inl h.symm)
        · exact Or.inr h

theorem netOf_val (r : Rx) (j : ℤ) : (netOf r).val j =
    ((r.reac.filter (fun x => -1 - (x.1 : ℤ) = j)).map (fun x => -x.2)).sum +
    ((r.prod.filter (fun x => 1 + (x.1 : ℤ) = j)).map (fun x => x.2)).sum := by
  unfold netOf
  rw [(foldl_add (fun x => 1 + (x.1 : ℤ)) (fun x => x.2) r.prod _).1,
    (foldl_add (fun x => -1 - (x.1 : ℤ)) (fun x => -x.2) r.reac _).1]
  simp [Net.empty]

theorem netOf_keys (r : Rx) (j : ℤ) : j ∈ (netOf r).keys ↔
    (∃ x ∈ r.reac, -1 - (x.1 : ℤ) = j) ∨ ∃ x ∈ r.prod, 1 + (x.1 : ℤ) = j := by
  unfold netOf
  rw [(foldl_add (fun x => 1 + (x.1 : ℤ)) (fun x => x.2) r.prod _).2,
    (foldl_add (fun x => -1 - (x.1 : ℤ)) (fun x => -x.2) r.reac _).2]
  simp [Net.empty]

theorem sum_neg_map (l : List (ℕ × ℝ)) : (l.map (fun x => -x.2)).sum = -(l.map Prod.snd).sum := by
  induction l with
  | nil => simp
  | cons x l ih => simp [ih]; ring

theorem netOf_reac (r : Rx) (k : ℕ) : (netOf r).val (-1 - k) = -rc r k := by
  rw [netOf_val]
  have h1 : r.prod.filter (fun x => 1 + (x.1 : ℤ) = -1 - k) = [] := by
    rw [List.filter_eq_nil_iff]; intro x _; simp; omega
  have h2 : r.reac.filter (fun x => -1 - (x.1 : ℤ) = -1 - k) = r.reac.filter (fun x => x.1 = k) := by
    refine List.filter_congr (fun x _ => ?_)
    simp
  rw [h1, h2, sum_neg_map]
  simp [rc]

theorem netOf_prod (r : Rx) (k : ℕ) : (netOf r).val (1 + k) = pc r k := by
  rw [netOf_val]
  have h1 : r.reac.filter (fun x => -1 - (x.1 : ℤ) = 1 + k) = [] := by
    rw [List.filter_eq_nil_iff]; intro x _; simp; omega
  have h2 : r.prod.filter (fun x => 1 + (x.1 : ℤ) = 1 + k) = r.prod.filter (fun x => x.1 = k) := by
    refine List.filter_congr (fun x _ => ?_)
    simp
  rw [h1, h2]
  simp [pc]

theorem netOf_zero (r : Rx) : (netOf r).val 0 = 0 := by
  rw [netOf_val]
  have h1 : r.reac.filter (fun x => -1 - (x.1 : ℤ) = 0) = [] := by
    rw [List.filter_eq_nil_iff]; intro x _; simp; omega
  have h2 : r.prod.filter (fun x => 1 + (x.1 : ℤ) = 0) = [] := by
    rw [List.filter_eq_nil_iff]; intro x _; simp; omega
  rw [h1, h2]; simp

/-- Every key is zero, or belongs to a reactant or a product. -/
theorem key_cases (k : ℤ) : k = 0 ∨ (∃ p : ℕ, k = -1 - p) ∨ ∃ p : ℕ, k = 1 + p := by
  rcases lt_trichotomy k 0 with h | h | h
  · exact Or.inr (Or.inl ⟨(-1 - k).toNat, by omega⟩)
  · exact Or.inl h
  · exact Or.inr (Or.inr ⟨(k - 1).toNat, by omega⟩)

/-- No entry, no value. -/
theorem netOf_not_mem {r : Rx} {k : ℤ} (h : k ∉ (netOf r).keys) : (netOf r).val k = 0 := by
  rw [netOf_keys, not_or] at h
  rw [netOf_val]
  have h1 : r.reac.filter (fun x => -1 - (x.1 : ℤ) = k) = [] := by
    rw [List.filter_eq_nil_iff]; intro x hx; simp; exact fun hc => h.1 ⟨x, hx, hc⟩
  have h2 : r.prod.filter (fun x => 1 + (x.1 : ℤ) = k) = [] := by
    rw [List.filter_eq_nil_iff]; intro x hx; simp; exact fun hc => h.2 ⟨x, hx, hc⟩
  rw [h1, h2]; simp

/-- A well-formed reaction: every species once on each side, no zero coefficients. -/
structure Good (r : Rx) : Prop where
  reacNodup : (r.reac.map Prod.fst).Nodup
  prodNodup : (r.prod.map Prod.fst).Nodup
  reacNZ : ∀ x ∈ r.reac, x.2 ≠ 0
  prodNZ : ∀ x ∈ r.prod, x.2 ≠ 0

theorem coef_of_nodup : ∀ {l : List (ℕ × ℝ)}, (l.map Prod.fst).Nodup → ∀ {x}, x ∈ l →
    ((l.filter (fun y => y.1 = x.1)).map Prod.snd).sum = x.2
  | [], _, x, hx => by simp at hx
  | y :: l, h, x, hx => by
    rw [List.map_cons, List.nodup_cons] at h
    rcases List.mem_cons.mp hx with rfl | hx
    · have : l.filter (fun y => y.1 = x.1) = [] := by
        rw [List.filter_eq_nil_iff]
        intro y hy hc
        simp at hc
        exact h.1 (List.mem_map.mpr ⟨y, hy, hc⟩)
      simp [this]
    · have hne : ¬ y.1 = x.1 := fun hc => h.1 (List.mem_map.mpr ⟨x, hx, hc.symm⟩)
      rw [List.filter_cons_of_neg (by simpa using hne)]
      exact coef_of_nodup h.2 hx

theorem coef_ne_zero_iff {l : List (ℕ × ℝ)} (h : (l.map Prod.fst).Nodup) (hz : ∀ x ∈ l, x.2 ≠ 0)
    (k : ℕ) : ((l.filter (fun y => y.1 = k)).map Prod.snd).sum ≠ 0 ↔ k ∈ l.map Prod.fst := by
  constructor
  · intro hs
    by_contra hk
    apply hs
    have : l.filter (fun y => y.1 = k) = [] := by
      rw [List.filter_eq_nil_iff]
      intro y hy hc
      simp at hc
      exact hk (List.mem_map.mpr ⟨y, hy, hc⟩)
    simp [this]
  · intro hk
    obtain ⟨x, hx, rfl⟩ := List.mem_map.mp hk
    rw [coef_of_nodup h hx]
    exact hz x hx

theorem rc_ne_zero {r : Rx} (h : Good r) (k : ℕ) : rc r k ≠ 0 ↔ k ∈ r.reac.map Prod.fst :=
  coef_ne_zero_iff h.reacNodup h.reacNZ k

theorem pc_ne_zero {r : Rx} (h : Good r) (k : ℕ) : pc r k ≠ 0 ↔ k ∈ r.prod.map Prod.fst :=
  coef_ne_zero_iff h.prodNodup h.prodNZ k

/-- In a well-formed reaction the entries are the non-zero values. -/
theorem good_keys {r : Rx} (h : Good r) (k : ℤ) : k ∈ (netOf r).keys ↔ (netOf r).val k ≠ 0 := by
  constructor
  · intro hk
    rw [netOf_keys] at hk
    rcases hk with ⟨x, hx, rfl⟩ | ⟨x, hx, rfl⟩
    · rw [netOf_reac, neg_ne_zero, rc_ne_zero h]
      exact List.mem_map.mpr ⟨x, hx, rfl⟩
    · rw [netOf_prod, pc_ne_zero h]
      exact List.mem_map.mpr ⟨x, hx, rfl⟩
  · intro hv
    by_contra hk
    exact hv (netOf_not_mem hk)

/-- The key depends only on the participating species. -/
theorem keyOf_eq_sum {r : Rx} (h : Good r) : keyOf r =
    (r.reac.map Prod.fst).toFinset.sum (fun k => k * (k + 1)) +
    (r.prod.map Prod.fst).toFinset.sum (fun k => k * (k + 1)) := by
  rw [List.sum_toFinset _ h.reacNodup, List.sum_toFinset _ h.prodNodup]
  simp [keyOf, Function.comp_def]

theorem key_same {a b : Rx} (ha : Good a) (hb : Good b) {c : ℝ} (hc : c ≠ 0) (h : SameDir a b c) :
    keyOf a = keyOf b := by
  rw [keyOf_eq_sum ha, keyOf_eq_sum hb]
  congr 2
  · ext k
    rw [List.mem_toFinset, List.mem_toFinset, ← rc_ne_zero ha, ← rc_ne_zero hb, (h k).1]
    simp [hc]
  · ext k
    rw [List.mem_toFinset, List.mem_toFinset, ← pc_ne_zero ha, ← pc_ne_zero hb, (h k).2]
    simp [hc]

theorem key_opp {a b : Rx} (ha : Good a) (hb : Good b) {c : ℝ} (hc : c ≠ 0) (h : OppDir a b c) :
    keyOf a = keyOf b := by
  rw [keyOf_eq_sum ha, keyOf_eq_sum hb, add_comm]
  congr 2
  · ext k
    rw [List.mem_toFinset, List.mem_toFinset, ← pc_ne_zero ha, ← rc_ne_zero hb, (h k).2]
    simp [hc]
  · ext k
    rw [List.mem_toFinset, List.mem_toFinset, ← rc_ne_zero ha, ← pc_ne_zero hb, (h k).1]
    simp [hc]

/-! ## Soundness and completeness of one comparison -/

/-- Nearly proportional in opposite directions, except that `b` has species 0 in addition. -/
def OppButZero (a b : Rx) (c : ℝ) : Prop :=
  ¬ Part a 0 ∧ Part b 0 ∧ ∀ k ≠ 0, Near c (rc a k) (pc b k) ∧ Near c (pc a k) (rc b k)

/-- Contribution of an entry to the key. -/
def wt (k : ℤ) : ℕ := (k.natAbs - 1) * (k.natAbs - 1 + 1)

theorem keyOf_eq_wt {r : Rx} (h : Good r) : keyOf r = (netOf r).keys.sum wt := by
  have hk : (netOf r).keys =
      (r.reac.map Prod.fst).toFinset.image (fun k : ℕ => -1 - (k : ℤ)) ∪
      (r.prod.map Prod.fst).toFinset.image (fun k : ℕ => 1 + (k : ℤ)) := by
    ext j
    rw [netOf_keys]
    simp only [Finset.mem_union, Finset.mem_image, List.mem_toFinset, List.mem_map]
    constructor
    · rintro (⟨x, hx, rfl⟩ | ⟨x, hx, rfl⟩)
      · exact Or.inl ⟨_, ⟨x, hx, rfl⟩, rfl⟩
      · exact Or.inr ⟨_, ⟨x, hx, rfl⟩, rfl⟩
    · rintro (⟨_, ⟨x, hx, rfl⟩, rfl⟩ | ⟨_, ⟨x, hx, rfl⟩, rfl⟩)
      · exact Or.inl ⟨x, hx, rfl⟩
      · exact Or.inr ⟨x, hx, rfl⟩
  rw [keyOf_eq_sum h, hk, Finset.sum_union, Finset.sum_image, Finset.sum_image]
  · congr 1
    · refine Finset.sum_congr rfl (fun k _ => ?_)
      have : (-1 - (k : ℤ)).natAbs - 1 = k := by omega
      rw [wt, this]
    · refine Finset.sum_congr rfl (fun k _ => ?_)
      have : (1 + (k : ℤ)).natAbs - 1 = k := by omega
      rw [wt, this]
  · intro x _ y _ hxy; simp only at hxy; omega
  · intro x _ y _ hxy; simp only at hxy; omega
  · rw [Finset.disjoint_left]
    intro x h1 h2
    obtain ⟨y, _, rfl⟩ := Finset.mem_image.mp h1
    obtain ⟨z, _, hz⟩ := Finset.mem_image.mp h2
    omega

/-- If every entry of `a` has a counterpart in `b`, only species 0 can be left in `b`. -/
theorem rest_zero {a b : Rx} (ha : Good a) (hb : Good b) (hκ : keyOf a = keyOf b)
    (h : ∀ k ∈ (netOf a).keys, -k ∈ (netOf b).keys) {k : ℤ} (hk : -k ∈ (netOf b).keys)
    (hka : k ∉ (netOf a).keys) : k = 1 ∨ k = -1 := by
  rw [keyOf_eq_wt ha, keyOf_eq_wt hb] at hκ
  have himg : (netOf a).keys.image (fun k => -k) ⊆ (netOf b).keys := by
    intro x hx
    obtain ⟨y, hy, rfl⟩ := Finset.mem_image.mp hx
    exact h y hy
  have hs : ((netOf a).keys.image (fun k => -k)).sum wt = (netOf a).keys.sum wt := by
    rw [Finset.sum_image (by intro x _ y _ hxy; simp only at hxy; omega)]
    refine Finset.sum_congr rfl (fun k _ => ?_)
    rw [wt, wt, Int.natAbs_neg]
  have hd := Finset.sum_sdiff (f := wt) himg
  rw [hs, hκ] at hd
  have h0 : ((netOf b).keys \ (netOf a).keys.image (fun k => -k)).sum wt = 0 := by
    have hd' : ((netOf b).keys \ (netOf a).keys.image (fun k => -k)).sum wt +
        (netOf b).keys.sum wt = (netOf b).keys.sum wt := hd
    omega
  have hmem : -k ∈ (netOf b).keys \ (netOf a).keys.image (fun k => -k) := by
    rw [Finset.mem_sdiff]
    refine ⟨hk, fun hc => ?_⟩
    obtain ⟨y, hy, hyk⟩ := Finset.mem_image.mp hc
    have : y = k := by omega
    subst this
    exact hka hy
  have hw := (Finset.sum_eq_zero_iff.mp h0) _ hmem
  rw [wt, Int.natAbs_neg] at hw
  have hne : k ≠ 0 := by
    intro h0
    subst h0
    rw [netOf_keys] at hk
    rcases hk with ⟨x, _, hx⟩ | ⟨x, _, hx⟩ <;> omega
  have : k.natAbs - 1 = 0 := by
    rcases Nat.mul_eq_zero.mp hw with h | h <;> omega
  omega

theorem part_iff (r : Rx) (k : ℕ) :
    Part r k ↔ (-1 - (k : ℤ)) ∈ (netOf r).keys ∨ (1 + (k : ℤ)) ∈ (netOf r).keys := by
  unfold Part
  rw [netOf_keys, netOf_keys]
  constructor
  · rintro (⟨v, hv⟩ | ⟨v, hv⟩)
    · exact Or.inl (Or.inl ⟨_, hv, rfl⟩)
    · exact Or.inr (Or.inr ⟨_, hv, rfl⟩)
  · rintro ((⟨x, hx, he⟩ | ⟨x, hx, he⟩) | (⟨x, hx, he⟩ | ⟨x, hx, he⟩))
    · have : x.1 = k := by omega
      subst this; exact Or.inl ⟨x.2, hx⟩
    · omega
    · omega
    · have : x.1 = k := by omega
      subst this; exact Or.inr ⟨x.2, hx⟩

theorem part_key {r : Rx} {k : ℤ} (h : k ∈ (netOf r).keys) : Part r (k.natAbs - 1) ∧ k ≠ 0 := by
  rw [netOf_keys] at h
  rcases h with ⟨x, hx, rfl⟩ | ⟨x, hx, rfl⟩
  · have : (-1 - (x.1 : ℤ)).natAbs - 1 = x.1 := by omega
    rw [this]
    exact ⟨Or.inl ⟨x.2, hx⟩, by omega⟩
  · have : (1 + (x.1 : ℤ)).natAbs - 1 = x.1 := by omega
    rw [this]
    exact ⟨Or.inr ⟨x.2, hx⟩, by omega⟩

theorem near_neg {c x y : ℝ} : Near c (-x) (-y) ↔ Near c x y := by
  unfold Near
  have : -y - c * -x = -(y - c * x) := by ring
  rw [this, abs_neg, abs_neg, neg_eq_zero, neg_eq_zero]

theorem near_neg_left {c x y : ℝ} : Near c (-x) y ↔ Near (-c) x y := by
  unfold Near
  have : y - c * -x = y - -c * x := by ring
  rw [this, abs_neg, neg_eq_zero]

theorem near_neg_right {c x y : ℝ} : Near c x (-y) ↔ Near (-c) x y := by
  rw [← near_neg, neg_neg, near_neg_left]

theorem near_zero {c x y : ℝ} (hx : x = 0) (hy : y = 0) : Near c x y := by
  subst hx; subst hy; simp [Near]

theorem allSame_sound {a b : Rx} {k1 : ℤ} {K : Finset ℤ} (ha : (netOf a).keys ⊆ K)
    (hb : (netOf b).keys ⊆ K) (h : AllSame (netOf a).val (netOf b).val k1 K) :
    SameNear a b ((netOf b).val k1 / (netOf a).val k1) := by
  have key : ∀ k, Near ((netOf b).val k1 / (netOf a).val k1) ((netOf a).val k)
      ((netOf b).val k) := by
    intro k
    by_cases hk : k ∈ K
    · exact not_diff_iff.mp (h.2.2 k hk)
    · exact near_zero (netOf_not_mem (fun hc => hk (ha hc))) (netOf_not_mem (fun hc => hk (hb hc)))
  intro k
  have h1 := key (-1 - k)
  have h2 := key (1 + k)
  rw [netOf_reac, netOf_reac, near_neg] at h1
  rw [netOf_prod, netOf_prod] at h2
  exact ⟨h1, h2⟩

theorem allRev_sound {a b : Rx} {k1 : ℤ} {K : Finset ℤ} (ha : (netOf a).keys ⊆ K)
    (hb : (netOf b).keys ⊆ K) (hga : Good a) (hgb : Good b) (hκ : keyOf a = keyOf b)
    (h : AllRev (netOf a).val (netOf b).val k1 K) :
    OppNear a b (-((netOf b).val (-k1) / (netOf a).val k1)) ∨
    OppButZero a b (-((netOf b).val (-k1) / (netOf a).val k1)) := by
  generalize hρ : (netOf b).val (-k1) / (netOf a).val k1 = ρ
  have hK : ∀ k ∈ K, Near ρ ((netOf a).val k) ((netOf b).val (-k)) := by
    intro k hk
    rw [← hρ]
    exact not_diff_iff.mp (h.2.2 k hk)
  have hcount : ∀ k ∈ (netOf a).keys, -k ∈ (netOf b).keys := by
    intro k hk
    have hv := (good_keys hga k).mp hk
    exact (good_keys hgb _).mpr (fun hz => hv ((hK k (ha hk)).1.mpr hz))
  have key : ∀ k, Near ρ ((netOf a).val k) ((netOf b).val (-k)) ∨
      ((k = 1 ∨ k = -1) ∧ k ∉ (netOf a).keys ∧ -k ∉ (netOf a).keys ∧ -k ∈ (netOf b).keys) := by
    intro k
    by_cases hk : k ∈ K
    · exact Or.inl (hK k hk)
    · have hka : k ∉ (netOf a).keys := fun hc => hk (ha hc)
      by_cases hkb : -k ∈ (netOf b).keys
      · refine Or.inr ⟨rest_zero hga hgb hκ hcount hkb hka, hka, fun hc => ?_, hkb⟩
        have := hcount _ hc
        rw [neg_neg] at this
        exact hk (hb this)
      · exact Or.inl (near_zero (netOf_not_mem hka) (netOf_not_mem hkb))
  have conv : ∀ p : ℕ, Near ρ ((netOf a).val (-1 - p)) ((netOf b).val (-(-1 - p))) →
      Near ρ ((netOf a).val (1 + p)) ((netOf b).val (-(1 + p))) →
      Near (-ρ) (rc a p) (pc b p) ∧ Near (-ρ) (pc a p) (rc b p) := by
    intro p h1 h2
    have e1 : -(-1 - (p : ℤ)) = 1 + p := by ring
    have e2 : -(1 + (p : ℤ)) = -1 - p := by ring
    rw [e1, netOf_reac, netOf_prod, near_neg_left] at h1
    rw [e2, netOf_reac, netOf_prod, near_neg_right] at h2
    exact ⟨h1, h2⟩
  have hne0 : ∀ p : ℕ, p ≠ 0 → Near (-ρ) (rc a p) (pc b p) ∧ Near (-ρ) (pc a p) (rc b p) := by
    intro p hp
    refine conv p ?_ ?_
    · rcases key (-1 - p) with h | ⟨h, _⟩
      · exact h
      · omega
    · rcases key (1 + p) with h | ⟨h, _⟩
      · exact h
      · omega
  rcases key (-1) with h1 | ⟨_, g2, g3, g4⟩
  · rcases key 1 with h2 | ⟨_, g2, g3, g4⟩
    · left
      intro p
      by_cases hp : p = 0
      · subst hp
        exact conv 0 (by simpa using h1) (by simpa using h2)
      · exact hne0 p hp
    · right
      refine ⟨fun hc => ?_, (part_iff b 0).mpr (Or.inl (by simpa using g4)), hne0⟩
      rcases (part_iff a 0).mp hc with hc | hc
      · exact g3 (by simpa using hc)
      · exact g2 (by simpa using hc)
  · right
    refine ⟨fun hc => ?_, (part_iff b 0).mpr (Or.inr (by simpa using g4)), hne0⟩
    rcases (part_iff a 0).mp hc with hc | hc
    · exact g2 (by simpa using hc)
    · exact g3 (by simpa using hc)

theorem near_exact (c x : ℝ) (hc : c ≠ 0) : Near c x (c * x) := by
  unfold Near
  simp only [mul_eq_zero, hc, false_or, sub_self, abs_zero, true_and]
  positivity

theorem sameDir_val {a b : Rx} {c : ℝ} (h : SameDir a b c) (k : ℤ) :
    (netOf b).val k = c * (netOf a).val k := by
  rcases key_cases k with rfl | ⟨q, rfl⟩ | ⟨q, rfl⟩
  · rw [netOf_zero, netOf_zero, mul_zero]
  · rw [netOf_reac, netOf_reac, (h q).1]; ring
  · rw [netOf_prod, netOf_prod, (h q).2]

theorem oppDir_val {a b : Rx} {c : ℝ} (h : OppDir a b c) (k : ℤ) :
    (netOf b).val (-k) = -c * (netOf a).val k := by
  rcases key_cases k with rfl | ⟨q, rfl⟩ | ⟨q, rfl⟩
  · rw [neg_zero, netOf_zero, netOf_zero, mul_zero]
  · have e1 : -(-1 - (q : ℤ)) = 1 + q := by ring
    rw [e1, netOf_reac, netOf_prod, (h q).1]; ring
  · have e2 : -(1 + (q : ℤ)) = -1 - q := by ring
    rw [e2, netOf_reac, netOf_prod, (h q).2]; ring

theorem sameDir_complete {a b : Rx} {c : ℝ} (hc : c ≠ 0) (h : SameDir a b c) {k1 : ℤ}
    (hk1 : (netOf a).val k1 ≠ 0) (K : Finset ℤ) :
    AllSame (netOf a).val (netOf b).val k1 K ∧ (netOf b).val k1 / (netOf a).val k1 = c := by
  have e : (netOf b).val k1 / (netOf a).val k1 = c := by
    rw [sameDir_val h, mul_div_cancel_right₀ _ hk1]
  refine ⟨⟨hk1, by rw [sameDir_val h]; exact mul_ne_zero hc hk1, fun k _ => ?_⟩, e⟩
  rw [e, not_diff_iff, sameDir_val h]
  exact near_exact c _ hc

theorem oppDir_complete {a b : Rx} {c : ℝ} (hc : c ≠ 0) (h : OppDir a b c) {k1 : ℤ}
    (hk1 : (netOf a).val k1 ≠ 0) (K : Finset ℤ) :
    AllRev (netOf a).val (netOf b).val k1 K := by
  have e : (netOf b).val (-k1) / (netOf a).val k1 = -c := by
    rw [oppDir_val h, mul_div_cancel_right₀ _ hk1]
  refine ⟨hk1, by rw [oppDir_val h]; exact mul_ne_zero (neg_ne_zero.mpr hc) hk1, fun k _ => ?_⟩
  rw [e, not_diff_iff, oppDir_val h]
  exact near_exact (-c) _ (neg_ne_zero.mpr hc)

/-! ## The whole check -/

/-- `ord` enumerates the given set. -/
def OrdOk (S : Setup) : Prop := ∀ i m K k, k ∈ S.ord i m K ↔ k ∈ K

/-- What makes a report of a pair correct. -/
def Just (S : Setup) (i m : ℕ) : Prop :=
  m < i ∧ i < S.n ∧ keyOf (S.rx i) = keyOf (S.rx m) ∧ (S.rx i).typ = (S.rx m).typ ∧
    (S.rx i).rateTyp = (S.rx m).rateTyp ∧
    (Good (S.rx i) → Good (S.rx m) →
      ∃ c ≠ 0, (SameNear (S.rx i) (S.rx m) c ∧
          (c < 0 → (S.rx i).reversible = true ∨ (S.rx m).reversible = true)) ∨
        ((OppNear (S.rx i) (S.rx m) c ∨ OppButZero (S.rx i) (S.rx m) c) ∧
          (0 < c → (S.rx i).reversible = true ∨ (S.rx m).reversible = true)))

/-- Third bodies overlap and the pair is one to be reported. -/
def ThirdOverlap (S : Setup) (i m : ℕ) : Prop :=
  ∀ t1 t2, (S.rx i).third = some t1 → (S.rx m).third = some t2 →
    (∃ k < S.nsp, (S.rx i).eff k * (S.rx m).eff k ≠ 0) ∧ (t1.isM = t2.isM ∨ S.policy = .error)

/-- An undeclared duplicate. -/
def Dupl (S : Setup) (i m : ℕ) : Prop :=
  ¬ ((S.rx i).dup = true ∧ (S.rx m).dup = true) ∧ (S.rx i).typ = (S.rx m).typ ∧
    (S.rx i).rateTyp = (S.rx m).rateTyp ∧ ThirdOverlap S i m ∧
    ∃ c > 0, SameDir (S.rx i) (S.rx m) c ∨ (OppDir (S.rx i) (S.rx m) c ∧
      ((S.rx i).reversible = true ∨ (S.rx m).reversible = true))

/-- One of the reactants of reaction `i` has the highest index of all species of reactions with
the same key. -/
def Lead (S : Setup) (i : ℕ) : Prop :=
  ∃ kmax, rc (S.rx i) kmax ≠ 0 ∧
    ∀ j < S.n, keyOf (S.rx j) = keyOf (S.rx i) → ∀ k, Part (S.rx j) k → k ≤ kmax

/-- `k` or `-k` is an entry of a reaction with the given key. -/
def Grp (S : Setup) (κ : ℕ) (k : ℤ) : Prop :=
  ∃ j < S.n, keyOf (S.rx j) = κ ∧ (k ∈ (netOf (S.rx j)).keys ∨ -k ∈ (netOf (S.rx j)).keys)

theorem Grp.neg {S : Setup} {κ : ℕ} {k : ℤ} (h : Grp S κ k) : Grp S κ (-k) := by
  obtain ⟨j, hj, hκ, h⟩ := h
  exact ⟨j, hj, hκ, by rw [neg_neg]; exact h.symm⟩

/-- Facts about the maps of the first `n` reactions. -/
structure NetInv (S : Setup) (n : ℕ) (s : St) : Prop where
  val : ∀ j < n, (s.nets j).val = (netOf (S.rx j)).val
  own : ∀ j < n, (netOf (S.rx j)).keys ⊆ (s.nets j).keys
  grp : ∀ j < n, ∀ k ∈ (s.nets j).keys, Grp S (keyOf (S.rx j)) k

/-- Flags and efficiencies are as declared (for the two policies without changes). -/
def Static (S : Setup) (s : St) : Prop :=
  (S.policy = .warn ∨ S.policy = .error) →
    s.dup = (fun i => (S.rx i).dup) ∧ s.eff = fun i => (S.rx i).eff

/-- The pair is compared reliably: `Lead`, or `m` is the first reaction with its key. -/
def Found (S : Setup) (i m : ℕ) : Prop :=
  Lead S i ∨ (Good (S.rx i) ∧ ∀ j < m, keyOf (S.rx j) ≠ keyOf (S.rx m))

/-- All duplicates among the pairs `P` have been reported. -/
def Done (S : Setup) (P : ℕ → ℕ → Prop) (s : St) : Prop :=
  (S.policy = .warn ∨ S.policy = .error) → ∀ i m, P i m → Dupl S i m → Found S i m →
    S.throwErr = true ∧ (i, m) ∈ s.errs

theorem lead_min {S : Setup} {n i : ℕ} {s : St} (hI : NetInv S n s) (hi : i < n)
    (hl : Lead S i) (h : (s.nets i).keys.Nonempty) :
    (netOf (S.rx i)).val ((s.nets i).keys.min' h) ≠ 0 := by
  obtain ⟨kmax, h1, h2⟩ := hl
  have hown : (-1 - (kmax : ℤ)) ∈ (netOf (S.rx i)).keys := by
    by_contra hc
    have := netOf_not_mem hc
    rw [netOf_reac] at this
    exact h1 (neg_eq_zero.mp this)
  have hle := (s.nets i).keys.min'_le _ (hI.own i hi hown)
  obtain ⟨j, hj, hκ, hk⟩ := hI.grp i hi _ ((s.nets i).keys.min'_mem h)
  generalize (s.nets i).keys.min' h = x at hle hk
  have hbound : x.natAbs - 1 ≤ kmax := by
    rcases hk with hk | hk
    · exact h2 j hj hκ _ (part_key hk).1
    · have := h2 j hj hκ _ (part_key hk).1
      rwa [Int.natAbs_neg] at this
  have hx : x = -1 - (kmax : ℤ) := by omega
  rw [hx, netOf_reac]
  exact neg_ne_zero.mpr h1

/-- The first entry of reaction `i` is usable: `Lead`, or its map is still as it was made. -/
def Ready (S : Setup) (i : ℕ) (s : St) : Prop :=
  Lead S i ∨ (Good (S.rx i) ∧ s.nets i = netOf (S.rx i))

theorem ready_min {S : Setup} {n i : ℕ} {s : St} (hI : NetInv S n s) (hi : i < n)
    (hl : Ready S i s) (h : (s.nets i).keys.Nonempty) :
    (netOf (S.rx i)).val ((s.nets i).keys.min' h) ≠ 0 := by
  rcases hl with hl | ⟨hg, hl⟩
  · exact lead_min hI hi hl h
  · have := Finset.min'_mem _ h
    rw [← good_keys hg]
    rw [← hl] at *
    exact this

theorem cmp_reported {S : Setup} {i m : ℕ} {s s' : St} (h : report S i m s = .next s') :
    S.throwErr = true ∧ s' = { s with errs := s.errs ++ [(i, m)] } := by
  unfold report at h
  split_ifs at h with ht
  exact ⟨ht, (Step.next.inj h).symm⟩

/-- What the third-body part may change. -/
theorem cmpThird_spec {S : Setup} {i m : ℕ} {s : St} :
    (∀ s', cmpThird S i m s = .next s' → s'.nets = s.nets ∧ s'.parts = s.parts ∧
      (s'.errs = s.errs ∨ s'.errs = s.errs ++ [(i, m)]) ∧ (Static S s → Static S s')) ∧
    (∀ p, cmpThird S i m s = .ret p → p = (i, m)) ∧ cmpThird S i m s ≠ .ub := by
  have hrep : (∀ s', report S i m s = .next s' → s'.nets = s.nets ∧ s'.parts = s.parts ∧
      (s'.errs = s.errs ∨ s'.errs = s.errs ++ [(i, m)]) ∧ (Static S s → Static S s')) ∧
    (∀ p, report S i m s = .ret p → p = (i, m)) ∧ report S i m s ≠ .ub := by
    unfold report
    by_cases ht : S.throwErr = true
    · rw [if_pos ht]
      refine ⟨fun s' h => ?_, fun p h => (by cases h), fun h => (by cases h)⟩
      cases h
      exact ⟨rfl, rfl, Or.inr rfl, fun h => h⟩
    · rw [if_neg ht]
      refine ⟨fun s' h => (by cases h), fun p h => ?_, fun h => (by cases h)⟩
      cases h; rfl
  unfold cmpThird
  split
  · rename_i t1 t2 _ _
    by_cases h0 : ∀ k < S.nsp, s.eff i k * s.eff m k = 0
    · rw [if_pos h0]
      refine ⟨fun s' h => ?_, fun p h => (by cases h), fun h => (by cases h)⟩
      cases h; exact ⟨rfl, rfl, Or.inl rfl, fun h => h⟩
    rw [if_neg h0]
    by_cases h1 : t1.isM ≠ t2.isM
    · rw [if_pos h1]
      rcases hpol : S.policy with _ | _ | _ | _
      · refine ⟨fun s' h => ?_, fun p h => (by cases h), fun h => (by cases h)⟩
        cases h; exact ⟨rfl, rfl, Or.inl rfl, fun h => h⟩
      · exact hrep
      · refine ⟨fun s' h => ?_, fun p h => (by cases h), fun h => (by cases h)⟩
        cases h
        refine ⟨rfl, rfl, Or.inl rfl, fun _ hp => ?_⟩
        rw [hpol] at hp; simp at hp
      · simp only
        by_cases h2 : t1.isM = true
        · rw [if_pos h2]
          refine ⟨fun s' h => ?_, fun p h => (by cases h), fun h => (by cases h)⟩
          cases h
          refine ⟨rfl, rfl, Or.inl rfl, fun _ hp => ?_⟩
          rw [hpol] at hp; simp at hp
        · rw [if_neg h2]
          refine ⟨fun s' h => ?_, fun p h => (by cases h), fun h => (by cases h)⟩
          cases h
          refine ⟨rfl, rfl, Or.inl rfl, fun _ hp => ?_⟩
          rw [hpol] at hp; simp at hp
    · rw [if_neg h1]
      exact hrep
  · exact hrep

/-- A pair with overlapping third bodies is reported. -/
theorem cmpThird_report {S : Setup} {i m : ℕ} {s : St} (ho : ThirdOverlap S i m)
    (he : s.eff = fun i => (S.rx i).eff) : cmpThird S i m s = report S i m s := by
  unfold cmpThird
  split
  · rename_i t1 t2 h1 h2
    obtain ⟨⟨k, hk, hne⟩, hM⟩ := ho t1 t2 h1 h2
    rw [if_neg (by intro hall; have := hall k hk; rw [he] at this; exact hne this)]
    rcases hM with hM | hM
    · rw [if_neg (not_not.mpr hM)]
    · by_cases h1 : t1.isM ≠ t2.isM
      · rw [if_pos h1, hM]
      · rw [if_neg h1]
  · rfl

theorem upd_same {α : Type} (f : ℕ → α) (i : ℕ) (a : α) : upd f i a i = a := by simp [upd]

theorem upd_ne {α : Type} (f : ℕ → α) {i j : ℕ} (a : α) (h : j ≠ i) : upd f i a j = f j := by
  simp [upd, h]

/-- One comparison. -/
theorem cmp_spec {S : Setup} (hord : OrdOk S) {n i m : ℕ} {s : St} (hn : n ≤ S.n)
    (hI : NetInv S n s) (hi : i < n) (hm : m < i) (hκ : keyOf (S.rx i) = keyOf (S.rx m)) :
    (∀ s', cmp S i m s = .next s' → NetInv S n s' ∧ s'.parts = s.parts ∧
      (s'.errs = s.errs ∨ (s'.errs = s.errs ++ [(i, m)] ∧ Just S i m)) ∧
      (Static S s → Static S s') ∧
      ((S.policy = .warn ∨ S.policy = .error) → Static S s → Dupl S i m → Ready S i s →
        S.throwErr = true ∧ (i, m) ∈ s'.errs)) ∧
    (∀ p, cmp S i m s = .ret p → p = (i, m) ∧ Just S i m) ∧
    (((S.rx i).reac ≠ [] ∨ (S.rx i).prod ≠ []) → cmp S i m s ≠ .ub) := by
  have hmn : m < n := lt_trans hm hi
  unfold cmp
  by_cases hd : s.dup i = true ∧ s.dup m = true
  · rw [if_pos hd]
    refine ⟨fun s' h => ?_, fun p h => (by cases h), fun _ => by simp⟩
    cases h
    refine ⟨⟨hI.val, hI.own, hI.grp⟩, rfl, Or.inl rfl, fun h => h, fun hp hs hD _ => ?_⟩
    rw [(hs hp).1] at hd
    exact absurd hd hD.1
  rw [if_neg hd]
  by_cases ht : (S.rx i).typ = (S.rx m).typ
  swap
  · rw [if_pos ht]
    refine ⟨fun s' h => ?_, fun p h => (by cases h), fun _ => by simp⟩
    cases h
    exact ⟨hI, rfl, Or.inl rfl, fun h => h, fun _ _ hD _ => absurd hD.2.1 ht⟩
  rw [if_neg (not_not.mpr ht)]
  by_cases hrt : (S.rx i).rateTyp = (S.rx m).rateTyp
  swap
  · rw [if_pos hrt]
    refine ⟨fun s' h => ?_, fun p h => (by cases h), fun _ => by simp⟩
    cases h
    exact ⟨hI, rfl, Or.inl rfl, fun h => h, fun _ _ hD _ => absurd hD.2.2.1 hrt⟩
  rw [if_neg (not_not.mpr hrt)]
  by_cases hne : (s.nets i).keys.Nonempty
  swap
  · have hnone : checkDup (S.ord i m) (s.nets i) (s.nets m) = none := by
      unfold checkDup; rw [dif_neg hne]
    rw [hnone]
    refine ⟨fun s' h => (by cases h), fun p h => (by cases h), fun hpart => ?_⟩
    exfalso
    apply hne
    rcases hpart with hp | hp
    · obtain ⟨x, l, hl⟩ := List.exists_cons_of_ne_nil hp
      exact ⟨-1 - (x.1 : ℤ), hI.own i hi ((netOf_keys _ _).mpr
        (Or.inl ⟨x, by rw [hl]; exact List.mem_cons_self, rfl⟩))⟩
    · obtain ⟨x, l, hl⟩ := List.exists_cons_of_ne_nil hp
      exact ⟨1 + (x.1 : ℤ), hI.own i hi ((netOf_keys _ _).mpr
        (Or.inr ⟨x, by rw [hl]; exact List.mem_cons_self, rfl⟩))⟩
  have hsome : checkDup (S.ord i m) (s.nets i) (s.nets m) = some (checkFrom
      (S.ord i m ((s.nets i).keys ∪ (s.nets m).keys)) ((s.nets i).keys.min' hne)
      (s.nets i) (s.nets m)) := by
    unfold checkDup; rw [dif_pos hne]
  rw [hsome]
  have hlead := fun hl => ready_min hI hi hl hne
  have hk1 : (s.nets i).keys.min' hne ∈ (s.nets i).keys ∪ (s.nets m).keys :=
    Finset.mem_union_left _ (Finset.min'_mem _ hne)
  obtain ⟨q1, q2, q3, q4, q5⟩ := checkFrom_spec (hord i m _) hk1 (s.nets i) (s.nets m)
  generalize (s.nets i).keys.min' hne = k1 at *
  rw [hI.val i hi, hI.val m hmn] at q1 q2 q3
  have hKa : (netOf (S.rx i)).keys ⊆ (s.nets i).keys ∪ (s.nets m).keys :=
    (hI.own i hi).trans Finset.subset_union_left
  have hKb : (netOf (S.rx m)).keys ⊆ (s.nets i).keys ∪ (s.nets m).keys :=
    (hI.own m hmn).trans Finset.subset_union_right
  have hGrp : ∀ k ∈ (s.nets i).keys ∪ (s.nets m).keys, Grp S (keyOf (S.rx i)) k := by
    intro k hk
    rcases Finset.mem_union.mp hk with hk | hk
    · exact hI.grp i hi k hk
    · rw [hκ]; exact hI.grp m hmn k hk
  generalize checkFrom (S.ord i m ((s.nets i).keys ∪ (s.nets m).keys)) k1 (s.nets i)
    (s.nets m) = res at q1 q2 q3 q4 q5
  generalize hKe : (s.nets i).keys ∪ (s.nets m).keys = K at *
  obtain ⟨c, n1, n2⟩ := res
  simp only at q1 q2 q3 q4 q5 ⊢
  -- the maps afterwards
  have hI' : NetInv S n { s with nets := upd (upd s.nets i n1) m n2 } := by
    have hex : ∀ j < n, ∃ r', upd (upd s.nets i n1) m n2 j = r' ∧
        (r'.val = (s.nets j).val ∧ (s.nets j).keys ⊆ r'.keys ∧
          ∀ k ∈ r'.keys, k ∈ (s.nets j).keys ∨
            ((keyOf (S.rx j) = keyOf (S.rx i)) ∧ (k ∈ K ∨ -k ∈ K))) := by
      intro j hj
      refine ⟨_, rfl, ?_⟩
      by_cases hjm : j = m
      · subst hjm
        rw [upd_same]
        exact ⟨q5.1, q5.2.1, fun k hk => (q5.2.2 k hk).imp id (fun h => ⟨hκ.symm, h⟩)⟩
      · rw [upd_ne _ _ hjm]
        by_cases hji : j = i
        · subst hji
          rw [upd_same]
          exact ⟨q4.1, q4.2.1, fun k hk => (q4.2.2 k hk).imp id (fun h => ⟨rfl, h⟩)⟩
        · rw [upd_ne _ _ hji]
          exact ⟨rfl, Finset.Subset.refl _, fun k hk => Or.inl hk⟩
    refine ⟨fun j hj => ?_, fun j hj => ?_, fun j hj k hk => ?_⟩
    · obtain ⟨r', e, h1, _, _⟩ := hex j hj
      simp only [e, h1]
      exact hI.val j hj
    · obtain ⟨r', e, _, h2, _⟩ := hex j hj
      simp only [e]
      exact (hI.own j hj).trans h2
    · obtain ⟨r', e, _, _, h3⟩ := hex j hj
      simp only [e] at hk
      rcases h3 k hk with h | ⟨h4, h | h⟩
      · exact hI.grp j hj k h
      · rw [h4]; exact hGrp k h
      · rw [h4]
        have := (hGrp _ h).neg
        rwa [neg_neg] at this
  -- the pair is a justified one if the ratio is not zero
  have hjust : c ≠ 0 → ¬ (c < 0 ∧ (S.rx i).reversible = false ∧ (S.rx m).reversible = false) →
      Just S i m := by
    intro hc hnr
    have hrev : c < 0 → (S.rx i).reversible = true ∨ (S.rx m).reversible = true := by
      intro hlt
      by_contra hcon
      rw [not_or, Bool.not_eq_true, Bool.not_eq_true] at hcon
      exact hnr ⟨hlt, hcon⟩
    refine ⟨hm, lt_of_lt_of_le hi hn, hκ, ht, hrt, fun hga hgb => ?_⟩
    by_cases hS : AllSame (netOf (S.rx i)).val (netOf (S.rx m)).val k1 K
    · have e := q1 hS
      refine ⟨c, hc, Or.inl ⟨?_, hrev⟩⟩
      rw [e]; exact allSame_sound hKa hKb hS
    · by_cases hR : AllRev (netOf (S.rx i)).val (netOf (S.rx m)).val k1 K
      · have e := (q2 hS hR).1
        refine ⟨-c, neg_ne_zero.mpr hc, Or.inr ⟨?_, fun hpos => hrev (by linarith)⟩⟩
        rw [e]; exact allRev_sound hKa hKb hga hgb hκ hR
      · exact absurd (q3 hS hR) hc
  by_cases hc : c = 0
  · rw [if_pos hc]
    refine ⟨fun s' h => ?_, fun p h => (by cases h), fun _ => by simp⟩
    cases h
    refine ⟨hI', rfl, Or.inl rfl, fun h => h, fun _ _ hD hl => ?_⟩
    exfalso
    obtain ⟨_, _, _, _, d, hd0, hD⟩ := hD
    have hv := hlead hl
    by_cases hS : AllSame (netOf (S.rx i)).val (netOf (S.rx m)).val k1 K
    · have e := q1 hS
      rw [hc] at e
      exact div_ne_zero hS.2.1 hS.1 e.symm
    · rcases hD with hD | ⟨hD, _⟩
      · exact hS (sameDir_complete (ne_of_gt hd0) hD hv K).1
      · have hR := oppDir_complete (ne_of_gt hd0) hD hv K
        have e := (q2 hS hR).1
        rw [hc] at e
        exact div_ne_zero hR.2.1 hR.1 e.symm
  rw [if_neg hc]
  by_cases hirr : c < 0 ∧ (S.rx i).reversible = false ∧ (S.rx m).reversible = false
  · rw [if_pos hirr]
    refine ⟨fun s' h => ?_, fun p h => (by cases h), fun _ => by simp⟩
    cases h
    refine ⟨hI', rfl, Or.inl rfl, fun h => h, fun _ _ hD hl => ?_⟩
    exfalso
    obtain ⟨_, _, _, _, d, hd0, hD⟩ := hD
    have hv := hlead hl
    rcases hD with hD | ⟨_, hr | hr⟩
    · obtain ⟨hS, e⟩ := sameDir_complete (ne_of_gt hd0) hD hv K
      have := q1 hS
      rw [e] at this
      linarith [hirr.1]
    · rw [hirr.2.1] at hr; cases hr
    · rw [hirr.2.2] at hr; cases hr
  rw [if_neg hirr]
  have hJ := hjust hc hirr
  obtain ⟨t1, t2, t3⟩ := cmpThird_spec (S := S) (i := i) (m := m)
    (s := { s with nets := upd (upd s.nets i n1) m n2 })
  refine ⟨fun s' h => ?_, fun p h => ⟨t2 p h, hJ⟩, fun _ => t3⟩
  obtain ⟨u1, u2, u3, u4⟩ := t1 s' h
  refine ⟨⟨?_, ?_, ?_⟩, u2, u3.imp id (fun h => ⟨h, hJ⟩), u4, fun hp hs hD _ => ?_⟩
  · intro j hj; rw [u1]; exact hI'.val j hj
  · intro j hj; rw [u1]; exact hI'.own j hj
  · intro j hj k hk; rw [u1] at hk; exact hI'.grp j hj k hk
  · have he := cmpThird_report (s := { s with nets := upd (upd s.nets i n1) m n2 })
      hD.2.2.2.1 (hs hp).2
    rw [he] at h
    obtain ⟨v1, v2⟩ := cmp_reported h
    rw [v2]
    exact ⟨v1, by simp⟩

/-- The comparisons of one reaction. -/
theorem cmpLoop_spec {S : Setup} (hord : OrdOk S) {n i : ℕ} (hn : n ≤ S.n) (hi : i < n) :
    ∀ (ms : List ℕ) (s : St), NetInv S n s → (∀ m ∈ ms, m < i ∧ keyOf (S.rx i) = keyOf (S.rx m)) →
    (∀ s', cmpLoop S i ms s = .next s' → NetInv S n s' ∧ s'.parts = s.parts ∧
      s.errs ⊆ s'.errs ∧ (∀ p ∈ s'.errs, p ∈ s.errs ∨ Just S p.1 p.2) ∧
      (Static S s → Static S s') ∧
      ((S.policy = .warn ∨ S.policy = .error) → Static S s → ∀ m ∈ ms, Dupl S i m →
        (Lead S i ∨ (Good (S.rx i) ∧ s.nets i = netOf (S.rx i) ∧ ms.head? = some m)) →
        S.throwErr = true ∧ (i, m) ∈ s'.errs)) ∧
    (∀ p, cmpLoop S i ms s = .ret p → Just S p.1 p.2) ∧
    (((S.rx i).reac ≠ [] ∨ (S.rx i).prod ≠ []) → cmpLoop S i ms s ≠ .ub)
  | [], s, hI, _ => by
    refine ⟨fun s' h => ?_, fun p h => (by cases h), fun _ => by simp [cmpLoop]⟩
    cases h
    exact ⟨hI, rfl, fun _ h => h, fun _ h => Or.inl h, fun h => h, fun _ _ m hm => by simp at hm⟩
  | m :: ms, s, hI, hms => by
    obtain ⟨hm, hκ⟩ := hms m List.mem_cons_self
    obtain ⟨c1, c2, c3⟩ := cmp_spec hord hn hI hi hm hκ
    rw [cmpLoop]
    rcases hc : cmp S i m s with s1 | p | _
    · obtain ⟨a1, a2, a3, a4, a5⟩ := c1 s1 hc
      obtain ⟨b1, b2, b3⟩ := cmpLoop_spec hord hn hi ms s1 a1
        (fun x hx => hms x (List.mem_cons_of_mem _ hx))
      refine ⟨fun s' h => ?_, fun p h => b2 p h, b3⟩
      obtain ⟨d1, d2, d3, d4, d5, d6⟩ := b1 s' h
      have hsub : s.errs ⊆ s1.errs := by
        rcases a3 with a3 | ⟨a3, _⟩
        · rw [a3]; exact fun _ h => h
        · rw [a3]; exact List.subset_append_left _ _
      refine ⟨d1, d2.trans a2, fun x hx => d3 (hsub hx), fun p hp => ?_, fun h => d5 (a4 h),
        fun hp hs x hx hD hl => ?_⟩
      · rcases d4 p hp with h1 | h1
        · rcases a3 with a3 | ⟨a3, aJ⟩
          · rw [a3] at h1; exact Or.inl h1
          · rw [a3, List.mem_append] at h1
            rcases h1 with h1 | h1
            · exact Or.inl h1
            · simp at h1; subst h1; exact Or.inr aJ
        · exact Or.inr h1
      · rcases List.mem_cons.mp hx with rfl | hx
        · obtain ⟨e1, e2⟩ := a5 hp hs hD (hl.imp id (fun h => ⟨h.1, h.2.1⟩))
          exact ⟨e1, d3 e2⟩
        · rcases hl with hl | ⟨g1, g2, g3⟩
          · exact d6 hp (a4 hs) x hx hD (Or.inl hl)
          · have : m = x := by simpa using g3
            subst this
            obtain ⟨e1, e2⟩ := a5 hp hs hD (Or.inr ⟨g1, g2⟩)
            exact ⟨e1, d3 e2⟩
    · refine ⟨fun s' h => (by cases h), fun q h => ?_, fun _ => by simp⟩
      cases h
      obtain ⟨rfl, hJ⟩ := c2 p hc
      exact hJ
    · refine ⟨fun s' h => (by cases h), fun q h => (by cases h), fun hpart => ?_⟩
      exact absurd hc (c3 hpart)

/-- State after the first `n` passes. -/
structure Inv (S : Setup) (n : ℕ) (s : St) : Prop where
  nets : NetInv S n s
  parts : ∀ κ m, m ∈ s.parts κ ↔ m < n ∧ keyOf (S.rx m) = κ
  sorted : ∀ κ, (s.parts κ).Pairwise (· < ·)
  just : ∀ p ∈ s.errs, Just S p.1 p.2
  static : Static S s
  done : Done S (fun i m => i < n ∧ m < i ∧ keyOf (S.rx i) = keyOf (S.rx m)) s

theorem loop_spec {S : Setup} (hord : OrdOk S) : ∀ n, n ≤ S.n →
    (∀ s, loop S (start S) n = .next s → Inv S n s) ∧
    (∀ p, loop S (start S) n = .ret p → Just S p.1 p.2) ∧
    ((∀ i < n, (S.rx i).reac ≠ [] ∨ (S.rx i).prod ≠ []) → loop S (start S) n ≠ .ub)
  | 0, _ => by
    refine ⟨fun s h => ?_, fun p h => (by cases h), fun _ => by simp [loop]⟩
    cases h
    refine ⟨⟨fun j hj => by omega, fun j hj => by omega, fun j hj => by omega⟩, ?_, ?_, ?_, ?_, ?_⟩
    · intro κ m; simp [start]
    · intro κ; simp [start]
    · intro p hp; simp [start] at hp
    · intro _; exact ⟨rfl, rfl⟩
    · intro _ i m h; omega
  | n + 1, hn => by
    obtain ⟨i1, i2, i3⟩ := loop_spec hord n (by omega)
    rw [loop]
    rcases hl : loop S (start S) n with s | p | _
    · have hI := i1 s hl
      simp only
      unfold outer
      simp only
      have hnet : NetInv S (n + 1) { s with nets := upd s.nets n (netOf (S.rx n)) } := by
        refine ⟨fun j hj => ?_, fun j hj => ?_, fun j hj k hk => ?_⟩
        · by_cases h : j = n
          · subst h; simp [upd]
          · simp only [upd_ne _ _ h]; exact hI.nets.val j (by omega)
        · by_cases h : j = n
          · subst h; simp [upd]
          · simp only [upd_ne _ _ h]; exact hI.nets.own j (by omega)
        · by_cases h : j = n
          · subst h
            simp only [upd_same] at hk
            exact ⟨j, by omega, rfl, Or.inl hk⟩
          · simp only [upd_ne _ _ h] at hk; exact hI.nets.grp j (by omega) k hk
      obtain ⟨c1, c2, c3⟩ := cmpLoop_spec hord hn (Nat.lt_succ_self n)
        (s.parts (keyOf (S.rx n))) _ hnet (fun m hm => by
          obtain ⟨h1, h2⟩ := (hI.parts _ _).mp hm
          exact ⟨h1, h2.symm⟩)
      rcases hc : cmpLoop S n (s.parts (keyOf (S.rx n)))
          { s with nets := upd s.nets n (netOf (S.rx n)) } with s2 | p | _
      · refine ⟨fun s' h => ?_, fun p h => (by cases h), fun _ => by simp⟩
        cases h
        obtain ⟨a1, a2, a3, a4, a5, a6⟩ := c1 s2 hc
        refine ⟨⟨a1.val, a1.own, a1.grp⟩, fun κ m => ?_, fun κ => ?_, fun p hp => ?_, ?_, ?_⟩
        · simp only
          by_cases hκ : κ = keyOf (S.rx n)
          · subst hκ
            rw [upd_same, a2]
            simp only [List.mem_append, List.mem_singleton]
            rw [hI.parts]
            constructor
            · rintro (⟨h1, h2⟩ | rfl)
              · exact ⟨by omega, h2⟩
              · exact ⟨by omega, rfl⟩
            · rintro ⟨h1, h2⟩
              by_cases hm : m = n
              · exact Or.inr hm
              · exact Or.inl ⟨by omega, h2⟩
          · rw [upd_ne _ _ hκ, a2]
            simp only
            rw [hI.parts]
            constructor
            · rintro ⟨h1, h2⟩; exact ⟨by omega, h2⟩
            · rintro ⟨h1, h2⟩
              refine ⟨?_, h2⟩
              by_contra hcon
              have : m = n := by omega
              subst this
              exact hκ h2.symm
        · simp only
          by_cases hκ : κ = keyOf (S.rx n)
          · subst hκ
            rw [upd_same, a2, List.pairwise_append]
            refine ⟨hI.sorted _, by simp, fun x hx y hy => ?_⟩
            rw [List.mem_singleton] at hy
            subst hy
            exact ((hI.parts _ _).mp hx).1
          · rw [upd_ne _ _ hκ, a2]
            exact hI.sorted _
        · rcases a4 p hp with h1 | h1
          · exact hI.just p h1
          · exact h1
        · exact a5 hI.static
        · rintro hp i m ⟨h1, h2, h3⟩ hD hlead
          by_cases hin : i = n
          · subst hin
            have hmem := (hI.parts _ _).mpr ⟨h2, h3.symm⟩
            refine a6 hp hI.static m hmem hD (hlead.imp id (fun h => ⟨h.1, by simp [upd], ?_⟩))
            rcases hpl : s.parts (keyOf (S.rx i)) with _ | ⟨x, l⟩
            · rw [hpl] at hmem; simp at hmem
            · have hx := (hI.parts (keyOf (S.rx i)) x).mp (by rw [hpl]; exact List.mem_cons_self)
              have hso := hI.sorted (keyOf (S.rx i))
              rw [hpl] at hmem hso
              rcases List.mem_cons.mp hmem with rfl | hmem
              · rfl
              · have := (List.pairwise_cons.mp hso).1 m hmem
                exact absurd (hx.2.trans h3) (h.2 x this)
          · obtain ⟨e1, e2⟩ := hI.done hp i m ⟨by omega, h2, h3⟩ hD hlead
            exact ⟨e1, a3 e2⟩
      · refine ⟨fun s' h => (by cases h), fun q h => ?_, fun _ => by simp⟩
        cases h
        exact c2 p hc
      · refine ⟨fun s' h => (by cases h), fun q h => (by cases h), fun hpart => ?_⟩
        exact absurd hc (c3 (hpart n (Nat.lt_succ_self n)))
    · refine ⟨fun s' h => (by cases h), fun q h => ?_, fun _ => by simp⟩
      cases h
      exact i2 p hl
    · refine ⟨fun s' h => (by cases h), fun q h => (by cases h), fun hpart => ?_⟩
      exact absurd hl (i3 (fun i hi => hpart i (by omega)))

/-- No undefined behaviour for reactions with at least one participant. -/
theorem check_defined {S : Setup} (hord : OrdOk S)
    (hp : ∀ i < S.n, (S.rx i).reac ≠ [] ∨ (S.rx i).prod ≠ []) : check S ≠ .ub := by
  have h := (loop_spec hord S.n le_rfl).2.2 hp
  unfold check
  rcases hl : loop S (start S) S.n with s | p | _
  · simp only
    unfold finish
    split_ifs <;> simp
  · simp
  · exact absurd hl h

/-- Soundness: a reported pair of reactions has the same type and proportional coefficients (up to
the tolerance 1e-8), in the same direction, or in opposite directions with a reversible partner.
(Missing: in opposite directions the earlier reaction may have species number 0 in addition, see
`wrong_report`.) -/
theorem reported_proportional_partial {S : Setup} (hord : OrdOk S) {i m : ℕ}
    (h : Reported S (i, m)) (hne : i ≠ m) (hg : Good (S.rx i)) (hgm : Good (S.rx m)) :
    m < i ∧ i < S.n ∧ (S.rx i).typ = (S.rx m).typ ∧ (S.rx i).rateTyp = (S.rx m).rateTyp ∧
      ∃ c ≠ 0, (SameNear (S.rx i) (S.rx m) c ∧
          (c < 0 → (S.rx i).reversible = true ∨ (S.rx m).reversible = true)) ∨
        ((OppNear (S.rx i) (S.rx m) c ∨ OppButZero (S.rx i) (S.rx m) c) ∧
          (0 < c → (S.rx i).reversible = true ∨ (S.rx m).reversible = true)) := by
  have key : Just S i m → m < i ∧ i < S.n ∧ (S.rx i).typ = (S.rx m).typ ∧
      (S.rx i).rateTyp = (S.rx m).rateTyp ∧
      ∃ c ≠ 0, (SameNear (S.rx i) (S.rx m) c ∧
          (c < 0 → (S.rx i).reversible = true ∨ (S.rx m).reversible = true)) ∨
        ((OppNear (S.rx i) (S.rx m) c ∨ OppButZero (S.rx i) (S.rx m) c) ∧
          (0 < c → (S.rx i).reversible = true ∨ (S.rx m).reversible = true)) :=
    fun ⟨h1, h2, h3, h4, h5, h6⟩ => ⟨h1, h2, h4, h5, h6 hg hgm⟩
  apply key
  obtain ⟨l1, l2, _⟩ := loop_spec hord S.n le_rfl
  unfold Reported check at h
  rcases hl : loop S (start S) S.n with s | p | _
  · rw [hl] at h
    simp only at h
    have hI := l1 s hl
    unfold finish at h
    rcases h with h | ⟨l, h, hmem⟩
    · split_ifs at h
      simp only [Result.pair.injEq, Prod.mk.injEq] at h
      exact absurd (h.1.symm.trans h.2) hne
    · split_ifs at h
      · simp only [Result.threw.injEq] at h
        subst h
        rw [List.mem_append] at hmem
        rcases hmem with hmem | hmem
        · exact hI.just _ hmem
        · simp only [List.mem_singleton, Prod.mk.injEq] at hmem
          exact absurd (hmem.1.trans hmem.2.symm) hne
      · simp only [Result.threw.injEq] at h
        subst h
        exact hI.just _ hmem
  · rw [hl] at h
    rcases h with h | ⟨l, h, _⟩
    · simp only [Result.pair.injEq] at h
      subst h
      exact l2 _ hl
    · cases h
  · rw [hl] at h
    rcases h with h | ⟨l, h, _⟩ <;> cases h

/-- Completeness: an undeclared duplicate makes the check fail; all such pairs are listed if errors
are thrown.  (Missing: pairs `(i, m)` where `m` is not the first reaction with its key and `i` does
not have the highest-numbered species of all reactions with its key among its reactants, see
`duplicate_missed`, and the policies which change flags or efficiencies.) -/
theorem duplicates_reported_partial {S : Setup} (hord : OrdOk S)
    (hpol : S.policy = .warn ∨ S.policy = .error)
    (hpart : ∀ i < S.n, (S.rx i).reac ≠ [] ∨ (S.rx i).prod ≠ [])
    {i m : ℕ} (hm : m < i) (hi : i < S.n) (hgi : Good (S.rx i)) (hgm : Good (S.rx m))
    (hD : Dupl S i m) (hl : Found S i m) :
    (S.throwErr = true → Reported S (i, m) ∧ ∃ l, check S = .threw l) ∧
    (S.throwErr = false → ∃ p, check S = .pair p) := by
  have hκ : keyOf (S.rx i) = keyOf (S.rx m) := by
    obtain ⟨_, _, _, _, c, hc, h | ⟨h, _⟩⟩ := hD
    · exact key_same hgi hgm (ne_of_gt hc) h
    · exact key_opp hgi hgm (ne_of_gt hc) h
  obtain ⟨l1, l2, l3⟩ := loop_spec hord S.n le_rfl
  have hret : ∀ k p, loop S (start S) k = .ret p → S.throwErr = false := by
    have hr : ∀ i m s p, cmp S i m s = .ret p → S.throwErr = false := by
      have hrep : ∀ i m s p, report S i m s = .ret p → S.throwErr = false := by
        intro i m s p h
        unfold report at h
        split_ifs at h with ht
        simpa using ht
      have ht : ∀ i m s p, cmpThird S i m s = .ret p → S.throwErr = false := by
        intro i m s p h
        unfold cmpThird at h
        split at h
        · rename_i t1 t2 _ _
          by_cases h0 : ∀ k < S.nsp, s.eff i k * s.eff m k = 0
          · rw [if_pos h0] at h; cases h
          rw [if_neg h0] at h
          by_cases h1 : t1.isM ≠ t2.isM
          · rw [if_pos h1] at h
            rcases hpol : S.policy with _ | _ | _ | _
            · rw [hpol] at h; cases h
            · rw [hpol] at h; exact hrep _ _ _ _ h
            · rw [hpol] at h; cases h
            · rw [hpol] at h
              simp only at h
              by_cases h2 : t1.isM = true
              · rw [if_pos h2] at h; cases h
              · rw [if_neg h2] at h; cases h
          · rw [if_neg h1] at h
            exact hrep _ _ _ _ h
        · exact hrep _ _ _ _ h
      intro i m s p h
      unfold cmp at h
      by_cases g1 : s.dup i = true ∧ s.dup m = true
      · rw [if_pos g1] at h; cases h
      rw [if_neg g1] at h
      by_cases g2 : (S.rx i).typ ≠ (S.rx m).typ
      · rw [if_pos g2] at h; cases h
      rw [if_neg g2] at h
      by_cases g3 : (S.rx i).rateTyp ≠ (S.rx m).rateTyp
      · rw [if_pos g3] at h; cases h
      rw [if_neg g3] at h
      split at h
      · cases h
      · rename_i c n1 n2 _
        simp only at h
        by_cases g4 : c = 0
        · rw [if_pos g4] at h; cases h
        rw [if_neg g4] at h
        by_cases g5 : c < 0 ∧ (S.rx i).reversible = false ∧ (S.rx m).reversible = false
        · rw [if_pos g5] at h; cases h
        rw [if_neg g5] at h
        exact ht _ _ _ _ h
    have hr2 : ∀ i ms s p, cmpLoop S i ms s = .ret p → S.throwErr = false := by
      intro i ms
      induction ms with
      | nil => intro s p h; cases h
      | cons m ms ih =>
        intro s p h
        rw [cmpLoop] at h
        rcases hc : cmp S i m s with s1 | q | _
        · rw [hc] at h; exact ih _ _ h
        · exact hr _ _ _ _ hc
        · rw [hc] at h; cases h
    intro k
    induction k with
    | zero => intro p h; cases h
    | succ k ih =>
      intro p h
      rw [loop] at h
      rcases hk : loop S (start S) k with s | q | _
      · rw [hk] at h
        simp only [outer] at h
        rcases hc : cmpLoop S k (s.parts (keyOf (S.rx k)))
            { s with nets := upd s.nets k (netOf (S.rx k)) } with s2 | q | _
        · rw [hc] at h; cases h
        · exact hr2 _ _ _ _ hc
        · rw [hc] at h; cases h
      · exact ih _ hk
      · rw [hk] at h; cases h
  rcases hlo : loop S (start S) S.n with s | p | _
  · have hI := l1 s hlo
    obtain ⟨e1, e2⟩ := hI.done hpol i m ⟨hi, hm, hκ⟩ hD hl
    refine ⟨fun _ => ?_, fun hf => by rw [e1] at hf; cases hf⟩
    have hne : s.errs ≠ [] := List.ne_nil_of_mem e2
    have hch : ∃ l, check S = .threw l ∧ (i, m) ∈ l := by
      unfold check
      rw [hlo]
      simp only [finish]
      split_ifs
      · exact ⟨_, rfl, List.mem_append_left _ e2⟩
      · exact ⟨_, rfl, e2⟩
    obtain ⟨l, hl1, hl2⟩ := hch
    exact ⟨Or.inr ⟨l, hl1, hl2⟩, l, hl1⟩
  · have hf := hret _ _ hlo
    refine ⟨fun ht => absurd (hf.symm.trans ht) (by simp), fun _ => ⟨p, ?_⟩⟩
    unfold check
    rw [hlo]
  · exact absurd hlo (l3 hpart)

/-! ## Examples and counterexamples -/

/-- A plain reaction. -/
def plain (reac prod : List (ℕ × ℝ)) (rev : Bool) : Rx :=
  { reac := reac
    prod := prod
    typ := ""
    rateTyp := "Arrhenius"
    reversible := rev
    third := none
    eff := fun _ => 1
    dup := false }

/-- A setup with plain reactions; any order of iteration. -/
def setup (rx : ℕ → Rx) (n nsp : ℕ) (throwErr : Bool) (ord : ℕ → ℕ → Finset ℤ → List ℤ) : Setup :=
  { rx := rx
    n := n
    nsp := nsp
    policy := .warn
    throwErr := throwErr
    ord := ord
    pick := fun _ => 0 }

/-- `B => A`, `A => B`, `A => B` with `A` = 0 and `B` = 1. -/
def missRx : ℕ → Rx
  | 0 => plain [(1, 1)] [(0, 1)] false
  | _ => plain [(0, 1)] [(1, 1)] false

theorem missRx_good (i : ℕ) : Good (missRx i) := by
  match i with
  | 0 => exact ⟨by simp [missRx, plain], by simp [missRx, plain], by simp [missRx, plain],
      by simp [missRx, plain]⟩
  | _ + 1 => exact ⟨by simp [missRx, plain], by simp [missRx, plain], by simp [missRx, plain],
      by simp [missRx, plain]⟩

theorem missRx_key (i : ℕ) : keyOf (missRx i) = 2 := by
  match i with
  | 0 => simp [missRx, plain, keyOf]
  | _ + 1 => simp [missRx, plain, keyOf]

theorem missRx_dup (i : ℕ) : (missRx i).dup = false := by
  match i with
  | 0 => rfl
  | _ + 1 => rfl

theorem miss_keys (i : ℕ) : (netOf (missRx (i + 1))).keys = {-1, 2} := by
  ext j
  rw [netOf_keys]
  simp [missRx, plain, eq_comm]

theorem miss_keys0 : (netOf (missRx 0)).keys = {-2, 1} := by
  ext j
  rw [netOf_keys]
  simp [missRx, plain, eq_comm]

/-- The ordinary case: the second of two identical reactions is found. -/
example (ord : ℕ → ℕ → Finset ℤ → List ℤ) (hord : ∀ i m K k, k ∈ ord i m K ↔ k ∈ K) :
    Reported (setup (fun _ => missRx 1) 2 2 true ord) (1, 0) := by
  refine ((duplicates_reported_partial (S := setup (fun _ => missRx 1) 2 2 true ord) hord
    (Or.inl rfl) (fun i _ => Or.inl (by simp [setup, missRx, plain])) Nat.zero_lt_one
    (show 1 < 2 by norm_num) (missRx_good 1) (missRx_good 1) ?_ ?_).1 rfl).1
  · refine ⟨by simp [setup, missRx, plain], rfl, rfl, fun t1 t2 h => (by cases h), 1, one_pos,
      Or.inl (fun k => by simp [setup])⟩
  · exact Or.inr ⟨missRx_good 1, fun j hj => by omega⟩

/-- A comparison with opposite irreversible reactions adds entries. -/
theorem miss_step {ord : ℕ → ℕ → Finset ℤ → List ℤ} (hord : ∀ i m K k, k ∈ ord i m K ↔ k ∈ K)
    {b : Bool} {s : St} {i : ℕ} (h1 : s.nets (i + 1) = netOf (missRx (i + 1)))
    (hv : (s.nets 0).val = (netOf (missRx 0)).val)
    (hk : (netOf (missRx 0)).keys ⊆ (s.nets 0).keys) (hd : s.dup = fun _ => false) :
    ∃ n1 n2, cmp (setup missRx 3 2 b ord) (i + 1) 0 s =
      .next { s with nets := upd (upd s.nets (i + 1) n1) 0 n2 } ∧
      (-2 : ℤ) ∈ n1.keys := by
  have hne : (s.nets (i + 1)).keys.Nonempty := by rw [h1, miss_keys]; exact ⟨-1, by simp⟩
  have hmin : (s.nets (i + 1)).keys.min' hne = -1 := by
    have e : (s.nets (i + 1)).keys = {-1, 2} := by rw [h1, miss_keys]
    refine le_antisymm (Finset.min'_le _ _ (by rw [e]; simp)) (Finset.le_min' _ _ _ ?_)
    intro y hy
    rw [e] at hy
    simp only [Finset.mem_insert, Finset.mem_singleton] at hy
    omega
  unfold cmp
  rw [if_neg (by simp [hd]), if_neg (by simp [setup, missRx, plain]),
    if_neg (by simp [setup, missRx, plain])]
  unfold checkDup
  rw [dif_pos hne, hmin]
  obtain ⟨_, q2, _, _, _⟩ := checkFrom_spec (A := (s.nets (i + 1)).keys ∪ (s.nets 0).keys)
    (ks := ord (i + 1) 0 ((s.nets (i + 1)).keys ∪ (s.nets 0).keys)) (hord (i + 1) 0 _)
    (k1 := -1) (Finset.mem_union_left _ (by rw [h1, miss_keys]; simp))
    (s.nets (i + 1)) (s.nets 0)
  rw [h1, hv] at q2
  have hopp : OppDir (missRx (i + 1)) (missRx 0) 1 := by
    intro k; simp [missRx, plain, rc, pc]
  have hv1 : (netOf (missRx (i + 1))).val (-1) = -1 := by
    have := netOf_reac (missRx (i + 1)) 0
    simpa [missRx, plain, rc] using this
  have hv2 : (netOf (missRx 0)).val (-1) = 0 := by
    have := netOf_reac (missRx 0) 0
    simpa [missRx, plain, rc] using this
  obtain ⟨e1, e2⟩ := q2 (fun h => h.2.1 hv2)
    (oppDir_complete one_ne_zero hopp (by rw [hv1]; norm_num) _)
  rw [oppDir_val hopp, hv1] at e1
  rw [← h1] at e1 e2
  have hc : (setup missRx 3 2 b ord).ord = ord := rfl
  rw [hc]
  generalize checkFrom (ord (i + 1) 0 ((s.nets (i + 1)).keys ∪ (s.nets 0).keys)) (-1)
    (s.nets (i + 1)) (s.nets 0) = res at *
  obtain ⟨c, n1, n2⟩ := res
  simp only at e1 e2 ⊢
  refine ⟨n1, n2, ?_, e2 (Finset.mem_union_right _ (hk (by rw [miss_keys0]; simp)))⟩
  have hc1 : c = -1 := by rw [e1]; norm_num
  rw [if_neg (by rw [hc1]; norm_num), if_pos]
  refine ⟨by rw [hc1]; norm_num, ?_, ?_⟩ <;> simp [setup, missRx, plain]

/-- After that the later reaction is not recognised as a copy. -/
theorem miss_last {ord : ℕ → ℕ → Finset ℤ → List ℤ} (hord : ∀ i m K k, k ∈ ord i m K ↔ k ∈ K)
    {b : Bool} {s : St} (hI : NetInv (setup missRx 3 2 b ord) 3 s)
    (hk : (-2 : ℤ) ∈ (s.nets 2).keys) (hd : s.dup = fun _ => false) :
    ∃ n1 n2, cmp (setup missRx 3 2 b ord) 2 1 s =
      .next { s with nets := upd (upd s.nets 2 n1) 1 n2 } := by
  have hne : (s.nets 2).keys.Nonempty := ⟨_, hk⟩
  have hmin : (s.nets 2).keys.min' hne = -2 := by
    refine le_antisymm (Finset.min'_le _ _ hk) (Finset.le_min' _ _ _ ?_)
    intro y hy
    obtain ⟨j, _, _, hj⟩ := hI.grp 2 (by norm_num) y hy
    have hj' : y ∈ (netOf (missRx j)).keys ∨ -y ∈ (netOf (missRx j)).keys := hj
    match j, hj' with
    | 0, hj' =>
      rw [miss_keys0] at hj'
      simp only [Finset.mem_insert, Finset.mem_singleton] at hj'
      omega
    | j + 1, hj' =>
      rw [miss_keys] at hj'
      simp only [Finset.mem_insert, Finset.mem_singleton] at hj'
      omega
  unfold cmp
  rw [if_neg (by simp [hd]), if_neg (by simp [setup, missRx, plain]),
    if_neg (by simp [setup, missRx, plain])]
  unfold checkDup
  rw [dif_pos hne, hmin]
  obtain ⟨_, _, q3, _, _⟩ := checkFrom_spec (A := (s.nets 2).keys ∪ (s.nets 1).keys)
    (ks := ord 2 1 ((s.nets 2).keys ∪ (s.nets 1).keys)) (hord 2 1 _)
    (k1 := -2) (Finset.mem_union_left _ hk) (s.nets 2) (s.nets 1)
  have hval : (s.nets 2).val (-2) = 0 := by
    rw [hI.val 2 (by norm_num)]
    have := netOf_reac (missRx 2) 1
    simpa [missRx, plain, rc, setup] using this
  have e := q3 (fun h => h.1 hval) (fun h => h.1 hval)
  have hc : (setup missRx 3 2 b ord).ord = ord := rfl
  rw [hc]
  generalize checkFrom (ord 2 1 ((s.nets 2).keys ∪ (s.nets 1).keys)) (-2)
    (s.nets 2) (s.nets 1) = res at *
  obtain ⟨c, n1, n2⟩ := res
  simp only at e ⊢
  exact ⟨n1, n2, by rw [if_pos e]⟩

/-- The last two of `B => A`, `A => B`, `A => B` are undeclared duplicates, but the check passes:
the comparison of the last with the first inserts an empty entry at the beginning of its map. -/
theorem duplicate_missed {ord : ℕ → ℕ → Finset ℤ → List ℤ}
    (hord : ∀ i m K k, k ∈ ord i m K ↔ k ∈ K) (b : Bool) :
    check (setup missRx 3 2 b ord) = .clean ∧ Dupl (setup missRx 3 2 b ord) 2 1 := by
  constructor
  · have hS : ∀ i, keyOf ((setup missRx 3 2 b ord).rx i) = 2 := fun i => missRx_key i
    -- first reaction
    obtain ⟨s1, h1, p1, d1, u1, r1, k1⟩ : ∃ s1, loop (setup missRx 3 2 b ord)
        (start (setup missRx 3 2 b ord)) 1 = .next s1 ∧ s1.parts 2 = [0] ∧
        s1.dup = (fun _ => false) ∧ s1.unmatched = ∅ ∧ s1.errs = [] ∧
        s1.nets 0 = netOf (missRx 0) := by
      refine ⟨_, by simp only [loop, outer, hS]; rfl, by simp [upd, start], ?_, ?_, rfl, by
        simp [upd, setup]⟩
      · funext i
        exact missRx_dup i
      · simp [start, setup, missRx_dup]
    -- second reaction
    obtain ⟨s2, h2, p2, d2, u2, r2⟩ : ∃ s2, loop (setup missRx 3 2 b ord)
        (start (setup missRx 3 2 b ord)) 2 = .next s2 ∧ s2.parts 2 = [0, 1] ∧
        s2.dup = (fun _ => false) ∧ s2.unmatched = ∅ ∧ s2.errs = [] := by
      obtain ⟨n1, n2, e, _⟩ := miss_step (b := b) hord (i := 0)
        (s := { s1 with nets := upd s1.nets 1 (netOf (missRx 1)) })
        (by simp [upd]) (by simp [upd, k1]) (by simp [upd, k1]) d1
      refine ⟨{ s1 with
          nets := upd (upd (upd s1.nets 1 (netOf (missRx 1))) 1 n1) 0 n2
          parts := upd s1.parts 2 (s1.parts 2 ++ [1]) }, ?_, by simp [upd, p1], d1, u1, r1⟩
      rw [loop, h1]
      simp only [outer, hS, p1, cmpLoop]
      rw [show (setup missRx 3 2 b ord).rx 1 = missRx 1 from rfl]
      simp only [zero_add] at e
      rw [e]
      simp only [p1]
    -- third reaction
    have hI2 := (loop_spec (S := setup missRx 3 2 b ord) hord 2 (by simp [setup])).1 s2 h2
    have hI3 : NetInv (setup missRx 3 2 b ord) 3
        { s2 with nets := upd s2.nets 2 (netOf (missRx 2)) } := by
      refine ⟨fun j hj => ?_, fun j hj => ?_, fun j hj k hk => ?_⟩
      · by_cases h : j = 2
        · subst h; simp [upd, setup]
        · simp only [upd_ne _ _ h]; exact hI2.nets.val j (by omega)
      · by_cases h : j = 2
        · subst h; simp [upd, setup]
        · simp only [upd_ne _ _ h]; exact hI2.nets.own j (by omega)
      · by_cases h : j = 2
        · subst h
          simp only [upd_same] at hk
          exact ⟨2, by simp [setup], rfl, Or.inl hk⟩
        · simp only [upd_ne _ _ h] at hk; exact hI2.nets.grp j (by omega) k hk
    obtain ⟨n1, n2, e, hn1⟩ := miss_step (b := b) hord (i := 1)
      (s := { s2 with nets := upd s2.nets 2 (netOf (missRx 2)) })
      (by simp [upd]) (by simp [upd]; exact hI2.nets.val 0 (by norm_num))
      (by simp [upd]; exact hI2.nets.own 0 (by norm_num)) d2
    have hI4 := ((cmp_spec (S := setup missRx 3 2 b ord) (n := 3) hord (by simp [setup]) hI3
      (i := 2) (m := 0) (by norm_num) (by norm_num) (by rw [hS, hS])).1 _ e).1
    obtain ⟨n3, n4, e'⟩ := miss_last (b := b) hord hI4 (by simp [upd]; exact hn1) d2
    unfold check
    rw [show (setup missRx 3 2 b ord).n = 3 from rfl, loop, h2]
    simp only [outer, hS, p2, cmpLoop]
    rw [show (setup missRx 3 2 b ord).rx 2 = missRx 2 from rfl, e]
    simp only
    rw [e']
    simp [finish, u2, r2]
  · refine ⟨by simp [setup, missRx, plain], rfl, rfl, fun t1 t2 h => (by cases h), 1, one_pos,
      Or.inl (fun k => by simp [setup, missRx])⟩

/-- `C => B + A` and `B <=> C` with `A` = 0, `B` = 1, `C` = 2. -/
def wrongRx : ℕ → Rx
  | 0 => plain [(2, 1)] [(1, 1), (0, 1)] false
  | _ => plain [(1, 1)] [(2, 1)] true

/-- These two are reported as duplicates, although only one of them makes `A`: species number 0
does not contribute to the key, and only the entries of both maps, not their opposites, are
compared.  (With balanced reactions this needs a species without elements.) -/
theorem wrong_report {ord : ℕ → ℕ → Finset ℤ → List ℤ}
    (hord : ∀ i m K k, k ∈ ord i m K ↔ k ∈ K) :
    check (setup wrongRx 2 3 false ord) = .pair (1, 0) ∧
    ∀ c ≠ 0, ¬ SameNear (wrongRx 1) (wrongRx 0) c ∧ ¬ OppNear (wrongRx 1) (wrongRx 0) c := by
  constructor
  · have hS : ∀ i < 2, keyOf ((setup wrongRx 2 3 false ord).rx i) = 8 := by
      intro i hi
      match i, hi with
      | 0, _ => simp [setup, wrongRx, plain, keyOf]
      | 1, _ => simp [setup, wrongRx, plain, keyOf]
    have hk1 : (netOf (wrongRx 1)).keys = {-2, 3} := by
      ext j; rw [netOf_keys]; simp [wrongRx, plain, eq_comm]
    have hk0 : (netOf (wrongRx 0)).keys = {-3, 2, 1} := by
      ext j; rw [netOf_keys]; simp [wrongRx, plain, eq_comm]
    obtain ⟨s1, h1, p1, d1, k1⟩ : ∃ s1, loop (setup wrongRx 2 3 false ord)
        (start (setup wrongRx 2 3 false ord)) 1 = .next s1 ∧ s1.parts 8 = [0] ∧
        s1.dup 0 = false ∧ s1.nets 0 = netOf (wrongRx 0) := by
      refine ⟨_, by simp only [loop, outer, hS 0 (by norm_num)]; rfl, by simp [upd, start], ?_, by
        simp [upd, setup]⟩
      simp [start, setup, wrongRx, plain]
    have hcmp : cmp (setup wrongRx 2 3 false ord) 1 0
        { s1 with nets := upd s1.nets 1 (netOf (wrongRx 1)) } = .ret (1, 0) := by
      have hn1 : upd s1.nets 1 (netOf (wrongRx 1)) 1 = netOf (wrongRx 1) := by simp [upd]
      have hn0 : upd s1.nets 1 (netOf (wrongRx 1)) 0 = netOf (wrongRx 0) := by simp [upd, k1]
      unfold cmp
      rw [if_neg (by simp [d1]), if_neg (by simp [setup, wrongRx, plain]),
        if_neg (by simp [setup, wrongRx, plain])]
      simp only [hn1, hn0]
      have hne : (netOf (wrongRx 1)).keys.Nonempty := by rw [hk1]; exact ⟨-2, by simp⟩
      have hmin : (netOf (wrongRx 1)).keys.min' hne = -2 := by
        refine le_antisymm (Finset.min'_le _ _ (by rw [hk1]; simp)) (Finset.le_min' _ _ _ ?_)
        intro y hy
        rw [hk1] at hy
        simp only [Finset.mem_insert, Finset.mem_singleton] at hy
        omega
      unfold checkDup
      rw [dif_pos hne, hmin]
      obtain ⟨_, q2, _, _, _⟩ := checkFrom_spec
        (A := (netOf (wrongRx 1)).keys ∪ (netOf (wrongRx 0)).keys)
        (hord 1 0 _) (k1 := -2) (Finset.mem_union_left _ (by rw [hk1]; simp))
        (netOf (wrongRx 1)) (netOf (wrongRx 0))
      have va : ∀ k, (netOf (wrongRx 1)).val k = if k = -2 then -1 else if k = 3 then 1 else 0 := by
        intro k
        simp only [netOf, wrongRx, plain, List.foldl, Net.add, Net.empty]
        split_ifs <;> first | omega | norm_num
      have vb : ∀ k, (netOf (wrongRx 0)).val k =
          if k = -3 then -1 else if k = 2 then 1 else if k = 1 then 1 else 0 := by
        intro k
        simp only [netOf, wrongRx, plain, List.foldl, Net.add, Net.empty]
        split_ifs <;> first | omega | norm_num
      obtain ⟨e, _⟩ := q2 (fun h => h.2.1 (by rw [vb]; norm_num)) (by
        refine ⟨by rw [va]; norm_num, by rw [vb]; norm_num, fun k hk => ?_⟩
        rw [hk1, hk0] at hk
        simp only [Finset.mem_union, Finset.mem_insert, Finset.mem_singleton] at hk
        rcases hk with (rfl | rfl) | (rfl | rfl | rfl) <;>
          (rw [not_diff_iff]; simp only [va, vb]; norm_num [Near]))
      rw [va, vb] at e
      have hc : (setup wrongRx 2 3 false ord).ord = ord := rfl
      rw [hc]
      generalize checkFrom (ord 1 0 ((netOf (wrongRx 1)).keys ∪ (netOf (wrongRx 0)).keys)) (-2)
        (netOf (wrongRx 1)) (netOf (wrongRx 0)) = res at *
      obtain ⟨c, n1, n2⟩ := res
      simp only at e ⊢
      rw [if_neg (by rw [e]; norm_num), if_neg (by simp [setup, wrongRx, plain])]
      simp [cmpThird, report, setup, wrongRx, plain]
    unfold check
    rw [show (setup wrongRx 2 3 false ord).n = 2 from rfl, loop, h1]
    simp only [outer, hS 1 (by norm_num), p1, cmpLoop]
    rw [show (setup wrongRx 2 3 false ord).rx 1 = wrongRx 1 from rfl, hcmp]
  · intro c _
    refine ⟨fun h => ?_, fun h => ?_⟩
    · have := (h 0).2.1
      simp [wrongRx, plain, pc] at this
    · have := (h 0).1.1
      simp [wrongRx, plain, rc, pc] at this

/-- The soundness theorem applies to this report, with the exception for species 0. -/
example {ord : ℕ → ℕ → Finset ℤ → List ℤ} (hord : ∀ i m K k, k ∈ ord i m K ↔ k ∈ K) :
    Reported (setup wrongRx 2 3 false ord) (1, 0) ∧ Good (wrongRx 1) ∧ Good (wrongRx 0) :=
  ⟨Or.inl (wrong_report hord).1, ⟨by simp [wrongRx, plain], by simp [wrongRx, plain],
    by simp [wrongRx, plain], by simp [wrongRx, plain]⟩, ⟨by simp [wrongRx, plain],
    by simp [wrongRx, plain], by simp [wrongRx, plain], by simp [wrongRx, plain]⟩⟩

/-- A reaction without any species: the first entry of an empty map is read. -/
theorem empty_reaction_ub {ord : ℕ → ℕ → Finset ℤ → List ℤ} (b : Bool) :
    check (setup (fun _ => plain [] [] true) 2 1 b ord) = .ub := by
  simp [check, setup, loop, outer, plain, keyOf, netOf, start, upd, cmpLoop, cmp, checkDup,
    Net.empty]

end Verif.Duplicates
