import Verif.Cabinet.Spec

namespace Verif.Cabinet

open Verif

theorem setInsert_append (n : Nat) (l : List Nat) (h : ∀ a ∈ l, a < n) :
    setInsert n l = l ++ [n] := by
  induction l with
  | nil => rfl
  | cons a l ih =>
    have ha : a < n := h a (by simp)
    have : ¬ n < a := by omega
    have : n ≠ a := by omega
    simp [setInsert, *, ih (fun b hb => h b (by simp [hb]))]

/-- Indices at which the table holds address `a`. -/
def slots (t : List Ptr) (a : Nat) : List Nat :=
  (List.range t.length).filter (fun i => t[i]? = some (some a))

/-- The reverse lookup table is exactly the inverse image of the table. -/
structure Inv (c : Cab) : Prop where
  len : c.parents.length = c.table.length
  nul : c.lookup none = none
  lk : ∀ a, c.lookup (some a) = if slots c.table a = [] then none else some (slots c.table a)

theorem inv_empty : Inv Cab.empty := by
  constructor <;> simp [Cab.empty, slots]

theorem mem_slots (t : List Ptr) (a i : Nat) : i ∈ slots t a ↔ t[i]? = some (some a) := by
  simp only [slots, List.mem_filter, List.mem_range, decide_eq_true_eq, and_iff_right_iff_imp]
  intro h
  exact (List.getElem?_eq_some_iff.1 h).1

theorem slots_append_ne (t : List Ptr) (a : Nat) (o : Ptr) (h : o ≠ some a) :
    slots (t ++ [o]) a = slots t a := by
  simp only [slots, List.length_append, List.length_cons, List.length_nil, Nat.zero_add,
    List.range_succ, List.filter_append]
  have h1 : List.filter (fun i => decide ((t ++ [o])[i]? = some (some a))) [t.length] = [] := by
    simp [h]
  rw [h1, List.append_nil]
  apply List.filter_congr
  intro i hi
  rw [List.getElem?_append_left (by simpa using hi)]

theorem slots_append_eq (t : List Ptr) (a : Nat) :
    slots (t ++ [some a]) a = slots t a ++ [t.length] := by
  simp only [slots, List.length_append, List.length_cons, List.length_nil, Nat.zero_add,
    List.range_succ, List.filter_append]
  congr 1
  · apply List.filter_congr
    intro i hi
    rw [List.getElem?_append_left (by simpa using hi)]
  · simp

theorem slots_set (t : List Ptr) (n a : Nat) :
    slots (t.set n none) a = setErase n (slots t a) := by
  simp only [slots, setErase, List.length_set, List.filter_filter]
  apply List.filter_congr
  intro i hi
  by_cases hin : i = n
  · subst hin
    have : i < t.length := by simpa using hi
    simp [this]
  · simp only [List.getElem?_set]
    have : ¬ n = i := fun h => hin h.symm
    simp [hin, this]

theorem inv_add (c : Cab) (a : Nat) (p : Int) (h : Inv c) : Inv (c.add (some a) p).1 := by
  have hlen : (c.table ++ [some a]).length - 1 = c.table.length := by simp
  constructor
  · simp [Cab.add, h.len]
  · simp only [Cab.add]
    split <;> simp [upd, h.nul]
  · intro b
    simp only [Cab.add, hlen]
    by_cases hb : b = a
    · subst hb
      rw [slots_append_eq]
      rw [h.lk b]
      have hne : slots c.table b ++ [c.table.length] ≠ [] := by simp
      rw [if_neg hne]
      by_cases he : slots c.table b = []
      · simp [he, upd]
      · simp only [he, if_false, upd, if_true]
        rw [setInsert_append]
        intro i hi
        rw [mem_slots] at hi
        exact (List.getElem?_eq_some_iff.1 hi).1
    · rw [slots_append_ne _ _ _ (by simpa using fun h => hb h.symm)]
      have : ¬ (some b : Ptr) = some a := by simpa using hb
      split <;> simp only [upd, this, if_false, h.lk b]

/-- Case analysis of `del` under the invariant: it succeeds exactly on live slots. -/
theorem del_cases (c : Cab) (n : Int) (h : Inv c) :
    (∃ a, 0 ≤ n ∧ c.table[n.toNat]? = some (some a) ∧ (c.del n).2 = .ok () ∧
      (c.del n).1.table = c.table.set n.toNat none ∧ (c.del n).1.parents = c.parents) ∨
    ((∀ a, 0 ≤ n → c.table[n.toNat]? ≠ some (some a)) ∧ c.del n = (c, .throw)) := by
  by_cases hr : 0 ≤ n ∧ n < c.table.length
  · obtain ⟨h0, h1⟩ := hr
    have hlt : n.toNat < c.table.length := by omega
    cases hp : c.table[n.toNat] with
    | none =>
      right
      have hg : c.table[n.toNat]? = some none := by rw [List.getElem?_eq_getElem hlt, hp]
      constructor
      · intro a _; rw [hg]; simp
      · simp only [Cab.del, h0, h1, and_self, if_true, hg, h.nul]
    | some a =>
      left
      have hg : c.table[n.toNat]? = some (some a) := by rw [List.getElem?_eq_getElem hlt, hp]
      have hne : slots c.table a ≠ [] := by
        intro he
        have := (mem_slots c.table a n.toNat).2 hg
        rw [he] at this; simp at this
      have hl : c.lookup (some a) = some (slots c.table a) := by rw [h.lk a, if_neg hne]
      refine ⟨a, h0, hg, ?_⟩
      simp only [Cab.del, h0, h1, and_self, if_true, hg, hl]
  · right
    constructor
    · intro a h0 hg
      have := (List.getElem?_eq_some_iff.1 hg).1
      omega
    · simp only [Cab.del, if_neg hr]

theorem inv_del (c : Cab) (n : Int) (h : Inv c) : Inv (c.del n).1 := by
  rcases del_cases c n h with ⟨a, h0, hg, hok, ht, hpar⟩ | ⟨_, he⟩
  · have hlt := (List.getElem?_eq_some_iff.1 hg).1
    have h1 : n < c.table.length := by omega
    have hne : slots c.table a ≠ [] := by
      intro he
      have := (mem_slots c.table a n.toNat).2 hg
      rw [he] at this; simp at this
    have hl : c.lookup (some a) = some (slots c.table a) := by rw [h.lk a, if_neg hne]
    constructor
    · rw [hpar, ht]; simpa using h.len
    · simp only [Cab.del, h0, h1, and_self, if_true, hg, hl]
      split <;> simp [upd, h.nul]
    · intro b
      rw [ht, slots_set]
      simp only [Cab.del, h0, h1, and_self, if_true, hg, hl]
      have hmem := (mem_slots c.table a n.toNat).2 hg
      by_cases hb : b = a
      · subst hb
        by_cases h1 : (slots c.table b).length = 1
        · obtain ⟨m, hm⟩ := List.length_eq_one_iff.1 h1
          rw [hm] at hmem ⊢
          simp only [List.mem_singleton] at hmem
          simp [setErase, hmem, upd]
        · simp only [h1, if_false, upd, if_true]
          have : setErase n.toNat (slots c.table b) ≠ [] := by
            intro hnil
            apply h1
            have hall : ∀ i ∈ slots c.table b, i = n.toNat := by
              intro i hi
              by_cases hin : i = n.toNat
              · exact hin
              · have : i ∈ setErase n.toNat (slots c.table b) := by
                  simp [setErase, hi, hin]
                rw [hnil] at this; simp at this
            have hnd : (slots c.table b).Nodup := List.nodup_range.filter _
            have := List.eq_replicate_iff.2 ⟨rfl, hall⟩
            rw [this, List.nodup_replicate] at hnd
            have hpos : (slots c.table b).length ≠ 0 := by simpa using hne
            omega
          rw [if_neg this]
      · have hbn : ¬ (some b : Ptr) = some a := by simpa using hb
        have hnot : n.toNat ∉ slots c.table b := by
          rw [mem_slots, hg]; simpa using fun h => hb h.symm
        have : setErase n.toNat (slots c.table b) = slots c.table b := by
          apply List.filter_eq_self.2
          intro i hi
          simp only [ne_eq, decide_not, Bool.not_eq_eq_eq_not, Bool.not_true, decide_eq_false_iff_not]
          intro hin; exact hnot (hin ▸ hi)
        rw [this]
        split <;> simp only [upd, hbn, if_false, h.lk b]
  · rw [he]; exact h

theorem inv_clearLoop (l : List Nat) (c : Cab) (h : Inv c) : Inv (c.clearLoop l).1 := by
  induction l generalizing c with
  | nil => exact h
  | cons i is ih =>
    simp only [Cab.clearLoop]
    have := inv_del c i h
    split
    · rename_i c' heq; rw [heq] at this; exact ih _ this
    · rename_i c' r _ heq; rw [heq] at this; exact this

/-! ## Refinement -/

/-- Abstraction: zip table and parents. -/
def absC (c : Cab) : Spec := c.table.zip c.parents

theorem absC_get (c : Cab) (h : Inv c) (n : Nat) (x : Ptr) :
    c.table[n]? = some x ↔ ∃ p, (absC c)[n]? = some (x, p) := by
  simp only [absC, List.getElem?_zip_eq_some]
  constructor
  · intro hx
    have hlt := (List.getElem?_eq_some_iff.1 hx).1
    have : n < c.parents.length := by rw [h.len]; exact hlt
    exact ⟨c.parents[n], hx, List.getElem?_eq_getElem this⟩
  · rintro ⟨p, hx, _⟩; exact hx

theorem zip_set_left (l : List Ptr) (m : List Int) (n : Nat) :
    (l.set n none).zip m = (l.zip m).modify n (fun x => (none, x.2)) := by
  induction l generalizing m n with
  | nil => simp
  | cons a l ih =>
    cases m with
    | nil => simp
    | cons b m => cases n <;> simp [ih]

theorem abs_del (c : Cab) (n : Int) (h : Inv c) : absC (c.del n).1 = specDel (absC c) n := by
  rcases del_cases c n h with ⟨a, h0, hg, hok, ht, hpar⟩ | ⟨hno, he⟩
  · simp only [absC, ht, hpar, specDel, h0, if_true, zip_set_left]
  · rw [he]
    simp only [specDel]
    split
    · rename_i h0
      symm
      apply List.ext_getElem? 
      intro i
      rw [List.getElem?_modify]
      split
      · rename_i hi
        subst hi
        cases hx : (absC c)[n.toNat]? with
        | none => rfl
        | some x =>
          obtain ⟨x1, x2⟩ := x
          cases x1 with
          | none => rfl
          | some a =>
            exact absurd ((absC_get c h _ _).2 ⟨x2, hx⟩) (hno a h0)
      · cases (absC c)[i]? <;> rfl
    · rfl

theorem modify_mid (pre post : Spec) (x : Option Nat × Int) (f) :
    (pre ++ x :: post).modify pre.length f = pre ++ f x :: post := by
  induction pre with
  | nil => simp
  | cons a pre ih => simp [ih]

theorem abs_clearLoop (pre post : Spec) (c : Cab) (h : Inv c)
    (ha : absC c = pre ++ post) :
    absC (c.clearLoop ((List.range post.length).map (pre.length + ·))).1 = pre ++ specClear post := by
  induction post generalizing pre c with
  | nil => simpa [Cab.clearLoop, specClear] using ha
  | cons x post ih =>
    obtain ⟨o, p⟩ := x
    rw [List.length_cons, List.range_succ_eq_map, List.map_cons, List.map_map, Cab.clearLoop]
    simp only [Nat.add_zero]
    have hx : (absC c)[pre.length]? = some (o, p) := by rw [ha]; simp
    have ht : c.table[pre.length]? = some o := (absC_get c h _ _).2 ⟨p, hx⟩
    have hI := inv_del c pre.length h
    have hA := abs_del c pre.length h
    rcases del_cases c (pre.length : Int) h with ⟨a, h0, hg, hok, ht', hpar⟩ | ⟨hno, he⟩
    · have hoa : o = some a := by
        rw [Int.toNat_natCast, ht] at hg; simpa using hg
      subst hoa
      have hpair : c.del (pre.length : Int) = ((c.del (pre.length : Int)).1, .ok ()) := by
        rw [← hok]
      rw [hpair]
      simp only []
      have hA' : absC (c.del (pre.length : Int)).1 = (pre ++ [(none, p)]) ++ post := by
        rw [hA, ha]
        simp only [specDel, h0, if_true, Int.toNat_natCast]
        rw [modify_mid]; simp
      have := ih (pre ++ [(none, p)]) _ hI hA'
      simp only [List.length_append, List.length_cons, List.length_nil, Nat.zero_add] at this
      have hfun : ((fun x => pre.length + x) ∘ Nat.succ) = (fun x => pre.length + 1 + x) := by
        funext i; simp; omega
      rw [hfun, this]
      simp [specClear]
    · rw [he]
      simp only []
      cases o with
      | none => rw [ha]; simp [specClear]
      | some a => exact absurd (by simpa using ht) (hno a (by omega))

theorem run_refines_aux (ops : List Op) (c : Cab) (s : Spec) (hI : Inv c) (hs : absC c = s)
    (hn : NoNull ops) :
    Inv (ops.foldl step c) ∧ absC (ops.foldl step c) = ops.foldl specStep s := by
  induction ops generalizing c s with
  | nil => exact ⟨hI, hs⟩
  | cons op ops ih =>
    have hn' : NoNull ops := fun o p h => hn o p (by simp [h])
    simp only [List.foldl_cons]
    subst hs
    cases op with
    | add o p =>
      have : o ≠ none := hn o p (by simp)
      obtain ⟨a, rfl⟩ := Option.ne_none_iff_exists'.1 this
      refine ih _ _ (inv_add c a p hI) ?_ hn'
      simp only [step, absC, Cab.add, specStep]
      rw [List.zip_append hI.len.symm]
      rfl
    | del n => exact ih _ _ (inv_del c n hI) (abs_del c n hI) hn'
    | clear =>
      refine ih _ _ (inv_clearLoop _ c hI) ?_ hn'
      have := abs_clearLoop [] (absC c) c hI (by simp)
      have hl : (absC c).length = c.table.length := by simp [absC, hI.len]
      simpa [step, Cab.clear, specStep, hl] using this
    | reset => exact ih _ _ inv_empty (by simp [step, Cab.reset, Cab.empty, absC, specStep]) hn'

theorem run_refines (ops : List Op) (hn : NoNull ops) :
    Inv (run ops) ∧ absC (run ops) = specRun ops :=
  run_refines_aux ops _ _ inv_empty (by simp [Cab.empty, absC]) hn


end Verif.Cabinet
