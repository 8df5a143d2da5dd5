import Verif.Cabinet.Lemmas

/-!
# C11: the clib handle table

Theorems quantify over every history `ops` of calls on the singleton.
-/

namespace Verif.Cabinet

open Verif

/-- Looking up a handle returns the object the abstract table holds there, and throws on every
handle that was never issued or has been deleted; never undefined behaviour. -/
theorem cabinet_at_spec (ops : List Op) (hn : NoNull ops) (n : Int) :
    (∀ a, (run ops).at n = .ok a ↔ 0 ≤ n ∧ ∃ p, (specRun ops)[n.toNat]? = some (some a, p)) ∧
    ((run ops).at n = .throw ↔ ¬ (0 ≤ n ∧ liveAt (specRun ops) n.toNat)) := by
  obtain ⟨hI, hA⟩ := run_refines ops hn
  rw [← hA]
  have key := absC_get (run ops) hI n.toNat
  simp only [liveAt, ← key]
  by_cases h0 : 0 ≤ n
  · by_cases h1 : n.toNat < (run ops).table.length
    · have hg := List.getElem?_eq_getElem h1
      have hlt : ¬ (n < 0 ∨ n ≥ (run ops).table.length) := by omega
      simp only [Cab.at, hlt, if_false, h0, true_and]
      rw [hg]
      cases (run ops).table[n.toNat] <;> simp
    · have hlt : (n < 0 ∨ n ≥ (run ops).table.length) := by omega
      have hg : (run ops).table[n.toNat]? = none := by simpa using h1
      simp [Cab.at, hlt, hg]
  · have hlt : (n < 0 ∨ n ≥ (run ops).table.length) := by omega
    simp [Cab.at, hlt, h0]

example : NoNull [.add (some 7) (-1), .del 0, .add (some 7) 3] := by
  intro o p h; simp at h; rcases h with ⟨rfl, _⟩ | ⟨rfl, _⟩ <;> simp
example : (run [.add (some 7) (-1), .del 0, .add (some 8) 3]).at 1 = .ok 8 := by decide
example : (run [.add (some 7) (-1), .del 0, .add (some 8) 3]).at 0 = .throw := by decide

/-- `del` succeeds exactly on live handles; on every other handle it throws and changes nothing. -/
theorem cabinet_del_spec (ops : List Op) (hn : NoNull ops) (n : Int) :
    ((0 ≤ n ∧ liveAt (specRun ops) n.toNat) → ((run ops).del n).2 = .ok () ∧
        ∀ m : Int, (run (ops ++ [.del n])).at m = if m = n then .throw else (run ops).at m) ∧
    (¬ (0 ≤ n ∧ liveAt (specRun ops) n.toNat) → (run ops).del n = (run ops, .throw)) := by
  obtain ⟨hI, hA⟩ := run_refines ops hn
  have key := fun a => absC_get (run ops) hI n.toNat (some a)
  have hlive : liveAt (specRun ops) n.toNat ↔ ∃ a, (run ops).table[n.toNat]? = some (some a) := by
    rw [← hA]; simp only [liveAt, key]
  rw [hlive]
  rcases del_cases (run ops) n hI with ⟨a, h0, hg, hok, ht, hpar⟩ | ⟨hno, he⟩
  · refine ⟨fun _ => ⟨hok, ?_⟩, fun h => absurd ⟨h0, a, hg⟩ h⟩
    intro m
    have hr : run (ops ++ [.del n]) = ((run ops).del n).1 := by
      simp [run, List.foldl_append, step]
    have hlt := (List.getElem?_eq_some_iff.1 hg).1
    rw [hr]
    simp only [Cab.at, ht, List.length_set]
    by_cases hm : m = n
    · subst hm
      have : ¬ (m < 0 ∨ m ≥ (run ops).table.length) := by omega
      simp [hlt]
    · by_cases hm2 : (m < 0 ∨ m ≥ (run ops).table.length)
      · simp [hm2]
      · have hne : n.toNat ≠ m.toNat := by omega
        rw [List.getElem?_set_ne hne]
        simp [hm]
  · refine ⟨?_, fun _ => he⟩
    rintro ⟨h0, a, hg⟩
    exact absurd hg (hno a h0)

example : 0 ≤ (0 : Int) ∧ liveAt (specRun [.add (some 7) (-1)]) (0 : Int).toNat :=
  ⟨by decide, 7, -1, rfl⟩

/-- Reverse lookup: `index` returns the most recently issued live handle of the object with that
parent, `-1` when the object is not in the table at all, `-2` when only under other parents. -/
theorem cabinet_index_spec (ops : List Op) (hn : NoNull ops) (a : Nat) (p : Int) :
    (∃ n : Nat, IsLatest (specRun ops) a p n ∧ (run ops).index a p = .ok (n : Int)) ∨
    ((∀ (n : Nat) (q : Int), (specRun ops)[n]? ≠ some (some a, q)) ∧ (run ops).index a p = .ok (-1)) ∨
    ((∃ (n : Nat) (q : Int), (specRun ops)[n]? = some (some a, q)) ∧
      (∀ n : Nat, (specRun ops)[n]? ≠ some (some a, p)) ∧
      (run ops).index a p = .ok (-2)) := by
  obtain ⟨hI, hA⟩ := run_refines ops hn
  rw [← hA]
  generalize run ops = c at *
  have hmem : ∀ n, n ∈ slots c.table a ↔ ∃ q, (absC c)[n]? = some (some a, q) := by
    intro n; rw [mem_slots, absC_get c hI]
  have hz : ∀ n q, (absC c)[n]? = some (some a, q) ↔
      n ∈ slots c.table a ∧ c.parents[n]? = some q := by
    intro n q
    rw [mem_slots]
    simp only [absC, List.getElem?_zip_eq_some]
  by_cases he : slots c.table a = []
  · right; left
    constructor
    · intro n q h
      have := (hmem n).2 ⟨q, h⟩
      rw [he] at this; simp at this
    · simp [Cab.index, hI.lk a, he]
  · have hidx : c.index a p = indexLoop c.parents p (slots c.table a).reverse := by
      simp [Cab.index, hI.lk a, he]
    rw [hidx]
    have hsort : (slots c.table a).Pairwise (· < ·) := List.pairwise_lt_range.filter _
    have hrev : (slots c.table a).reverse.Pairwise (· > ·) := by
      rw [List.pairwise_reverse]; exact hsort
    have hpar : ∀ n ∈ (slots c.table a).reverse, n < c.parents.length := by
      intro n hn
      rw [List.mem_reverse, mem_slots] at hn
      rw [hI.len]; exact (List.getElem?_eq_some_iff.1 hn).1
    have gen : ∀ l : List Nat, l.Pairwise (· > ·) → (∀ n ∈ l, n < c.parents.length) →
        (∃ n ∈ l, c.parents[n]? = some p ∧ (∀ m ∈ l, c.parents[m]? = some p → m ≤ n) ∧
          indexLoop c.parents p l = .ok (n : Int)) ∨
        ((∀ n ∈ l, c.parents[n]? ≠ some p) ∧ indexLoop c.parents p l = .ok (-2)) := by
      intro l hl hlt
      induction l with
      | nil => right; simp [indexLoop]
      | cons e es ih =>
        have hlte := hlt e (by simp)
        have hge := List.getElem?_eq_getElem hlte
        rw [List.pairwise_cons] at hl
        by_cases hp : c.parents[e] = p
        · left
          refine ⟨e, by simp, by rw [hge, hp], ?_, ?_⟩
          · intro m hm _
            rcases List.mem_cons.1 hm with rfl | hm
            · exact Nat.le_refl _
            · exact Nat.le_of_lt (hl.1 m hm)
          · simp [indexLoop, hge, hp]
        · have hstep : indexLoop c.parents p (e :: es) = indexLoop c.parents p es := by
            simp [indexLoop, hge, hp]
          rw [hstep]
          rcases ih hl.2 (fun n hn => hlt n (by simp [hn])) with ⟨n, hn, hpn, hmax, hr⟩ | ⟨hno, hr⟩
          · left
            refine ⟨n, by simp [hn], hpn, ?_, hr⟩
            intro m hm hpm
            rcases List.mem_cons.1 hm with rfl | hm
            · rw [hge] at hpm; exact absurd (by simpa using hpm) hp
            · exact hmax m hm hpm
          · right
            refine ⟨?_, hr⟩
            intro n hn
            rcases List.mem_cons.1 hn with rfl | hn
            · rw [hge]; simpa using hp
            · exact hno n hn
    rcases gen _ hrev hpar with ⟨n, hn, hpn, hmax, hr⟩ | ⟨hno, hr⟩
    · left
      refine ⟨n, ⟨(hz n p).2 ⟨by simpa using hn, hpn⟩, ?_⟩, hr⟩
      intro m hm
      have := (hz m p).1 hm
      exact hmax m (by simpa using this.1) this.2
    · right; right
      refine ⟨?_, ?_, hr⟩
      · obtain ⟨n, hn⟩ := List.exists_mem_of_ne_nil _ he
        exact ⟨n, (hmem n).1 hn⟩
      · intro n h
        have := (hz n p).1 h
        exact hno n (by simpa using this.1) this.2

example : (run [.add (some 7) 1, .add (some 7) 2, .add (some 7) 1, .del 2]).index 7 1 = .ok 0 := by
  decide
example : (run [.add (some 7) 1]).index 7 5 = .ok (-2) := by decide
example : (run [.add (some 7) 1]).index 9 5 = .ok (-1) := by decide

/-- Neither `reset`, nor `clear`, nor deletion of handle `n` occurs in the history. -/
def Keeps (n : Nat) (ops : List Op) : Prop :=
  Op.reset ∉ ops ∧ Op.clear ∉ ops ∧ Op.del (n : Int) ∉ ops

/-- The only way the table entry of a handle changes is `del` on it, `clear` or `reset`
(no assumption on null pointers or on the history). -/
theorem step_keeps (c : Cab) (op : Op) (n : Nat) (x : Ptr) (hx : c.table[n]? = some x)
    (h : op ≠ .reset) (h2 : op ≠ .clear) (h3 : op ≠ .del (n : Int)) :
    (step c op).table[n]? = some x := by
  have hlt := (List.getElem?_eq_some_iff.1 hx).1
  cases op with
  | add o p =>
    simp only [step, Cab.add]
    rw [List.getElem?_append_left hlt, hx]
  | del m =>
    have hm : m ≠ (n : Int) := fun e => h3 (by rw [e])
    simp only [step, Cab.del]
    split
    · rename_i hr
      split
      · exact hx
      · split
        · exact hx
        · simp only []
          rw [List.getElem?_set_ne (by omega), hx]
    · exact hx
  | clear => exact absurd rfl h2
  | reset => exact absurd rfl h

/-- Handle stability: the handle returned by `add` denotes the added object after every later
history that neither deletes that handle nor clears/resets the table. -/
theorem cabinet_handle_stable (ops later : List Op) (a : Nat) (p : Int)
    (hk : Keeps ((run ops).add (some a) p).2 later) :
    (run (ops ++ .add (some a) p :: later)).at (((run ops).add (some a) p).2 : Nat) = .ok a := by
  have hrun : run (ops ++ .add (some a) p :: later) =
      later.foldl step ((run ops).add (some a) p).1 := by
    simp [run, List.foldl_append, step]
  rw [hrun]
  have h0 : ((run ops).add (some a) p).1.table[((run ops).add (some a) p).2]? = some (some a) := by
    simp [Cab.add]
  clear hrun
  generalize ((run ops).add (some a) p).1 = c at *
  generalize ((run ops).add (some a) p).2 = n at *
  suffices h : (later.foldl step c).table[n]? = some (some a) by
    have hlt := (List.getElem?_eq_some_iff.1 h).1
    have h2 : ¬ ((n : Int) < 0 ∨ (n : Int) ≥ (later.foldl step c).table.length) := by omega
    simp only [Cab.at, h2, if_false, Int.toNat_natCast, h]
  induction later generalizing c with
  | nil => exact h0
  | cons op later ih =>
    obtain ⟨k1, k2, k3⟩ := hk
    simp only [List.mem_cons, not_or] at k1 k2 k3
    refine ih _ ⟨k1.2, k2.2, k3.2⟩ ?_
    exact step_keeps c op n _ h0 (Ne.symm k1.1) (Ne.symm k2.1) (Ne.symm k3.1)

example : Keeps ((run [.add (some 3) 0]).add (some 4) (-1)).2 [.del 0, .add (some 9) 1, .del 2] := by
  simp [Keeps, Cab.add, run, step, Cab.empty]

/-- Fresh handles: `add` never returns a handle that is already in use (live or deleted) since the
last reset; live handles are therefore pairwise distinct. -/
theorem cabinet_add_fresh (ops : List Op) (o : Ptr) (p : Int) (n : Nat)
    (hn : n < (run ops).size) : ((run ops).add o p).2 ≠ n := by
  simp only [Cab.size] at hn
  simp [Cab.add]; omega

example : 0 < (run [.add (some 3) 0, .del 0]).size := by decide

/-- A deleted handle stays dead: after `del n` every access throws until the table is reset,
whatever else happens. -/
theorem cabinet_dead_stays_dead (ops later : List Op) (n : Nat)
    (hd : (run ops).table[n]? = some none) (hr : Op.reset ∉ later) :
    (run (ops ++ later)).at (n : Int) = .throw := by
  have hrun : run (ops ++ later) = later.foldl step (run ops) := by simp [run, List.foldl_append]
  rw [hrun]
  clear hrun
  generalize run ops = c at *
  suffices h : (later.foldl step c).table[n]? = some none by
    have hlt := (List.getElem?_eq_some_iff.1 h).1
    simp [Cab.at, h]
  have hdel : ∀ (c : Cab) (m : Int), c.table[n]? = some none → (c.del m).1.table[n]? = some none := by
    intro c m h
    have hlt := (List.getElem?_eq_some_iff.1 h).1
    simp only [Cab.del]
    split
    · split
      · exact h
      · split
        · exact h
        · simp only [List.getElem?_set]
          split
          · rename_i he; simp [he, hlt]
          · exact h
    · exact h
  induction later generalizing c with
  | nil => exact hd
  | cons op later ih =>
    simp only [List.mem_cons, not_or] at hr
    refine ih hr.2 _ ?_
    cases op with
    | add o p =>
      have hlt := (List.getElem?_eq_some_iff.1 hd).1
      simp only [step, Cab.add]
      rw [List.getElem?_append_left hlt, hd]
    | del m => exact hdel c m hd
    | clear =>
      simp only [step, Cab.clear]
      generalize List.range c.table.length = l
      clear ih hr
      induction l generalizing c with
      | nil => exact hd
      | cons i is ih =>
        simp only [Cab.clearLoop]
        have := hdel c i hd
        split
        · rename_i c' heq; rw [heq] at this; exact ih _ this
        · rename_i c' r _ heq; rw [heq] at this; exact this
    | reset => exact absurd rfl hr.1

example : (run [.add (some 3) 0, .del 0]).table[0]? = some none := by decide

/-- No accessor ever reaches undefined behaviour, for any history without null pointers. -/
theorem cabinet_no_ub (ops : List Op) (hn : NoNull ops) (n : Int) (a : Nat) (p : Int) :
    (run ops).at n ≠ .ub ∧ (run ops).parent n ≠ .ub ∧ ((run ops).del n).2 ≠ .ub ∧
    (run ops).index a p ≠ .ub := by
  refine ⟨?_, ?_, ?_, ?_⟩
  · simp only [Cab.at]
    split
    · simp
    · rename_i h
      have : n.toNat < (run ops).table.length := by omega
      rw [List.getElem?_eq_getElem this]
      cases (run ops).table[n.toNat] <;> simp
  · simp only [Cab.parent]
    split
    · simp
    · rename_i h
      have : n.toNat < (run ops).parents.length := by omega
      simp [Outcome.vecGet, List.getElem?_eq_getElem this]
  · obtain ⟨h1, h2⟩ := cabinet_del_spec ops hn n
    by_cases h : 0 ≤ n ∧ liveAt (specRun ops) n.toNat
    · rw [(h1 h).1]; simp
    · rw [h2 h]; simp
  · rcases cabinet_index_spec ops hn a p with ⟨n, _, h⟩ | ⟨_, h⟩ | ⟨_, _, h⟩ <;> rw [h] <;> simp

/-- When no slot is dead, `clear` succeeds and kills every handle without forgetting the numbering. -/
theorem cabinet_clear_partial (ops : List Op) (hn : NoNull ops)
    (hl : ∀ n, n < (run ops).size → liveAt (specRun ops) n) :
    (run ops).clear.2 = .ok () ∧ (run (ops ++ [.clear])).size = (run ops).size ∧
    ∀ n : Int, (run (ops ++ [.clear])).at n = .throw := by
  obtain ⟨hI, hA⟩ := run_refines ops hn
  have hn2 : NoNull (ops ++ [.clear]) := by
    intro o p h; simp at h; exact hn o p h
  obtain ⟨hI2, hA2⟩ := run_refines (ops ++ [.clear]) hn2
  have hspec : specRun (ops ++ [.clear]) = specClear (specRun ops) := by
    simp [specRun, List.foldl_append, specStep]
  have hsz : (specRun ops).length = (run ops).size := by
    rw [← hA]; simp [absC, hI.len, Cab.size]
  have hall : ∀ s : Spec, (∀ n, n < s.length → liveAt s n) →
      specClear s = s.map (fun x => (none, x.2)) := by
    intro s hs
    induction s with
    | nil => rfl
    | cons x s ih =>
      obtain ⟨o, q⟩ := x
      obtain ⟨a, r, h⟩ := hs 0 (by simp)
      simp at h
      obtain ⟨rfl, rfl⟩ := h
      simp only [specClear, List.map_cons]
      rw [ih]
      intro n hn
      obtain ⟨a', r', h'⟩ := hs (n+1) (by simpa using hn)
      exact ⟨a', r', by simpa using h'⟩
  have hmap := hall (specRun ops) (by rw [hsz]; exact hl)
  refine ⟨?_, ?_, ?_⟩
  · -- the loop never meets a dead slot
    have gen : ∀ (l : List Nat) (c : Cab), Inv c → l.Nodup →
        (∀ i ∈ l, ∃ a, c.table[i]? = some (some a)) → (c.clearLoop l).2 = .ok () := by
      intro l
      induction l with
      | nil => intro c _ _ _; rfl
      | cons i is ih =>
        intro c hc hnd hlive
        obtain ⟨a, ha⟩ := hlive i (by simp)
        rcases del_cases c (i : Int) hc with ⟨a', h0, hg, hok, ht, hpar⟩ | ⟨hno, he⟩
        · simp only [Cab.clearLoop]
          have hpair : c.del (i : Int) = ((c.del (i : Int)).1, .ok ()) := by rw [← hok]
          rw [hpair]
          simp only []
          rw [List.nodup_cons] at hnd
          refine ih _ (inv_del c i hc) hnd.2 ?_
          intro j hj
          rw [ht]
          have hji : (i : Int).toNat ≠ j := by
            intro e; apply hnd.1; simp at e; rw [e]; exact hj
          rw [List.getElem?_set_ne hji]
          exact hlive j (by simp [hj])
        · exact absurd (by simpa using ha) (hno a (by omega))
    refine gen _ _ hI List.nodup_range ?_
    intro i hi
    obtain ⟨a, q, h⟩ := hl i (by simpa [Cab.size] using hi)
    rw [← hA] at h
    exact ⟨a, (absC_get _ hI _ _).2 ⟨q, h⟩⟩
  · have h1 : (specRun (ops ++ [.clear])).length = (run (ops ++ [.clear])).size := by
      rw [← hA2]; simp [absC, hI2.len, Cab.size]
    rw [← h1, hspec, hmap, List.length_map, hsz]
  · intro n
    rw [(cabinet_at_spec _ hn2 n).2, hspec, hmap]
    rintro ⟨_, a, q, h⟩
    simp [List.getElem?_map] at h

example : ∀ n, n < (run [.add (some 3) 0, .add (some 4) 0]).size →
    liveAt (specRun [.add (some 3) 0, .add (some 4) 0]) n := by
  intro n hn
  have : n < 2 := hn
  have : n = 0 ∨ n = 1 := by omega
  rcases this with rfl | rfl
  · exact ⟨3, 0, rfl⟩
  · exact ⟨4, 0, rfl⟩

/-- Finding: `clear` ("delete all objects", Cabinet.h:87-96) does *not* empty the table when some
object was deleted before: it throws at the dead slot and later objects stay alive. -/
theorem cabinet_clear_not_total :
    ∃ ops, NoNull ops ∧ (run ops).clear.2 = .throw ∧ (run (ops ++ [.clear])).at 1 = .ok 8 := by
  refine ⟨[.add (some 7) (-1), .add (some 8) (-1), .del 0], ?_, by decide, by decide⟩
  intro o p h; simp at h; rcases h with ⟨rfl, _⟩ | ⟨rfl, _⟩ <;> simp

/-- Finding: the class comment (Cabinet.h:38-41) says deleting twice is harmless ("nothing
happens"); the second deletion throws. -/
theorem cabinet_double_delete_throws (ops : List Op) (hn : NoNull ops) (n : Int)
    (hl : 0 ≤ n ∧ liveAt (specRun ops) n.toNat) :
    ((run (ops ++ [.del n])).del n).2 = .throw := by
  have hn2 : NoNull (ops ++ [.del n]) := by intro o p h; simp at h; exact hn o p h
  have h1 := ((cabinet_del_spec ops hn n).1 hl).2 n
  simp only [if_true] at h1
  rw [(cabinet_at_spec _ hn2 n).2] at h1
  rw [((cabinet_del_spec _ hn2 n).2 h1)]

end Verif.Cabinet
