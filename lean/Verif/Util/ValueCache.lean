import Verif.Basic
import Mathlib.Tactic.Common
import Mathlib.Tactic.SplitIfs
import Mathlib.Algebra.Order.Group.Nat
import Mathlib.Data.Real.Basic

/-!
# C35: value cache (include/cantera/base/ValueCache.h, src/base/ValueCache.cpp)

A `double` is `Option ℝ` with `none` = NaN; `==` is false when either side is NaN.
The `std::map<int, CachedValue>` creates a default entry on first access, so it is a
total function from ids to entries.  Cached values have an arbitrary type `V`.
References kept across `clear()` (dangling in C++) are not modelled: every access goes through `getScalar(id)`.
-/

namespace Verif.ValueCache

open Verif Classical

/-- A double, `none` is NaN. -/
abbrev Dbl := Option ℝ

/-- IEEE `==` -/
def feq (a b : Dbl) : Prop := ∃ x, a = some x ∧ b = some x

/-- `std::numeric_limits<int>::min()` -/
def intMin : ℤ := -2147483648

/-- `std::numeric_limits<int>::max()` -/
def intMax : ℤ := 2147483647

/-- `CachedValue<T>` (ValueCache.h:33-114) -/
structure CV (V : Type) where
  state1 : Dbl
  state2 : Dbl
  stateNum : ℤ
  value : V

variable {V : Type}

/-- Default member initialisers (ValueCache.h:102-113); `dflt` is `T()`. -/
def CV.default (dflt : V) : CV V := ⟨none, none, intMin, dflt⟩

/-- Arguments of the five `validate` overloads. -/
inductive Key where
  | s1 (a : Dbl)
  | s12 (a b : Dbl)
  | s1n (a : Dbl) (n : ℤ)
  | num (n : ℤ)
  | s12n (a b : Dbl) (n : ℤ)

/-- `validate` (ValueCache.h:39-98): new entry and result. -/
noncomputable def CV.validate (c : CV V) : Key → CV V × Bool
  | .s1 a => if feq c.state1 a then (c, true) else ({ c with state1 := a }, false)
  | .s12 a b =>
    if feq c.state1 a ∧ feq c.state2 b then (c, true)
    else ({ c with state1 := a, state2 := b }, false)
  | .s1n a n =>
    if feq c.state1 a ∧ c.stateNum = n then (c, true)
    else ({ c with state1 := a, stateNum := n }, false)
  | .num n => if c.stateNum = n then (c, true) else ({ c with stateNum := n }, false)
  | .s12n a b n =>
    if feq c.state1 a ∧ feq c.state2 b ∧ c.stateNum = n then (c, true)
    else ({ c with state1 := a, state2 := b, stateNum := n }, false)

/-- Which overload a key belongs to. -/
def Key.kind : Key → ℕ
  | .s1 _ => 0
  | .s12 _ _ => 1
  | .s1n _ _ => 2
  | .num _ => 3
  | .s12n _ _ _ => 4

/-- The numbers of the key can occur for a real state: no stateNum is INT_MIN. -/
def Key.ok : Key → Prop
  | .s1n _ n => n ≠ intMin
  | .num n => n ≠ intMin
  | .s12n _ _ n => n ≠ intMin
  | _ => True

/-- The cache: one entry per id (ValueCache.h:161-182). -/
abbrev Cache (V : Type) := ℕ → CV V

/-- ValueCache.cpp:27-31: entries are re-created with the default on next access. -/
def clear (dflt : V) : Cache V := fun _ => CV.default dflt

/-- The usage pattern (for example HMWSoln.cpp:1028-1035):
`if (cached.validate(key)) return cached.value; v = compute(); cached.value = v; return v;`
`compute` may throw, in which case the entry keeps its old value but the new state. -/
noncomputable def query (c : Cache V) (id : ℕ) (k : Key) (compute : Outcome V) : Cache V × Outcome V :=
  let (e, valid) := (c id).validate k
  if valid then (Function.update c id e, .ok e.value)
  else match compute with
    | .ok v => (Function.update c id { e with value := v }, .ok v)
    | .throw => (Function.update c id e, .throw)
    | .ub => (Function.update c id e, .ub)

/-- Client calls: a lookup by the method owning `id`, or a clear. -/
inductive Op where
  | query (id : ℕ) (k : Key)
  | clear

/-- Run a history; `F id k` is what the computation of method `id` returns in state `k`; the
results of the lookups are collected. -/
noncomputable def run (F : ℕ → Key → Outcome V) (dflt : V) : Cache V → List Op → List (Outcome V)
  | _, [] => []
  | c, .query id k :: os =>
    let r := query c id k (F id k)
    r.2 :: run F dflt r.1 os
  | _, .clear :: os => run F dflt (clear dflt) os

/-- What a cache-free program returns for the same history. -/
def direct (F : ℕ → Key → Outcome V) : List Op → List (Outcome V)
  | [] => []
  | .query id k :: os => F id k :: direct F os
  | .clear :: os => direct F os

/-- Each method always uses the same overload, and no INT_MIN. -/
def Disciplined (kind : ℕ → ℕ) : Op → Prop
  | .query id k => k.kind = kind id ∧ k.ok
  | .clear => True

/-- `getId` (ValueCache.cpp:21-25): the mutex makes each call atomic, so a multi-threaded execution is a sequence of
calls; incrementing past INT_MAX is undefined. -/
def getId (last : ℤ) : Outcome (ℤ × ℤ) :=
  if last + 1 ≤ intMax then .ok (last + 1, last + 1) else .ub

/-- Ids returned by `n` calls in whatever order threads make them. -/
def getIds (last : ℤ) : ℕ → Outcome (List ℤ)
  | 0 => .ok []
  | n + 1 => getId last >>= fun r => getIds r.2 n >>= fun l => .ok (r.1 :: l)

/-! ## Theorems -/

theorem feq_eq {a b : Dbl} (h : feq a b) : a = b := by
  obtain ⟨x, rfl, rfl⟩ := h; rfl

/-- The state stored in an entry is that of the given key. -/
def Matches (c : CV V) : Key → Prop
  | .s1 a => c.state1 = a
  | .s12 a b => c.state1 = a ∧ c.state2 = b
  | .s1n a n => c.state1 = a ∧ c.stateNum = n
  | .num n => c.stateNum = n
  | .s12n a b n => c.state1 = a ∧ c.state2 = b ∧ c.stateNum = n

theorem validate_value (c : CV V) (k : Key) : (c.validate k).1.value = c.value := by
  cases k <;> simp only [CV.validate] <;> split_ifs <;> rfl

theorem validate_matches (c : CV V) (k : Key) : Matches (c.validate k).1 k := by
  cases k <;> simp only [CV.validate] <;> split_ifs with h <;> simp only [Matches, and_self] <;>
    first
    | exact feq_eq h
    | exact ⟨feq_eq h.1, feq_eq h.2⟩
    | exact ⟨feq_eq h.1, h.2⟩
    | exact h
    | exact ⟨feq_eq h.1, feq_eq h.2.1, h.2.2⟩

/-- `validate` reports "valid" only for a key whose every component equals the stored one and is
not NaN, and then changes nothing; otherwise the stored state becomes the key. -/
theorem cache_validate (c : CV V) (k : Key) :
    ((c.validate k).2 = true → Matches c k ∧ (c.validate k).1 = c) ∧
    Matches (c.validate k).1 k ∧ (c.validate k).1.value = c.value := by
  refine ⟨?_, validate_matches c k, validate_value c k⟩
  cases k <;> simp only [CV.validate] <;> split_ifs with h <;> intro hv <;>
    first
    | exact ⟨feq_eq h, rfl⟩
    | exact ⟨⟨feq_eq h.1, feq_eq h.2⟩, rfl⟩
    | exact ⟨⟨feq_eq h.1, h.2⟩, rfl⟩
    | exact ⟨h, rfl⟩
    | exact ⟨⟨feq_eq h.1, feq_eq h.2.1, h.2.2⟩, rfl⟩
    | exact absurd hv (by decide)

/-- A key containing NaN is never valid. -/
theorem cache_nan (c : CV V) (b : Dbl) (n : ℤ) :
    (c.validate (.s1 none)).2 = false ∧ (c.validate (.s12 none b)).2 = false ∧
    (c.validate (.s12 b none)).2 = false ∧ (c.validate (.s1n none n)).2 = false ∧
    (c.validate (.s12n none b n)).2 = false ∧ (c.validate (.s12n b none n)).2 = false := by
  simp [CV.validate, feq]

/-- Two keys of the same kind matching the same entry are equal. -/
theorem matches_unique (c : CV V) (k k' : Key) (hk : k.kind = k'.kind) (h : Matches c k)
    (h' : Matches c k') : k = k' := by
  cases k <;> cases k' <;> simp [Key.kind] at hk <;> simp only [Matches] at h h' <;>
    first
    | rw [← h, ← h']
    | rw [← h.1, ← h.2, ← h'.1, ← h'.2]
    | rw [← h.1, ← h.2.1, ← h.2.2, ← h'.1, ← h'.2.1, ← h'.2.2]

/-- Invariant of an entry: if a query could be answered from it, the answer is right. -/
def EntryOK (F : Key → Outcome V) (kd : ℕ) (c : CV V) : Prop :=
  ∀ k : Key, k.kind = kd → k.ok → (c.validate k).2 = true → F k = .ok c.value

theorem entry_default (F : Key → Outcome V) (kd : ℕ) (dflt : V) : EntryOK F kd (CV.default dflt) := by
  intro k _ hok hv
  exfalso
  cases k <;> simp [CV.validate, CV.default, feq, Key.ok] at hv hok
  rename_i n _
  by_cases h : intMin = n
  · exact hok h.symm
  · simp [h] at hv

theorem entry_query (F : Key → Outcome V) (kd : ℕ) (c : CV V) (k : Key) (v : V)
    (hk : k.kind = kd) (hF : F k = .ok v) : EntryOK F kd { (c.validate k).1 with value := v } := by
  intro k' hk' _ hv
  have h1 : Matches ({ (c.validate k).1 with value := v } : CV V) k' := ((cache_validate _ k').1 hv).1
  have h2 : Matches ({ (c.validate k).1 with value := v } : CV V) k := by
    have := validate_matches c k
    cases k <;> exact this
  rw [matches_unique _ k' k (by rw [hk', hk]) h1 h2, hF]

/-- C35 for computations that do not fail: over every interleaving of lookups by different methods and
clears, cached lookups return exactly what computing without a cache returns. -/
theorem cache_transparent_partial (F : ℕ → Key → Outcome V) (dflt : V) (kind : ℕ → ℕ) (os : List Op)
    (hd : ∀ o ∈ os, Disciplined kind o) (htotal : ∀ id k, ∃ v, F id k = .ok v) (c : Cache V)
    (hc : ∀ id, EntryOK (F id) (kind id) (c id)) : run F dflt c os = direct F os := by
  induction os generalizing c with
  | nil => rfl
  | cons o os ih =>
    have hds : ∀ o ∈ os, Disciplined kind o := fun o ho => hd o (List.mem_cons_of_mem _ ho)
    cases o with
    | clear => exact ih hds _ (fun id => entry_default _ _ _)
    | query id k =>
      obtain ⟨hk, hok⟩ := hd (.query id k) (List.mem_cons_self ..)
      obtain ⟨v, hv⟩ := htotal id k
      simp only [run, direct, query]
      cases hval : ((c id).validate k).2 with
      | true =>
        obtain ⟨-, he⟩ := (cache_validate (c id) k).1 hval
        simp only [if_true]
        rw [validate_value, ← hc id k hk hok hval]
        congr 1
        apply ih hds
        intro id'
        rw [he, Function.update_eq_self]
        exact hc id'
      | false =>
        simp only [Bool.false_eq_true, if_false, hv]
        congr 1
        apply ih hds
        intro id'
        by_cases e : id' = id
        · subst e
          rw [Function.update_self]
          exact entry_query _ _ _ _ _ hk hv
        · rw [Function.update_of_ne e]; exact hc id'

/-- The same from a new cache. -/
theorem cache_transparent_new_partial (F : ℕ → Key → Outcome V) (dflt : V) (kind : ℕ → ℕ) (os : List Op)
    (hd : ∀ o ∈ os, Disciplined kind o) (htotal : ∀ id k, ∃ v, F id k = .ok v) :
    run F dflt (clear dflt) os = direct F os :=
  cache_transparent_partial F dflt kind os hd htotal _ (fun _ => entry_default _ _ _)

example : ∃ (kind : ℕ → ℕ) (os : List Op), (∀ o ∈ os, Disciplined kind o) ∧
    os = [.query 1 (.s12n (some 300) (some 1) 4), .query 2 (.num 4), .clear,
      .query 1 (.s12n (some 300) (some 1) 5)] :=
  ⟨fun id => if id = 1 then 4 else 3, _, by simp [Disciplined, Key.kind, Key.ok, intMin], rfl⟩

/-- Finding: `validate` records the new state before the value exists.  If the computation throws, the next lookup in
the same state is answered "valid" with the old (here: default) value. -/
theorem cache_stale_after_throw :
    ∃ (c c' : Cache ℕ) (k : Key), c = clear 0 ∧ query c 1 k .throw = (c', .throw) ∧
      (query c' 1 k (.ok 42)).2 = .ok 0 := by
  refine ⟨clear 0, (query (clear 0) 1 (.s1 (some 300)) .throw).1, .s1 (some 300), rfl, ?_, ?_⟩
  · simp [query, CV.validate, clear, CV.default, feq]
  · simp [query, CV.validate, clear, CV.default, feq]

/-- Finding: two methods sharing an id, or one method using two overloads, can be told a value is valid that was
computed for another temperature-like state: the key must be the same overload. -/
theorem cache_mixed_overloads :
    ∃ (c1 c2 : Cache ℕ), query (clear 0) 1 (.s12 (some 300) (some 1)) (.ok 7) = (c1, .ok 7) ∧
      query c1 1 (.s1 (some 400)) (.ok 8) = (c2, .ok 8) ∧
      (query c2 1 (.s12 (some 400) (some 1)) (.ok 9)).2 = .ok 8 := by
  refine ⟨(query (clear 0) 1 (.s12 (some 300) (some 1)) (.ok 7)).1,
    (query (query (clear 0) 1 (.s12 (some 300) (some 1)) (.ok 7)).1 1 (.s1 (some 400)) (.ok 8)).1, ?_, ?_, ?_⟩
  · simp [query, CV.validate, clear, CV.default, feq]
  · simp [query, CV.validate, clear, CV.default, feq]
  · simp [query, CV.validate, clear, CV.default, feq]

/-- Finding: a method that caches on `stateNum` alone is told its default value is valid for stateNum INT_MIN. -/
theorem cache_intMin_default : (query (clear 0) 1 (.num intMin) (.ok 42)).2 = .ok 0 := by
  simp [query, CV.validate, clear, CV.default]

theorem getIds_gt (n : ℕ) (last : ℤ) (l : List ℤ) (h : getIds last n = .ok l) : ∀ i ∈ l, last < i := by
  induction n generalizing last l with
  | zero => simp [getIds] at h; subst h; simp
  | succ n ih =>
    simp only [getIds, getId] at h
    split_ifs at h with hc
    · simp only [Outcome.bind_ok] at h
      cases hr : getIds (last + 1) n with
      | ok l' =>
        rw [hr] at h; simp at h; subst h
        intro i hi
        rcases List.mem_cons.1 hi with rfl | hi
        · omega
        · have := ih _ _ hr i hi; omega
      | throw => rw [hr] at h; simp at h
      | ub => rw [hr] at h; simp at h
    · simp at h

/-- Ids handed out by any number of calls are pairwise different (while the counter does not overflow). -/
theorem cache_ids_distinct (n : ℕ) (last : ℤ) (l : List ℤ) (h : getIds last n = .ok l) :
    l.length = n ∧ l.Pairwise (· ≠ ·) := by
  induction n generalizing last l with
  | zero => simp [getIds] at h; subst h; simp
  | succ n ih =>
    simp only [getIds, getId] at h
    split_ifs at h with hc
    · simp only [Outcome.bind_ok] at h
      cases hr : getIds (last + 1) n with
      | ok l' =>
        rw [hr] at h; simp at h; subst h
        obtain ⟨h1, h2⟩ := ih _ _ hr
        refine ⟨by simp [h1], List.Pairwise.cons ?_ h2⟩
        intro i hi
        have := getIds_gt n _ _ hr i hi
        omega
      | throw => rw [hr] at h; simp at h
      | ub => rw [hr] at h; simp at h
    · simp at h

example : getIds 0 3 = .ok [1, 2, 3] := by decide

end Verif.ValueCache
