import Verif.Basic
import Mathlib.Data.Real.Basic
import Mathlib.Data.List.Induction
import Mathlib.Tactic.Common
import Mathlib.Tactic.SplitIfs
import Mathlib.Tactic.Linarith
import Mathlib.Tactic.NormNum

/-!
# C41: the species thermo manager (src/thermo/MultiSpeciesThermo.cpp:21-220)

Parameterisations are an arbitrary type `S`, the temperature polynomial an arbitrary type `P`, the
three properties cp/R, h/RT, s/R one value of type `V`.  Species indices are `Nat`, parameterisation
types `Int`.  Null pointers (throw) are not modelled.  `AssertThrowMsg` is compiled only without
`NDEBUG` (ctexceptions.h:231-240): the model has a flag `debug`.  Two species sharing one
parameterisation object are not modelled.
-/

namespace Verif.SpThermo

open Verif

/-- What the manager uses of a parameterisation. -/
structure Iface (S P V : Type) where
  type : S → Int
  minT : S → ℝ
  maxT : S → ℝ
  p0 : S → ℝ
  tpoly : S → ℝ → P
  props : S → P → V
  single : S → ℝ → V

variable {S P V : Type}

/-- Parameterisations of one type agree on the temperature polynomial, and evaluating through it is
`updatePropertiesTemp`. -/
def Iface.Lawful (I : Iface S P V) : Prop :=
  ∀ s s' t, I.type s = I.type s' → I.props s (I.tpoly s' t) = I.single s t

/-- Members (MultiSpeciesThermo.h): `m_sp` (with its keys in iteration order), `m_speciesLoc`,
`m_p0`, `m_tlow_max`, `m_thigh_min`, `m_installed`. -/
structure Mgr (S : Type) where
  keys : List Int
  sp : Int → List (Nat × S)
  loc : Nat → Option (Int × Nat)
  p0 : ℝ
  tlow : ℝ
  thigh : ℝ
  installed : List Bool

/-- MultiSpeciesThermo.h: initial values `m_tlow_max = 0`, `m_thigh_min = 1e30`, `m_p0 = 0`. -/
noncomputable def Mgr.empty : Mgr S := ⟨[], fun _ => [], fun _ => none, 0, 0, 10 ^ 30, []⟩

/-- `std::map` iterates over keys in ascending order. -/
def insertKey (a : Int) : List Int → List Int
  | [] => [a]
  | b :: l => if a = b then b :: l else if a < b then a :: b :: l else b :: insertKey a l

/-- markInstalled (MultiSpeciesThermo.cpp:215-220) -/
def markInstalled (l : List Bool) (k : Nat) : List Bool :=
  (if l.length ≤ k then l ++ List.replicate (k + 1 - l.length) false else l).set k true

variable (I : Iface S P V)

open Classical in
/-- install_STIT after its checks (MultiSpeciesThermo.cpp:31-33, 40-50) -/
noncomputable def Mgr.put (M : Mgr S) (k : Nat) (s : S) : Mgr S :=
  { keys := insertKey (I.type s) M.keys
    sp := fun t => if t = I.type s then M.sp t ++ [(k, s)] else M.sp t
    loc := fun i => if i = k then some (I.type s, (M.sp (I.type s)).length) else M.loc i
    p0 := if M.p0 = 0 then I.p0 s else M.p0
    tlow := max (I.minT s) M.tlow
    thigh := min (I.maxT s) M.thigh
    installed := markInstalled M.installed k }

open Classical in
/-- install_STIT (MultiSpeciesThermo.cpp:21-51) -/
noncomputable def Mgr.install (debug : Bool) (M : Mgr S) (k : Nat) (s : S) : Outcome (Mgr S) :=
  if debug = true ∧ M.loc k ≠ none then .throw
  else if M.p0 ≠ 0 ∧ |M.p0 - I.p0 s| > 1 / 10 ^ 6 then .throw
  else .ok (M.put I k s)

open Classical in
/-- modifySpecies (MultiSpeciesThermo.cpp:53-83).  Writing past the end of the vector is undefined. -/
noncomputable def Mgr.modify (M : Mgr S) (k : Nat) (s : S) : Outcome (Mgr S) :=
  match M.loc k with
  | none => .throw
  | some (t, j) =>
    if t ≠ I.type s then .throw
    else if I.minT s > M.tlow then .throw
    else if I.maxT s < M.thigh then .throw
    else if j < (M.sp t).length then
      .ok { M with sp := fun t' => if t' = t then (M.sp t).set j (k, s) else M.sp t' }
    else .ub

/-- provideSTIT (MultiSpeciesThermo.cpp:157-175).  `m_sp.at` throws for an unknown type, which is
caught; the vector index is not checked. -/
def Mgr.provide (M : Mgr S) (k : Nat) : Outcome (Option S) :=
  match M.loc k with
  | none => .ok none
  | some (t, j) =>
    if t ∈ M.keys then
      match (M.sp t)[j]? with
      | some e => .ok (some e.2)
      | none => .ub
    else .ok none

/-- In-place changes through `provideSTIT` such as modifyOneHf298 and resetHf298
(MultiSpeciesThermo.cpp:187-201). -/
def Mgr.alter (M : Mgr S) (k : Nat) (f : S → S) : Outcome (Mgr S) :=
  match M.loc k with
  | none => .ok M
  | some (t, j) =>
    if t ∈ M.keys then
      match (M.sp t)[j]? with
      | some e => .ok { M with
          sp := fun t' => if t' = t then (M.sp t).set j (e.1, f e.2) else M.sp t' }
      | none => .ub
    else .ok M

/-- The inner loop of update (MultiSpeciesThermo.cpp:102-104). -/
def writeAll (p : P) (l : List (Nat × S)) (out : Nat → Option V) : Nat → Option V :=
  l.foldl (fun out e => fun i => if i = e.1 then some (I.props e.2 p) else out i) out

/-- The outer loop of update (MultiSpeciesThermo.cpp:96-105); `species[0]` of an empty vector is
undefined. -/
def updateKeys (M : Mgr S) (t : ℝ) : List Int → (Nat → Option V) → Outcome (Nat → Option V)
  | [], out => .ok out
  | a :: l, out =>
    match M.sp a with
    | [] => .ub
    | e :: es => updateKeys M t l (writeAll I (I.tpoly e.2 t) (e :: es) out)

/-- update (MultiSpeciesThermo.cpp:94-106) -/
def Mgr.update (M : Mgr S) (t : ℝ) (out : Nat → Option V) : Outcome (Nat → Option V) :=
  updateKeys I M t M.keys out

/-- update_single (MultiSpeciesThermo.cpp:85-92) -/
def Mgr.updateSingle (M : Mgr S) (k : Nat) (t : ℝ) : Outcome (Option V) :=
  match M.provide k with
  | .ok (some s) => .ok (some (I.single s t))
  | .ok none => .ok none
  | .throw => .throw
  | .ub => .ub

/-- ready (MultiSpeciesThermo.cpp:203-213) -/
def Mgr.ready (M : Mgr S) (n : Nat) : Bool :=
  if M.installed.length < n then false
  else (List.range n).all (fun k => M.installed.getD k false)

/-- Calls. -/
inductive Op (S : Type) where
  | install (k : Nat) (s : S)
  | modify (k : Nat) (s : S)
  | alter (k : Nat) (f : S → S)

/-- A call that throws leaves the manager as it is: the throws in `install_STIT` and `modifySpecies`
precede every assignment (MultiSpeciesThermo.cpp:24-39, 56-80).  The second component is the table
the caller believes to be installed. -/
noncomputable def step (debug : Bool) (m : Mgr S × (Nat → Option S)) : Op S → Mgr S × (Nat → Option S)
  | .install k s => match m.1.install I debug k s with
    | .ok M => (M, fun i => if i = k then some s else m.2 i)
    | _ => m
  | .modify k s => match m.1.modify I k s with
    | .ok M => (M, fun i => if i = k then some s else m.2 i)
    | _ => m
  | .alter k f => match m.1.alter k f with
    | .ok M => (M, fun i => if i = k then (m.2 i).map f else m.2 i)
    | _ => m

/-- A history. -/
noncomputable def run (debug : Bool) (ops : List (Op S)) : Mgr S × (Nat → Option S) :=
  ops.foldl (step I debug) (Mgr.empty, fun _ => none)

/-- In-place changes keep type and range. -/
def Tame (ops : List (Op S)) : Prop :=
  ∀ k f, Op.alter k f ∈ ops → ∀ s, I.type (f s) = I.type s ∧ I.minT (f s) = I.minT s ∧
    I.maxT (f s) = I.maxT s ∧ I.p0 (f s) = I.p0 s

/-! ### Lemmas -/

theorem mem_insertKey (a b : Int) (l : List Int) : b ∈ insertKey a l ↔ b = a ∨ b ∈ l := by
  induction l with
  | nil => simp [insertKey]
  | cons c l ih =>
    unfold insertKey
    split_ifs with h1 h2
    · simp only [h1, List.mem_cons]
      tauto
    · simp
    · simp only [List.mem_cons, ih]; tauto

theorem getD_markInstalled (l : List Bool) (k i : Nat) :
    (markInstalled l k).getD i false = if i = k then true else l.getD i false := by
  unfold markInstalled
  simp only [List.getD_eq_getElem?_getD, List.getElem?_set]
  by_cases h : k = i
  · subst h
    simp only [if_true]
    split_ifs with h1 h2 h3 <;> simp_all
    omega
  · have h' : i ≠ k := fun e => h e.symm
    simp only [h, h', if_false]
    split_ifs with h1
    · rw [List.getElem?_append]
      split_ifs with h2
      · rfl
      · rw [List.getElem?_replicate, List.getElem?_eq_none (by omega)]
        split_ifs <;> rfl
    · rfl

/-- Invariant of the manager in both builds. -/
structure Inv (M : Mgr S) (tab : Nat → Option S) : Prop where
  known : ∀ (k : Nat) (s : S), tab k = some s → ∃ (j : Nat), M.loc k = some (I.type s, j) ∧
    (M.sp (I.type s))[j]? = some (k, s)
  unknown : ∀ k, tab k = none → M.loc k = none
  ty : ∀ (t : Int), ∀ e ∈ M.sp t, I.type e.2 = t
  keys : ∀ t, t ∈ M.keys ↔ M.sp t ≠ []
  low : ∀ k s, tab k = some s → I.minT s ≤ M.tlow
  high : ∀ k s, tab k = some s → M.thigh ≤ I.maxT s
  inst : ∀ k, M.installed.getD k false = (tab k).isSome

/-- Extra invariant when no species is installed twice. -/
def Once (M : Mgr S) : Prop :=
  ∀ (t : Int) (j k : Nat) (s : S), (M.sp t)[j]? = some (k, s) → M.loc k = some (t, j)

theorem inv_empty : Inv I (Mgr.empty : Mgr S) (fun _ => none) :=
  ⟨by simp, by simp [Mgr.empty], by simp [Mgr.empty], by simp [Mgr.empty], by simp, by simp,
   by simp [Mgr.empty]⟩

theorem once_empty : Once (Mgr.empty : Mgr S) := by
  intro t j k s h; simp [Mgr.empty] at h

variable {I}

theorem inv_install {debug : Bool} {M M' : Mgr S} {tab : Nat → Option S} (h : Inv I M tab) (k : Nat)
    (s : S) (hs : M.install I debug k s = .ok M') :
    Inv I M' (fun i => if i = k then some s else tab i) ∧
    (Once M → M.loc k = none → Once M') := by
  unfold Mgr.install at hs
  split_ifs at hs with h1 h2
  simp only [Outcome.ok.injEq] at hs
  subst hs
  unfold Mgr.put
  refine ⟨⟨?_, ?_, ?_, ?_, ?_, ?_, ?_⟩, ?_⟩
  · intro i q hi
    by_cases hik : i = k
    · subst hik
      simp only [if_true, Option.some.injEq] at hi
      subst hi
      exact ⟨(M.sp (I.type s)).length, by simp, by simp⟩
    · simp only [hik, if_false] at hi
      obtain ⟨j, a, b⟩ := h.known i q hi
      refine ⟨j, by simp [hik, a], ?_⟩
      have hj := (List.getElem?_eq_some_iff.mp b).1
      simp only
      split_ifs with ht
      · rw [List.getElem?_append_left hj]; exact b
      · exact b
  · intro i hi
    by_cases hik : i = k
    · simp [hik] at hi
    · simp only [hik, if_false] at hi ⊢
      exact h.unknown i hi
  · intro t e he
    simp only at he
    split_ifs at he with ht
    · rcases List.mem_append.mp he with h3 | h3
      · exact h.ty t e h3
      · simp only [List.mem_singleton] at h3
        rw [h3, ht]
    · exact h.ty t e he
  · intro t
    simp only [mem_insertKey]
    by_cases ht : t = I.type s
    · simp [ht]
    · simp [ht, h.keys t]
  · intro i q hi
    by_cases hik : i = k
    · simp only [hik, if_true, Option.some.injEq] at hi
      subst hi; exact le_max_left _ _
    · simp only [hik, if_false] at hi
      exact (h.low i q hi).trans (le_max_right _ _)
  · intro i q hi
    by_cases hik : i = k
    · simp only [hik, if_true, Option.some.injEq] at hi
      subst hi; exact min_le_left _ _
    · simp only [hik, if_false] at hi
      exact (min_le_right _ _).trans (h.high i q hi)
  · intro i
    simp only [getD_markInstalled, h.inst]
    split_ifs <;> rfl
  · intro ho hn t j i q hj
    simp only at hj ⊢
    have hk : ∀ (t : Int) (j : Nat) (q : S), (M.sp t)[j]? ≠ some (k, q) := by
      intro t j q hc
      have := ho t j k q hc
      rw [hn] at this; simp at this
    split_ifs at hj with ht
    · subst ht
      by_cases hlt : j < (M.sp (I.type s)).length
      · rw [List.getElem?_append_left hlt] at hj
        have hik : i ≠ k := by rintro rfl; exact hk _ _ _ hj
        simp only [hik, if_false]
        exact ho _ _ _ _ hj
      · rw [List.getElem?_append_right (by omega)] at hj
        have hj' : j = (M.sp (I.type s)).length := by
          have := (List.getElem?_eq_some_iff.mp hj).1; simp at this; omega
        subst hj'
        simp only [Nat.sub_self, List.getElem?_cons_zero, Option.some.injEq, Prod.mk.injEq] at hj
        simp [hj.1]
    · have hik : i ≠ k := by rintro rfl; exact hk _ _ _ hj
      simp only [hik, if_false]
      exact ho _ _ _ _ hj

/-- Replacing the entry of a known species in place. -/
theorem inv_set {M : Mgr S} {tab : Nat → Option S} (h : Inv I M tab) (k : Nat) (s s0 : S) (j : Nat)
    (hk : tab k = some s0) (hloc : M.loc k = some (I.type s, j)) (htype : I.type s = I.type s0)
    (hlow : I.minT s ≤ M.tlow) (hhigh : M.thigh ≤ I.maxT s) :
    Inv I { M with sp := fun t' => if t' = I.type s then (M.sp (I.type s)).set j (k, s) else M.sp t' }
      (fun i => if i = k then some s else tab i) ∧
    (Once M → Once { M with
      sp := fun t' => if t' = I.type s then (M.sp (I.type s)).set j (k, s) else M.sp t' }) := by
  have hj : (M.sp (I.type s))[j]? = some (k, s0) := by
    obtain ⟨j', a, b⟩ := h.known k s0 hk
    rw [hloc] at a
    simp only [Option.some.injEq, Prod.mk.injEq] at a
    rw [← a.2, ← htype] at b; exact b
  have hlt := (List.getElem?_eq_some_iff.mp hj).1
  refine ⟨⟨?_, ?_, ?_, ?_, ?_, ?_, ?_⟩, ?_⟩
  · intro i q hi
    by_cases hik : i = k
    · subst hik
      simp only [if_true, Option.some.injEq] at hi
      subst hi
      refine ⟨j, hloc, ?_⟩
      simp [hlt]
    · simp only [hik, if_false] at hi
      obtain ⟨j', a, b⟩ := h.known i q hi
      refine ⟨j', a, ?_⟩
      simp only
      split_ifs with ht
      · rw [List.getElem?_set]
        split_ifs with hjj
        · exfalso
          subst hjj
          rw [← ht, b] at hj
          simp only [Option.some.injEq, Prod.mk.injEq] at hj
          exact hik hj.1
        · rw [← ht]; exact b
      · exact b
  · intro i hi
    by_cases hik : i = k
    · simp [hik] at hi
    · simp only [hik, if_false] at hi
      exact h.unknown i hi
  · intro t e he
    simp only at he
    split_ifs at he with ht
    · rcases List.mem_or_eq_of_mem_set he with h3 | h3
      · rw [ht]; exact h.ty _ e h3
      · rw [h3, ht]
    · exact h.ty t e he
  · intro t
    simp only [h.keys t]
    split_ifs with ht
    · subst ht
      simp [List.set_eq_nil_iff]
    · rfl
  · intro i q hi
    by_cases hik : i = k
    · simp only [hik, if_true, Option.some.injEq] at hi
      subst hi; exact hlow
    · simp only [hik, if_false] at hi
      exact h.low i q hi
  · intro i q hi
    by_cases hik : i = k
    · simp only [hik, if_true, Option.some.injEq] at hi
      subst hi; exact hhigh
    · simp only [hik, if_false] at hi
      exact h.high i q hi
  · intro i
    simp only [h.inst]
    split_ifs with hik
    · simp [hik, hk]
    · rfl
  · intro ho t j' i q hj'
    simp only at hj' ⊢
    split_ifs at hj' with ht
    · rw [List.getElem?_set] at hj'
      split_ifs at hj' with h1
      · simp only [Option.some.injEq, Prod.mk.injEq] at hj'
        rw [← hj'.1, hloc, ← h1, ht]
      · rw [ht]; exact ho _ _ _ _ hj'
    · exact ho _ _ _ _ hj'

theorem inv_modify {M M' : Mgr S} {tab : Nat → Option S} (h : Inv I M tab) (k : Nat)
    (s : S) (hs : M.modify I k s = .ok M') :
    Inv I M' (fun i => if i = k then some s else tab i) ∧ (Once M → Once M') := by
  unfold Mgr.modify at hs
  cases hl : M.loc k with
  | none => simp [hl] at hs
  | some x =>
    obtain ⟨t, j⟩ := x
    simp only [hl] at hs
    split_ifs at hs with h1 h2 h3 h4
    push Not at h1 h2 h3
    subst h1
    simp only [Outcome.ok.injEq] at hs
    subst hs
    cases ht : tab k with
    | none => have := h.unknown k ht; rw [this] at hl; simp at hl
    | some s0 =>
      obtain ⟨j', a, b⟩ := h.known k s0 ht
      rw [hl] at a
      simp only [Option.some.injEq, Prod.mk.injEq] at a
      exact inv_set h k s s0 j ht hl a.1 h2 h3

theorem modify_no_ub {M : Mgr S} {tab : Nat → Option S} (h : Inv I M tab) (k : Nat) (s : S) :
    M.modify I k s ≠ .ub := by
  unfold Mgr.modify
  cases hl : M.loc k with
  | none => simp
  | some x =>
    obtain ⟨t, j⟩ := x
    simp only
    split_ifs with h1 h2 h3 h4 <;> simp_all
    cases ht : tab k with
    | none => have := h.unknown k ht; rw [this] at hl; simp at hl
    | some s0 =>
      obtain ⟨j', a, b⟩ := h.known k s0 ht
      rw [hl] at a
      simp only [Option.some.injEq, Prod.mk.injEq] at a
      have := (List.getElem?_eq_some_iff.mp b).1
      rw [← a.1, ← a.2] at this
      omega

theorem inv_provide {M : Mgr S} {tab : Nat → Option S} (h : Inv I M tab) (k : Nat) :
    M.provide k = .ok (tab k) := by
  unfold Mgr.provide
  cases ht : tab k with
  | none => simp [h.unknown k ht]
  | some s0 =>
    obtain ⟨j', a, b⟩ := h.known k s0 ht
    have hne : M.sp (I.type s0) ≠ [] := by intro hn; rw [hn] at b; simp at b
    have hmem := (h.keys _).mpr hne
    simp [a, hmem, b]

theorem inv_alter {M : Mgr S} {tab : Nat → Option S} (h : Inv I M tab) (k : Nat) (f : S → S)
    (hf : ∀ s, I.type (f s) = I.type s ∧ I.minT (f s) = I.minT s ∧ I.maxT (f s) = I.maxT s) :
    ∃ M', M.alter k f = .ok M' ∧ Inv I M' (fun i => if i = k then (tab i).map f else tab i) ∧
      (Once M → Once M') := by
  unfold Mgr.alter
  cases ht : tab k with
  | none =>
    have e : (fun i => if i = k then (tab i).map f else tab i) = tab := by
      funext i; split_ifs with hi
      · simp [hi, ht]
      · rfl
    rw [e]
    exact ⟨M, by simp [h.unknown k ht], h, id⟩
  | some s0 =>
    obtain ⟨j, a, b⟩ := h.known k s0 ht
    have hne : M.sp (I.type s0) ≠ [] := by intro hn; rw [hn] at b; simp at b
    have hmem := (h.keys _).mpr hne
    have hset := inv_set h k (f s0) s0 j ht (by rw [a, (hf s0).1]) (hf s0).1
      (by rw [(hf s0).2.1]; exact h.low k s0 ht) (by rw [(hf s0).2.2]; exact h.high k s0 ht)
    have e : (fun i => if i = k then (tab i).map f else tab i)
        = (fun i => if i = k then some (f s0) else tab i) := by
      funext i; split_ifs with hi
      · simp [hi, ht]
      · rfl
    rw [e]
    refine ⟨_, by simp only [a, hmem, if_true, b]; rfl, ?_⟩
    rw [(hf s0).1] at hset
    exact hset

theorem run_inv (debug : Bool) (ops : List (Op S)) (hf : Tame I ops) :
    Inv I (run I debug ops).1 (run I debug ops).2 ∧
    (debug = true → Once (run I debug ops).1) := by
  unfold run
  suffices hh : ∀ (l : List (Op S)) (m : Mgr S × (Nat → Option S)), (∀ o ∈ l, o ∈ ops) →
      Inv I m.1 m.2 → (debug = true → Once m.1) →
      Inv I (l.foldl (step I debug) m).1 (l.foldl (step I debug) m).2 ∧
      (debug = true → Once (l.foldl (step I debug) m).1) from
    hh ops _ (fun _ h => h) (inv_empty I) (fun _ => once_empty)
  intro l
  induction l with
  | nil => intro m _ h ho; exact ⟨h, ho⟩
  | cons o l ih =>
    intro m hsub h ho
    simp only [List.foldl_cons]
    have hmem := hsub o (by simp)
    have key : Inv I (step I debug m o).1 (step I debug m o).2 ∧
        (debug = true → Once (step I debug m o).1) := by
      cases o with
      | install k s =>
        simp only [step]
        cases e : m.1.install I debug k s with
        | ok M =>
          obtain ⟨x, y⟩ := inv_install h k s e
          refine ⟨x, fun hd => y (ho hd) ?_⟩
          unfold Mgr.install at e
          split_ifs at e with h1 h2
          by_contra hc
          exact h1 ⟨hd, hc⟩
        | throw => exact ⟨h, ho⟩
        | ub => exact ⟨h, ho⟩
      | modify k s =>
        simp only [step]
        cases e : m.1.modify I k s with
        | ok M =>
          obtain ⟨x, y⟩ := inv_modify h k s e
          exact ⟨x, fun hd => y (ho hd)⟩
        | throw => exact ⟨h, ho⟩
        | ub => exact ⟨h, ho⟩
      | alter k f =>
        have hfk := hf k f hmem
        obtain ⟨M', e, x, y⟩ := inv_alter h k f (fun s => ⟨(hfk s).1, (hfk s).2.1, (hfk s).2.2.1⟩)
        simp only [step]
        rw [e]
        exact ⟨x, fun hd => y (ho hd)⟩
    exact ih _ (fun o' ho' => hsub o' (by simp [ho'])) key.1 key.2

theorem writeAll_value (p : P) (l : List (Nat × S)) (out : Nat → Option V) (i : Nat) :
    (∀ s, (i, s) ∉ l) ∧ writeAll I p l out i = out i ∨
    ∃ s, (i, s) ∈ l ∧ writeAll I p l out i = some (I.props s p) := by
  induction l using List.reverseRecOn with
  | nil => left; simp [writeAll]
  | append_singleton l e ih =>
    have hw : writeAll I p (l ++ [e]) out i
        = if i = e.1 then some (I.props e.2 p) else writeAll I p l out i := by
      simp [writeAll, List.foldl_append]
    rw [hw]
    by_cases hi : i = e.1
    · right
      exact ⟨e.2, by simp [hi], by simp [hi]⟩
    · simp only [hi, if_false]
      rcases ih with ⟨a, b⟩ | ⟨s, a, b⟩
      · left
        refine ⟨fun s hs => ?_, b⟩
        rcases List.mem_append.mp hs with h1 | h1
        · exact a s h1
        · simp only [List.mem_singleton] at h1
          exact hi (by rw [← h1])
      · right
        exact ⟨s, by simp [a], b⟩

theorem updateKeys_value (hI : I.Lawful) {M : Mgr S} (hne : ∀ t, t ∈ M.keys → M.sp t ≠ [])
    (hty : ∀ (t : Int), ∀ e ∈ M.sp t, I.type e.2 = t) (T : ℝ) :
    ∀ (l : List Int) (out : Nat → Option V), (∀ t ∈ l, t ∈ M.keys) → ∃ res,
      updateKeys I M T l out = .ok res ∧ ∀ i,
        ((∀ t ∈ l, ∀ s, (i, s) ∉ M.sp t) ∧ res i = out i) ∨
        ∃ t ∈ l, ∃ s, (i, s) ∈ M.sp t ∧ res i = some (I.single s T) := by
  intro l
  induction l with
  | nil => intro out _; exact ⟨out, rfl, fun i => Or.inl ⟨by simp, rfl⟩⟩
  | cons t l ih =>
    intro out hl
    unfold updateKeys
    cases hs : M.sp t with
    | nil => exact absurd hs (hne t (hl t (by simp)))
    | cons e es =>
      simp only
      obtain ⟨res, h1, h2⟩ := ih (writeAll I (I.tpoly e.2 T) (e :: es) out)
        (fun t' ht' => hl t' (by simp [ht']))
      refine ⟨res, h1, fun i => ?_⟩
      rcases h2 i with ⟨a, b⟩ | ⟨t', ht', s, a, b⟩
      · rcases writeAll_value (I := I) (I.tpoly e.2 T) (e :: es) out i with ⟨c, d⟩ | ⟨s, c, d⟩
        · left
          refine ⟨?_, by rw [b, d]⟩
          intro t' ht'
          rcases List.mem_cons.mp ht' with rfl | ht'
          · rw [hs]; exact c
          · exact a t' ht'
        · right
          refine ⟨t, by simp, s, by rw [hs]; exact c, ?_⟩
          rw [b, d]
          congr 1
          refine hI s e.2 T ?_
          rw [hty t (i, s) (by rw [hs]; exact c), hty t e (by rw [hs]; simp)]
      · right
        exact ⟨t', by simp [ht'], s, a, b⟩

/-! ### Properties -/

variable (I)

/-- Looking a species up gives the parameterisation last successfully installed or modified for it,
in both builds, and no call has undefined behaviour. -/
theorem provide_latest (debug : Bool) (ops : List (Op S)) (hf : Tame I ops) (k : Nat) :
    (run I debug ops).1.provide k = .ok ((run I debug ops).2 k) ∧
    ∀ s, (run I debug ops).1.modify I k s ≠ .ub :=
  ⟨inv_provide (run_inv debug ops hf).1 k, fun s => modify_no_ub (run_inv debug ops hf).1 k s⟩

/-- The phase temperature range lies inside the range of every species, after any history. -/
theorem range_contained (debug : Bool) (ops : List (Op S)) (hf : Tame I ops) (k : Nat) (s : S)
    (h : (run I debug ops).2 k = some s) :
    I.minT s ≤ (run I debug ops).1.tlow ∧ (run I debug ops).1.thigh ≤ I.maxT s :=
  ⟨(run_inv debug ops hf).1.low k s h, (run_inv debug ops hf).1.high k s h⟩

/-- `ready n` says exactly that species `0 … n-1` all have a parameterisation. -/
theorem ready_iff (debug : Bool) (ops : List (Op S)) (hf : Tame I ops) (n : Nat) :
    (run I debug ops).1.ready n = true ↔ ∀ k, k < n → (run I debug ops).2 k ≠ none := by
  have h := (run_inv debug ops hf).1.inst
  unfold Mgr.ready
  split_ifs with h1
  · simp only [false_iff, not_forall]
    refine ⟨(run I debug ops).1.installed.length, h1, ?_⟩
    have := h (run I debug ops).1.installed.length
    simp only [List.getD_eq_getElem?_getD, List.getElem?_eq_none le_rfl, Option.getD_none] at this
    cases hh : (run I debug ops).2 (run I debug ops).1.installed.length with
    | none => simp
    | some s => rw [hh] at this; simp at this
  · simp only [List.all_eq_true, List.mem_range, h]
    constructor
    · intro hh k hk hn
      have := hh k hk; rw [hn] at this; simp at this
    · intro hh k hk
      cases e : (run I debug ops).2 k with
      | none => exact absurd e (hh k hk)
      | some s => rfl

/-- In a build with assertions: `update` writes for every species the properties of its own
parameterisation, whatever the order and mix of types, and touches no other entry; it agrees with
`update_single`.  Missing: builds with `NDEBUG` when a species is installed twice, see
`release_duplicate`. -/
theorem update_dispatch_partial (hI : I.Lawful) (ops : List (Op S)) (hf : Tame I ops) (T : ℝ)
    (out : Nat → Option V) : ∃ res, (run I true ops).1.update I T out = .ok res ∧ ∀ k,
      res k = (match (run I true ops).2 k with
        | some s => some (I.single s T)
        | none => out k) ∧
      (run I true ops).1.updateSingle I k T = .ok (((run I true ops).2 k).map (fun s => I.single s T)) := by
  obtain ⟨h, ho⟩ := run_inv true ops hf
  obtain ⟨res, h1, h2⟩ := updateKeys_value hI (fun t => (h.keys t).mp) h.ty T
    (run I true ops).1.keys out (fun _ x => x)
  refine ⟨res, h1, fun k => ⟨?_, ?_⟩⟩
  · rcases h2 k with ⟨a, b⟩ | ⟨t, ht, s, a, b⟩
    · cases hk : (run I true ops).2 k with
      | none => exact b
      | some s =>
        obtain ⟨j, c, d⟩ := h.known k s hk
        have hmem := List.mem_of_getElem? d
        have hne : (run I true ops).1.sp (I.type s) ≠ [] := fun e => by rw [e] at hmem; simp at hmem
        exact absurd hmem (a _ ((h.keys _).mpr hne) s)
    · obtain ⟨j, hj⟩ := List.getElem?_of_mem a
      have hloc := ho rfl t j k s hj
      cases hk : (run I true ops).2 k with
      | none => rw [h.unknown k hk] at hloc; simp at hloc
      | some s' =>
        obtain ⟨j', c, d⟩ := h.known k s' hk
        rw [hloc] at c
        simp only [Option.some.injEq, Prod.mk.injEq] at c
        rw [← c.1, ← c.2, hj] at d
        simp only [Option.some.injEq, Prod.mk.injEq, true_and] at d
        rw [b, d]
  · unfold Mgr.updateSingle
    rw [inv_provide h k]
    cases (run I true ops).2 k <;> rfl

/-- A second installation of a species is rejected in a build with assertions and accepted without. -/
theorem duplicate_install (ops : List (Op S)) (hf : Tame I ops) (k : Nat) (s s0 : S)
    (hk : (run I true ops).2 k = some s0) : (run I true ops).1.install I true k s = .throw := by
  obtain ⟨j, a, _⟩ := (run_inv true ops hf).1.known k s0 hk
  simp [Mgr.install, a]

/-- All species accepted by `install_STIT` have the reference pressure of the phase to 1e-6 Pa.
Missing: `modifySpecies` does not check, see `modify_reference_pressure`. -/
theorem reference_pressure_partial (debug : Bool) (ops : List (Op S))
    (hmod : ∀ k s, Op.modify k s ∉ ops) (hf : Tame I ops)
    (hp : ∀ k s, Op.install k s ∈ ops → 0 < I.p0 s) (k : Nat) (s : S)
    (hk : (run I debug ops).2 k = some s) : |(run I debug ops).1.p0 - I.p0 s| ≤ 1 / 10 ^ 6 := by
  suffices hh : ∀ (l : List (Op S)), (∀ o ∈ l, o ∈ ops) →
      (∀ k s, (run I debug l).2 k = some s → |(run I debug l).1.p0 - I.p0 s| ≤ 1 / 10 ^ 6) ∧
      ((run I debug l).1.p0 = 0 → ∀ k, (run I debug l).2 k = none) from
    (hh ops (fun _ h => h)).1 k s hk
  intro l
  induction l using List.reverseRecOn with
  | nil => intro _; simp [run]
  | append_singleton l o ih =>
    intro hsub
    obtain ⟨i1, i2⟩ := ih (fun o' ho' => hsub o' (by simp [ho']))
    have hmem := hsub o (by simp)
    have e : run I debug (l ++ [o]) = step I debug (run I debug l) o := by
      unfold run; rw [List.foldl_append]; rfl
    rw [e]
    cases o with
    | modify k s => exact absurd hmem (hmod k s)
    | install k s =>
      simp only [step]
      cases h1 : (run I debug l).1.install I debug k s with
      | throw => exact ⟨i1, i2⟩
      | ub => exact ⟨i1, i2⟩
      | ok M =>
        unfold Mgr.install at h1
        split_ifs at h1 with a b
        simp only [Outcome.ok.injEq] at h1
        subst h1
        simp only [Mgr.put]
        have hpos := hp k s hmem
        by_cases h0 : (run I debug l).1.p0 = 0
        · simp only [h0, if_true]
          refine ⟨fun i q hi => ?_, fun hz => absurd hz hpos.ne'⟩
          split_ifs at hi with hik
          · simp only [Option.some.injEq] at hi
            subst hi; norm_num
          · rw [i2 h0 i] at hi; simp at hi
        · simp only [h0, if_false]
          refine ⟨fun i q hi => ?_, fun hz => absurd hz (by simp)⟩
          split_ifs at hi with hik
          · simp only [Option.some.injEq] at hi
            subst hi
            by_contra hc
            exact b ⟨h0, not_le.mp hc⟩
          · exact i1 i q hi
    | alter k f =>
      have hfk := hf k f hmem
      simp only [step]
      have hp0 : ∀ M, (run I debug l).1.alter k f = .ok M → M.p0 = (run I debug l).1.p0 := by
        intro M hM
        unfold Mgr.alter at hM
        split at hM
        · simp only [Outcome.ok.injEq] at hM; rw [hM]
        · split_ifs at hM
          · split at hM
            · simp only [Outcome.ok.injEq] at hM; rw [← hM]
            · simp at hM
          · simp only [Outcome.ok.injEq] at hM; rw [hM]
      cases h1 : (run I debug l).1.alter k f with
      | throw => exact ⟨i1, i2⟩
      | ub => exact ⟨i1, i2⟩
      | ok M =>
        simp only
        rw [hp0 M h1]
        refine ⟨fun i q hi => ?_, fun hz i => ?_⟩
        · split_ifs at hi with hik
          · rw [Option.map_eq_some_iff] at hi
            obtain ⟨q0, hq, rfl⟩ := hi
            rw [(hfk q0).2.2.2]; exact i1 i q0 hq
          · exact i1 i q hi
        · split_ifs
          · rw [i2 hz i]; rfl
          · exact i2 hz i

/-! ### Findings -/

/-- Parameterisations of the examples: type, range, reference pressure, value. -/
structure Demo where
  type : Int
  lo : ℝ
  hi : ℝ
  p0 : ℝ
  val : ℝ

/-- Constant properties. -/
def demo : Iface Demo Unit ℝ :=
  ⟨Demo.type, Demo.lo, Demo.hi, Demo.p0, fun _ _ => (), fun s _ => s.val, fun s _ => s.val⟩

theorem demo_lawful : demo.Lawful := fun _ _ _ _ => rfl

/-- **Finding.** Without assertions, installing a second parameterisation of a smaller type number for
a species is accepted, `provideSTIT` and `update_single` use the new one, but `update` keeps
returning the values of the old one. -/
theorem release_duplicate :
    let ops : List (Op Demo) := [.install 0 ⟨5, 0, 10, 1, 1⟩, .install 0 ⟨4, 0, 10, 1, 2⟩]
    (run demo false ops).1.updateSingle demo 0 300 = .ok (some 2) ∧
    ∃ res, (run demo false ops).1.update demo 300 (fun _ => none) = .ok res ∧ res 0 = some 1 := by
  constructor
  · simp [run, step, Mgr.install, Mgr.put, demo, Mgr.empty, Mgr.updateSingle, Mgr.provide, insertKey,
      show ¬ ((10:ℝ) ^ 6 < 0) by norm_num]
  · simp [run, step, Mgr.install, Mgr.put, demo, Mgr.empty, Mgr.update, insertKey, updateKeys, writeAll,
      show ¬ ((10:ℝ) ^ 6 < 0) by norm_num]

/-- **Finding.** After widening the range of the only species the reported range of the phase stays
the old, smaller one. -/
theorem modify_range_stale :
    let M := (run demo true [.install 0 ⟨4, 300, 1000, 1, 1⟩, .modify 0 ⟨4, 200, 2000, 1, 1⟩]).1
    M.provide 0 = .ok (some ⟨4, 200, 2000, 1, 1⟩) ∧ M.tlow = 300 ∧ M.thigh = 1000 := by
  refine ⟨?_, ?_, ?_⟩ <;>
  simp [run, step, Mgr.install, Mgr.put, Mgr.modify, demo, Mgr.empty, Mgr.provide, insertKey,
    show ¬ ((300:ℝ) < 200) by norm_num, show ¬ ((2000:ℝ) < 1000) by norm_num,
    show min (1000:ℝ) (10^30) = 1000 by norm_num]

/-- **Finding.** `modifySpecies` accepts a different reference pressure. -/
theorem modify_reference_pressure :
    let M := (run demo true [.install 0 ⟨4, 300, 1000, 1, 1⟩, .modify 0 ⟨4, 300, 1000, 7, 1⟩]).1
    M.provide 0 = .ok (some ⟨4, 300, 1000, 7, 1⟩) ∧ M.p0 = 1 := by
  refine ⟨?_, ?_⟩ <;>
  simp [run, step, Mgr.install, Mgr.put, Mgr.modify, demo, Mgr.empty, Mgr.provide, insertKey,
    show min (1000:ℝ) (10^30) = 1000 by norm_num]

/-- The range is exactly the intersection (with `[0, 1e30]`) as long as nothing is modified. -/
theorem range_exact_partial (debug : Bool) (ops : List (Op S)) (hf : Tame I ops)
    (hmod : ∀ k s, Op.modify k s ∉ ops) (hd : debug = true) :
    ((run I debug ops).1.tlow = 0 ∨ ∃ k s, (run I debug ops).2 k = some s ∧
      (run I debug ops).1.tlow = I.minT s) ∧
    ((run I debug ops).1.thigh = 10 ^ 30 ∨ ∃ k s, (run I debug ops).2 k = some s ∧
      (run I debug ops).1.thigh = I.maxT s) := by
  subst hd
  suffices hh : ∀ (l : List (Op S)), (∀ o ∈ l, o ∈ ops) →
    ((run I true l).1.tlow = 0 ∨ ∃ k s, (run I true l).2 k = some s ∧
      (run I true l).1.tlow = I.minT s) ∧
    ((run I true l).1.thigh = 10 ^ 30 ∨ ∃ k s, (run I true l).2 k = some s ∧
      (run I true l).1.thigh = I.maxT s) from hh ops (fun _ h => h)
  intro l
  induction l using List.reverseRecOn with
  | nil => intro _; simp [run, Mgr.empty]
  | append_singleton l o ih =>
    intro hsub
    have hsub' : ∀ o ∈ l, o ∈ ops := fun o' ho' => hsub o' (by simp [ho'])
    obtain ⟨i1, i2⟩ := ih hsub'
    have hfl : Tame I l := fun k f hm => hf k f (hsub' _ hm)
    have hinv := (run_inv (I := I) true l hfl).1
    have hmem := hsub o (by simp)
    have e : run I true (l ++ [o]) = step I true (run I true l) o := by
      unfold run; rw [List.foldl_append]; rfl
    rw [e]
    cases o with
    | modify k s => exact absurd hmem (hmod k s)
    | install k s =>
      simp only [step]
      cases h1 : (run I true l).1.install I true k s with
      | throw => exact ⟨i1, i2⟩
      | ub => exact ⟨i1, i2⟩
      | ok M =>
        unfold Mgr.install at h1
        split_ifs at h1 with a b
        simp only [Outcome.ok.injEq] at h1
        subst h1
        simp only [Mgr.put]
        simp only [true_and, ne_eq, not_not] at a
        have hnk : ∀ i s', (run I true l).2 i = some s' → i ≠ k := by
          rintro i s' hi rfl
          obtain ⟨j, x, _⟩ := hinv.known i s' hi
          rw [a] at x; simp at x
        constructor
        · rcases le_total (I.minT s) (run I true l).1.tlow with hle | hle
          · rw [max_eq_right hle]
            rcases i1 with h0 | ⟨i, s', hi, h0⟩
            · exact Or.inl h0
            · exact Or.inr ⟨i, s', by simp [hnk i s' hi, hi], h0⟩
          · rw [max_eq_left hle]
            exact Or.inr ⟨k, s, by simp, rfl⟩
        · rcases le_total (I.maxT s) (run I true l).1.thigh with hle | hle
          · rw [min_eq_left hle]
            exact Or.inr ⟨k, s, by simp, rfl⟩
          · rw [min_eq_right hle]
            rcases i2 with h0 | ⟨i, s', hi, h0⟩
            · exact Or.inl h0
            · exact Or.inr ⟨i, s', by simp [hnk i s' hi, hi], h0⟩
    | alter k f =>
      have hfk := hf k f hmem
      simp only [step]
      have hp0 : ∀ M, (run I true l).1.alter k f = .ok M →
          M.tlow = (run I true l).1.tlow ∧ M.thigh = (run I true l).1.thigh := by
        intro M hM
        unfold Mgr.alter at hM
        split at hM
        · simp only [Outcome.ok.injEq] at hM; rw [hM]; exact ⟨rfl, rfl⟩
        · split_ifs at hM
          · split at hM
            · simp only [Outcome.ok.injEq] at hM; rw [← hM]; exact ⟨rfl, rfl⟩
            · simp at hM
          · simp only [Outcome.ok.injEq] at hM; rw [hM]; exact ⟨rfl, rfl⟩
      cases h1 : (run I true l).1.alter k f with
      | throw => exact ⟨i1, i2⟩
      | ub => exact ⟨i1, i2⟩
      | ok M =>
        simp only
        rw [(hp0 M h1).1, (hp0 M h1).2]
        constructor
        · rcases i1 with h0 | ⟨i, s', hi, h0⟩
          · exact Or.inl h0
          · refine Or.inr ⟨i, if i = k then f s' else s', ?_, ?_⟩
            · split_ifs <;> simp [hi]
            · split_ifs
              · rw [(hfk s').2.1]; exact h0
              · exact h0
        · rcases i2 with h0 | ⟨i, s', hi, h0⟩
          · exact Or.inl h0
          · refine Or.inr ⟨i, if i = k then f s' else s', ?_, ?_⟩
            · split_ifs <;> simp [hi]
            · split_ifs
              · rw [(hfk s').2.2.1]; exact h0
              · exact h0

/-! ### Examples -/

/-- Two types, interleaved; a species is installed, one modified, one changed in place. -/
example : (run demo true [.install 3 ⟨5, 0, 10, 1, 1⟩, .install 0 ⟨4, 0, 10, 1, 2⟩,
    .install 1 ⟨5, 0, 10, 1, 3⟩, .modify 3 ⟨5, 0, 10, 1, 7⟩,
    .alter 0 (fun s => { s with val := 9 })]).2 0 = some ⟨4, 0, 10, 1, 9⟩ := by
  simp [run, step, Mgr.install, Mgr.put, Mgr.modify, Mgr.alter, demo, Mgr.empty, insertKey,
    show min (10:ℝ) (10^30) = 10 by norm_num, show ¬ ((10:ℝ) ^ 6 < 0) by norm_num]

example : Tame demo [Op.alter 0 (fun s => { s with val := 9 }), .install 0 ⟨4, 0, 10, 1, 2⟩] := by
  intro k f h s
  simp only [List.mem_cons, Op.alter.injEq, reduceCtorEq, List.not_mem_nil, or_false] at h
  rw [h.2]; exact ⟨rfl, rfl, rfl, rfl⟩

/-- The pressure check rejects. -/
example : (run demo true [.install 3 ⟨5, 0, 10, 1, 1⟩]).1.install demo true 0 ⟨5, 0, 10, 2, 1⟩ = .throw := by
  simp [run, step, Mgr.install, Mgr.put, demo, Mgr.empty]; norm_num

end Verif.SpThermo
