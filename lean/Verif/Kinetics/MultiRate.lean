import Verif.Basic
import Mathlib.Data.Real.Basic
import Mathlib.Data.List.Induction
import Mathlib.Tactic.Common
import Mathlib.Tactic.SplitIfs

/-!
# C42: rate evaluators and their dispatch (include/cantera/kinetics/MultiRate.h:37-203,
src/kinetics/BulkKinetics.cpp:19-116, src/kinetics/Kinetics.cpp:705-741)

Rate objects are an arbitrary type `R`; thermodynamic states an arbitrary type `T`.
`updateFromStruct` and `evalFromStruct` are functions of the rate and the state.  The shared data
object remembers the state of the last update; `invalidateCache` (which sets the temperature to NaN,
ReactionData.h:108-110) is `none`.  Double entries are `Option ℝ`, NaN is `none`.
-/

namespace Verif.MultiRate

open Verif

/-- What the evaluator uses of a rate class: `type()`, `subType()`, the C++ class (for
`dynamic_cast`), `updateFromStruct` (identity if the class has none, MultiRate.h:197-203) and
`evalFromStruct`. -/
structure Iface (R T : Type) where
  type : R → String
  subType : R → String
  cls : R → Nat
  upd : R → T → R
  ev : R → T → ℝ

variable {R T : Type}

/-- A rate class that evaluates to a function of its parameters and the current state, whatever it
was evaluated at before (see C22, C23 for two classes with caches).  Rates of one type either all
have a subtype or all have none. -/
structure Iface.Lawful (I : Iface R T) : Prop where
  type_upd : ∀ r t, I.type (I.upd r t) = I.type r
  sub : ∀ r r', I.type r = I.type r' → I.subType r = "" → I.subType r' = ""
  free : ∀ (r : R) (ts : List T) (t : T), I.ev (I.upd (ts.foldl I.upd r) t) t = I.ev (I.upd r t) t

/-- MultiRate.h:205-208.  `cls` is the template parameter. -/
structure MR (R T : Type) where
  cls : Nat
  rates : List (Nat × R)
  idx : Nat → Option Nat
  shared : Option T

/-- A new evaluator. -/
def MR.empty (c : Nat) : MR R T := ⟨c, [], fun _ => none, none⟩

variable (I : Iface R T)

/-- MultiRate::add (MultiRate.h:37-41): the index is recorded before the cast can throw. -/
def MR.add (M : MR R T) (i : Nat) (r : R) : MR R T × Outcome Unit :=
  let M1 := { M with idx := fun k => if k = i then some M.rates.length else M.idx k }
  if I.cls r = M.cls then
    ({ M1 with rates := M.rates ++ [(i, r)], shared := none }, .ok ())
  else (M1, .throw)

/-- MultiRate::replace (MultiRate.h:43-61); the result says whether the reaction was known. -/
def MR.replace (M : MR R T) (i : Nat) (r : R) : MR R T × Outcome Bool :=
  match M.rates.head? with
  | none => (M, .throw)
  | some (_, r0) =>
    if I.type r ≠ I.type r0 then (M, .throw)
    else
      let M1 := { M with shared := none }
      match M.idx i with
      | none => (M1, .ok false)
      | some j =>
        match M.rates[j]? with
        | none => (M1, .throw)
        | some e =>
          if I.cls r = M.cls then ({ M1 with rates := M.rates.set j (e.1, r) }, .ok true)
          else (M1, .throw)

open Classical in
/-- MultiRate::update (MultiRate.h:171-179); the shared data reports a change when the state differs
from the remembered one (the returned flag is not used in the model). -/
noncomputable def MR.update (M : MR R T) (t : T) : MR R T :=
  if M.shared = some t then M
  else { M with shared := some t, rates := M.rates.map (fun e => (e.1, I.upd e.2 t)) }

/-- MultiRate::getRateConstants (MultiRate.h:68-72). -/
def MR.getRateConstants (M : MR R T) (kf : Nat → Option ℝ) : Nat → Option ℝ :=
  M.rates.foldl (fun kf e => fun k => if k = e.1 then M.shared.map (I.ev e.2) else kf k) kf

/-- Calls. -/
inductive Op (R T : Type) where
  | add (i : Nat) (r : R)
  | replace (i : Nat) (r : R)
  | update (t : T)

/-- Effect of a call on the evaluator, together with the table of rates that the caller believes to be
installed, judged by the return values only. -/
noncomputable def step (s : MR R T × (Nat → Option R)) : Op R T → MR R T × (Nat → Option R)
  | .add i r => match s.1.add I i r with
    | (M, .ok _) => (M, fun k => if k = i then some r else s.2 k)
    | (M, _) => (M, s.2)
  | .replace i r => match s.1.replace I i r with
    | (M, .ok true) => (M, fun k => if k = i then some r else s.2 k)
    | (M, _) => (M, s.2)
  | .update t => (s.1.update I t, s.2)

/-- A history from a new evaluator. -/
noncomputable def run (c : Nat) (ops : List (Op R T)) : MR R T × (Nat → Option R) :=
  ops.foldl (step I) (MR.empty c, fun _ => none)

/-! ### Lemmas -/

/-- `q` is `r` after some evaluations, the last one at the remembered state if there is one. -/
def Derived (sh : Option T) (r q : R) : Prop :=
  match sh with
  | some t => ∃ ts : List T, q = I.upd (ts.foldl I.upd r) t
  | none => ∃ ts : List T, q = ts.foldl I.upd r

theorem derived_weaken {I : Iface R T} {sh : Option T} {r q : R} (h : Derived I sh r q) :
    Derived I none r q := by
  cases sh with
  | none => exact h
  | some t => obtain ⟨ts, rfl⟩ := h; exact ⟨ts ++ [t], by simp⟩

theorem derived_upd {I : Iface R T} {sh : Option T} {r q : R} (h : Derived I sh r q) (t : T) :
    Derived I (some t) r (I.upd q t) := by
  obtain ⟨ts, rfl⟩ := derived_weaken h
  exact ⟨ts, rfl⟩

/-- The invariant tying the evaluator to the table of installed rates. -/
structure Inv (M : MR R T) (tab : Nat → Option R) : Prop where
  known : ∀ (i : Nat) (r : R), tab i = some r → ∃ (j : Nat) (q : R), M.idx i = some j ∧
    M.rates[j]? = some (i, q) ∧ Derived I M.shared r q ∧
    ∀ (j' : Nat) (q' : R), M.rates[j']? = some (i, q') → j' ≤ j
  unknown : ∀ (i : Nat), tab i = none → M.idx i = none ∧ ∀ (j : Nat) (q : R), M.rates[j]? ≠ some (i, q)

theorem inv_empty (c : Nat) : Inv I (MR.empty c : MR R T) (fun _ => none) :=
  ⟨fun i r h => by simp at h, fun i _ => ⟨rfl, by simp [MR.empty]⟩⟩

theorem inv_add {M : MR R T} {tab : Nat → Option R} (h : Inv I M tab) (i : Nat) (r : R)
    (hc : I.cls r = M.cls) :
    Inv I (M.add I i r).1 (fun k => if k = i then some r else tab k) := by
  simp only [MR.add, hc, if_true]
  constructor
  · intro k q hk
    by_cases hki : k = i
    · subst hki
      simp only [if_true, Option.some.injEq] at hk
      subst hk
      refine ⟨M.rates.length, r, by simp, by simp, ⟨[], rfl⟩, ?_⟩
      intro j' q' hj
      have := (List.getElem?_eq_some_iff.mp hj).1
      simp at this; omega
    · simp only [hki, if_false] at hk
      obtain ⟨j, q0, a, b, c, d⟩ := h.known k q hk
      have hj := (List.getElem?_eq_some_iff.mp b).1
      refine ⟨j, q0, by simp [hki, a], by rw [List.getElem?_append_left hj]; exact b,
        derived_weaken c, ?_⟩
      intro j' q' hj'
      by_cases hlt : j' < M.rates.length
      · rw [List.getElem?_append_left hlt] at hj'; exact d j' q' hj'
      · rw [List.getElem?_append_right (by omega)] at hj'
        have := List.mem_of_getElem? hj'
        simp only [List.mem_singleton, Prod.mk.injEq] at this
        exact absurd this.1 hki
  · intro k hk
    by_cases hki : k = i
    · simp [hki] at hk
    · simp only [hki, if_false] at hk
      obtain ⟨a, b⟩ := h.unknown k hk
      refine ⟨by simp [hki, a], ?_⟩
      intro j q hj
      by_cases hlt : j < M.rates.length
      · rw [List.getElem?_append_left hlt] at hj; exact b j q hj
      · rw [List.getElem?_append_right (by omega)] at hj
        have := List.mem_of_getElem? hj
        simp only [List.mem_singleton, Prod.mk.injEq] at this
        exact absurd this.1 hki

theorem inv_invalidate {M : MR R T} {tab : Nat → Option R} (h : Inv I M tab) :
    Inv I { M with shared := none } tab := by
  constructor
  · intro k q hk
    obtain ⟨j, q0, a, b, c, d⟩ := h.known k q hk
    exact ⟨j, q0, a, b, derived_weaken c, d⟩
  · exact h.unknown

theorem inv_replace {M : MR R T} {tab : Nat → Option R} (h : Inv I M tab) (i : Nat) (r : R) :
    Inv I (M.replace I i r).1
      (match M.replace I i r with
        | (_, .ok true) => fun k => if k = i then some r else tab k
        | _ => tab) := by
  unfold MR.replace
  cases hh : M.rates.head? with
  | none => exact h
  | some e0 =>
    obtain ⟨i0, r0⟩ := e0
    simp only
    by_cases ht : I.type r ≠ I.type r0
    · simp only [ht, ne_eq, not_false_eq_true, if_true]; exact h
    · simp only [ht, if_false]
      cases hi : M.idx i with
      | none => exact inv_invalidate I h
      | some j =>
        simp only
        cases hj : M.rates[j]? with
        | none => exact inv_invalidate I h
        | some e =>
          simp only
          by_cases hc : I.cls r = M.cls
          · simp only [hc, if_true]
            have hjl := (List.getElem?_eq_some_iff.mp hj).1
            cases ht : tab i with
            | none => have := (h.unknown i ht).1; rw [hi] at this; simp at this
            | some r1 =>
              obtain ⟨j1, q1, a, b, c, d⟩ := h.known i r1 ht
              rw [hi, Option.some.injEq] at a
              subst a
              rw [hj, Option.some.injEq] at b
              subst b
              constructor
              · intro k q hk
                by_cases hki : k = i
                · subst hki
                  simp only [if_true, Option.some.injEq] at hk
                  subst hk
                  refine ⟨j, r, hi, by simp [hjl], ⟨[], rfl⟩, ?_⟩
                  intro j' q' hj'
                  simp only [List.getElem?_set] at hj'
                  split_ifs at hj' with h1
                  · omega
                  · exact d j' q' hj'
                · simp only [hki, if_false] at hk
                  obtain ⟨j2, q2, a2, b2, c2, d2⟩ := h.known k q hk
                  have hne : j ≠ j2 := by
                    rintro rfl
                    rw [hj, Option.some.injEq, Prod.mk.injEq] at b2
                    exact hki b2.1.symm
                  refine ⟨j2, q2, a2, by simp [hne, b2], derived_weaken c2, ?_⟩
                  intro j' q' hj'
                  simp only [List.getElem?_set] at hj'
                  split_ifs at hj' with h1
                  · simp only [Option.some.injEq, Prod.mk.injEq] at hj'
                    exact absurd hj'.1.symm hki
                  · exact d2 j' q' hj'
              · intro k hk
                by_cases hki : k = i
                · simp [hki] at hk
                · simp only [hki, if_false] at hk
                  obtain ⟨a2, b2⟩ := h.unknown k hk
                  refine ⟨a2, ?_⟩
                  intro j' q' hj'
                  simp only [List.getElem?_set] at hj'
                  split_ifs at hj' with h1
                  · simp only [Option.some.injEq, Prod.mk.injEq] at hj'
                    exact absurd hj'.1.symm hki
                  · exact b2 j' q' hj'
          · simp only [hc, if_false]; exact inv_invalidate I h

theorem inv_update {M : MR R T} {tab : Nat → Option R} (h : Inv I M tab) (t : T) :
    Inv I (M.update I t) tab := by
  unfold MR.update
  split_ifs with hs
  · exact h
  · constructor
    · intro k q hk
      obtain ⟨j, q0, a, b, c, d⟩ := h.known k q hk
      refine ⟨j, I.upd q0 t, a, by simp [b], derived_upd c t, ?_⟩
      intro j' q' hj'
      simp only [List.getElem?_map, Option.map_eq_some_iff, Prod.mk.injEq] at hj'
      obtain ⟨⟨e1, e2⟩, he, h1, h2⟩ := hj'
      subst h1
      exact d j' e2 he
    · intro k hk
      obtain ⟨a, b⟩ := h.unknown k hk
      refine ⟨a, ?_⟩
      intro j q hj
      simp only [List.getElem?_map, Option.map_eq_some_iff, Prod.mk.injEq] at hj
      obtain ⟨⟨e1, e2⟩, he, h1, h2⟩ := hj
      subst h1
      exact b j e2 he

theorem update_shared (M : MR R T) (t : T) : (M.update I t).shared = some t := by
  unfold MR.update; split_ifs with h
  · exact h
  · rfl

/-- The last entry of a reaction decides. -/
theorem fold_last (sh : Option T) (l : List (Nat × R)) (kf : Nat → Option ℝ) (i : Nat) :
    ((∀ (j : Nat) (q : R), l[j]? ≠ some (i, q)) →
      l.foldl (fun kf e => fun k => if k = e.1 then sh.map (I.ev e.2) else kf k) kf i = kf i) ∧
    (∀ (j : Nat) (q : R), l[j]? = some (i, q) → (∀ (j' : Nat) (q' : R), l[j']? = some (i, q') → j' ≤ j) →
      l.foldl (fun kf e => fun k => if k = e.1 then sh.map (I.ev e.2) else kf k) kf i
        = sh.map (I.ev q)) := by
  induction l generalizing kf with
  | nil => exact ⟨fun _ => rfl, fun j q h => by simp at h⟩
  | cons e l ih =>
    simp only [List.foldl_cons]
    constructor
    · intro h
      rw [(ih _).1 (fun j q hj => h (j + 1) q (by simpa using hj))]
      have : i ≠ e.1 := by
        rintro rfl; exact h 0 e.2 (by simp)
      simp [this]
    · intro j q hj hmax
      cases j with
      | zero =>
        simp only [List.getElem?_cons_zero, Option.some.injEq] at hj
        subst hj
        rw [(ih _).1 (fun j' q' hj' => by
          have := hmax (j' + 1) q' (by simpa using hj'); omega)]
        simp
      | succ j =>
        refine (ih _).2 j q (by simpa using hj) ?_
        intro j' q' hj'
        have := hmax (j' + 1) q' (by simpa using hj')
        omega

theorem inv_values {I : Iface R T} (hI : I.Lawful) {M : MR R T} {tab : Nat → Option R}
    (h : Inv I M tab) (t : T) (hs : M.shared = some t) (kf : Nat → Option ℝ) (i : Nat) :
    M.getRateConstants I kf i = match tab i with
      | some r => some (I.ev (I.upd r t) t)
      | none => kf i := by
  unfold MR.getRateConstants
  cases ht : tab i with
  | none => exact (fold_last I M.shared M.rates kf i).1 (h.unknown i ht).2
  | some r =>
    obtain ⟨j, q, a, b, c, d⟩ := h.known i r ht
    rw [(fold_last I M.shared M.rates kf i).2 j q b d, hs]
    rw [hs] at c
    obtain ⟨ts, rfl⟩ := c
    simp only [Option.map_some, hI.free]

theorem add_cls (M : MR R T) (i : Nat) (r : R) : (M.add I i r).1.cls = M.cls := by
  unfold MR.add; simp only; split_ifs <;> rfl

theorem replace_cls (M : MR R T) (i : Nat) (r : R) : (M.replace I i r).1.cls = M.cls := by
  unfold MR.replace
  repeat' first | rfl | split

theorem update_cls (M : MR R T) (t : T) : (M.update I t).cls = M.cls := by
  unfold MR.update; split_ifs <;> rfl

theorem run_inv (c : Nat) (ops : List (Op R T)) (hc : ∀ i r, Op.add i r ∈ ops → I.cls r = c) :
    Inv I (run I c ops).1 (run I c ops).2 ∧ (run I c ops).1.cls = c := by
  unfold run
  suffices hh : ∀ (ops : List (Op R T)) (s : MR R T × (Nat → Option R)),
      (∀ i r, Op.add i r ∈ ops → I.cls r = c) → Inv I s.1 s.2 ∧ s.1.cls = c →
      Inv I (ops.foldl (step I) s).1 (ops.foldl (step I) s).2 ∧ (ops.foldl (step I) s).1.cls = c from
    hh ops _ hc ⟨inv_empty I c, rfl⟩
  intro ops
  induction ops with
  | nil => intro s _ h; exact h
  | cons o ops ih =>
    intro s hc ⟨h, hcls⟩
    simp only [List.foldl_cons]
    refine ih _ (fun i r hm => hc i r (by simp [hm])) ?_
    cases o with
    | add i r =>
      have hr : I.cls r = s.1.cls := by rw [hcls]; exact hc i r (by simp)
      have e : step I s (.add i r) = ((s.1.add I i r).1, fun k => if k = i then some r else s.2 k) := by
        simp [step, MR.add, hr]
      rw [e]
      exact ⟨inv_add I h i r hr, by rw [add_cls]; exact hcls⟩
    | replace i r =>
      have e := inv_replace I h i r
      have hcl := replace_cls I s.1 i r
      simp only [step]
      rcases hrep : s.1.replace I i r with ⟨M, o⟩
      rw [hrep] at e hcl
      simp only at e hcl
      cases o with
      | ok b => cases b <;> exact ⟨e, by rw [hcl]; exact hcls⟩
      | throw => exact ⟨e, by rw [hcl]; exact hcls⟩
      | ub => exact ⟨e, by rw [hcl]; exact hcls⟩
    | update t => exact ⟨inv_update I h t, by rw [← hcls]; exact update_cls I s.1 t⟩

/-! ### Properties of one evaluator -/

/-- After any history of additions, replacements and evaluations, an evaluation at state `t` writes
for each reaction the value at `t` of the rate most recently installed for it and leaves the other
entries alone.  Missing: histories in which an `add` throws, see `failed_add_redirects`. -/
theorem evaluator_partial (hI : I.Lawful) (c : Nat) (ops : List (Op R T))
    (hc : ∀ i r, Op.add i r ∈ ops → I.cls r = c) (t : T) (kf : Nat → Option ℝ) (i : Nat) :
    ((run I c ops).1.update I t).getRateConstants I kf i =
      match (run I c ops).2 i with
      | some r => some (I.ev (I.upd r t) t)
      | none => kf i :=
  inv_values hI (inv_update I (run_inv I c ops hc).1 t) t (update_shared I _ t) kf i

/-- `replace` reports a reaction it does not know and does not touch any rate; it is not an
exception. -/
theorem replace_unknown (c : Nat) (ops : List (Op R T)) (hc : ∀ i r, Op.add i r ∈ ops → I.cls r = c)
    (i : Nat) (r : R) (hu : (run I c ops).2 i = none) :
    ((run I c ops).1.replace I i r).1.rates = (run I c ops).1.rates ∧
    ((run I c ops).1.replace I i r).2 ≠ .ok true := by
  have h := ((run_inv I c ops hc).1.unknown i hu).1
  unfold MR.replace
  cases (run I c ops).1.rates.head? with
  | none => simp
  | some e => simp only [h]; split_ifs <;> simp

/-- **Finding.** `add` records the index before the rate is cast: after an `add` that throws, a
`replace` of the same reaction silently overwrites the rate of the reaction added next. -/
theorem failed_add_redirects : ∃ (I : Iface (Nat × ℝ) Unit), I.Lawful ∧ ∃ M : MR (Nat × ℝ) Unit,
    (M.add I 5 (1, 7)).2 = .throw ∧
    (((M.add I 5 (1, 7)).1.add I 6 (0, 2)).1.replace I 5 (0, 3)).2 = .ok true ∧
    ((((M.add I 5 (1, 7)).1.add I 6 (0, 2)).1.replace I 5 (0, 3)).1.update I ()).getRateConstants I
      (fun _ => none) 6 = some 3 := by
  refine ⟨⟨fun _ => "", fun _ => "", fun r => r.1, fun r _ => r, fun r _ => r.2⟩, ⟨?_, ?_, ?_⟩,
    MR.empty 0, ?_, ?_, ?_⟩
  · intros; rfl
  · intros; rfl
  · intro r ts t
    have : ts.foldl (fun (r : Nat × ℝ) (_ : Unit) => r) r = r := by
      induction ts with
      | nil => rfl
      | cons a l ih => exact ih
    simp only [this]
  all_goals simp [MR.add, MR.replace, MR.update, MR.getRateConstants, MR.empty]

/-! ### Dispatch over rate types -/

/-- The parts of a reaction compared and stored by `addReaction`/`modifyReaction`. -/
structure Rxn (R : Type) where
  rate : R
  eqn : String
  thirdBody : Option Nat
  reversible : Bool

/-- BulkKinetics: `m_bulk_types`, `m_bulk_rates`, `m_reactions`, `m_revindex`, and per reaction the
third body installed in `m_multi_concm`. -/
structure Bulk (R T : Type) where
  types : String → Option Nat
  evs : List (MR R T)
  rxns : List (Rxn R)
  revindex : List Nat
  concm : List (Nat × Nat)

/-- No reactions. -/
def Bulk.empty : Bulk R T := ⟨fun _ => none, [], [], [], []⟩

/-- BulkKinetics.cpp:43-46, 99-102 -/
def key (r : R) : String := if I.subType r = "" then I.type r else I.subType r

/-- BulkKinetics.cpp:48-53: make sure there is an evaluator for this kind of rate. -/
def Bulk.ensure (K : Bulk R T) (r : R) : Bulk R T :=
  match K.types (key I r) with
  | some _ => K
  | none => { K with
      types := fun s => if s = key I r then some K.evs.length else K.types s
      evs := K.evs ++ [MR.empty (I.cls r)] }

/-- BulkKinetics.cpp:55-66: hand the rate to its evaluator, and the third body to the third-body
calculator. -/
def Bulk.addTo (K : Bulk R T) (n : Nat) (r : Rxn R) : Bulk R T × Outcome Unit :=
  match K.types (key I r.rate) with
  | none => (K, .ub)
  | some m => match K.evs[m]? with
    | none => (K, .ub)
    | some M =>
      match M.add I n r.rate with
      | (M', .ok _) => ({ K with
          evs := K.evs.set m M'
          concm := match r.thirdBody with
            | some b => K.concm ++ [(n, b)]
            | none => K.concm }, .ok ())
      | (M', _) => ({ K with evs := K.evs.set m M' }, .throw)

/-- BulkKinetics::addReaction (BulkKinetics.cpp:19-71) for a reaction accepted by
`Kinetics::addReaction` (Kinetics.cpp:682 stores it).  Reversible reactions are recorded in `m_revindex` (BulkKinetics.cpp:36-40).
A third body naming an undeclared species (BulkKinetics.cpp:80-83, throws) is not modelled. -/
def Bulk.addReaction (K : Bulk R T) (r : Rxn R) : Bulk R T × Outcome Unit :=
  Bulk.addTo I (Bulk.ensure I { K with
    rxns := K.rxns ++ [r]
    revindex := if r.reversible then K.revindex ++ [K.rxns.length] else K.revindex } r.rate)
    K.rxns.length r

/-- Reaction::type (Reaction.cpp:531-547). -/
def rtype (r : Rxn R) : String :=
  if I.subType r.rate ≠ "" then I.type r.rate ++ "-" ++ I.subType r.rate
  else if r.thirdBody.isSome then "three-body-" ++ I.type r.rate
  else I.type r.rate

/-- BulkKinetics::modifyReaction (BulkKinetics.cpp:93-116) after Kinetics::modifyReaction
(Kinetics.cpp:705-741).  Reactants and products are `eqn`; electron-collision-plasma rates (throw) are
not modelled.  The result of `replace` is ignored by the code. -/
def Bulk.modifyReaction (K : Bulk R T) (i : Nat) (r : Rxn R) : Bulk R T × Outcome Unit :=
  match K.rxns[i]? with
  | none => (K, .throw)
  | some old =>
    if rtype I r ≠ rtype I old ∨ I.type r.rate ≠ I.type old.rate ∨ r.eqn ≠ old.eqn then
      (K, .throw)
    else
      let K1 := { K with rxns := K.rxns.set i r }
      match K1.types (key I r.rate) with
      | none => (K1, .throw)
      | some m => match K1.evs[m]? with
        | none => (K1, .ub)
        | some M => match M.replace I i r.rate with
          | (M', .ok _) => ({ K1 with evs := K1.evs.set m M' }, .ok ())
          | (M', _) => ({ K1 with evs := K1.evs.set m M' }, .throw)

open Classical in
/-- The loop over evaluators in `updateROP` (BulkKinetics.cpp:498-504).  An evaluator that reports no
change is not asked for rate constants; the values already in `m_kf0` are kept. -/
noncomputable def Bulk.updateRates (K : Bulk R T) (t : T) (kf : Nat → Option ℝ) :
    Bulk R T × (Nat → Option ℝ) :=
  ({ K with evs := K.evs.map (fun M => M.update I t) },
   K.evs.foldl (fun kf M =>
      if M.shared = some t then kf else (M.update I t).getRateConstants I kf) kf)

/-- Calls on the kinetics object. -/
inductive KOp (R T : Type) where
  | add (r : Rxn R)
  | modify (i : Nat) (r : Rxn R)
  | rates (t : T)

/-- One call; the second component is `m_kf0`. -/
noncomputable def kstep (s : Bulk R T × (Nat → Option ℝ)) : KOp R T → Bulk R T × (Nat → Option ℝ)
  | .add r => ((s.1.addReaction I r).1, s.2)
  | .modify i r => ((s.1.modifyReaction I i r).1, s.2)
  | .rates t => s.1.updateRates I t s.2

/-- A history. -/
noncomputable def krun (ops : List (KOp R T)) : Bulk R T × (Nat → Option ℝ) :=
  ops.foldl (kstep I) (Bulk.empty, fun _ => none)

/-! ### Properties of the dispatch -/

/-- The table an evaluator should hold. -/
def tabOf (K : Bulk R T) (m : Nat) (i : Nat) : Option R :=
  match K.rxns[i]? with
  | some ρ => if K.types (key I ρ.rate) = some m then some ρ.rate else none
  | none => none

/-- Invariant of the dispatch; `occ` are the rates occurring in the history. -/
structure KInv (occ : R → Prop) (K : Bulk R T) (kf : Nat → Option ℝ) : Prop where
  inv : ∀ (m : Nat) (M : MR R T), K.evs[m]? = some M → Inv I M (tabOf I K m)
  dom : ∀ s m, K.types s = some m → m < K.evs.length
  inj : ∀ s s' m, K.types s = some m → K.types s' = some m → s = s'
  rx : ∀ ρ ∈ K.rxns, occ ρ.rate ∧ ∃ m, K.types (key I ρ.rate) = some m
  cls : ∀ (r : R) (m : Nat) (M : MR R T), occ r → K.types (key I r) = some m → K.evs[m]? = some M →
    I.cls r = M.cls ∧ ∀ e ∈ M.rates, I.type e.2 = I.type r
  val : ∀ (m : Nat) (M : MR R T) (t : T) (i : Nat) (r : R), K.evs[m]? = some M → M.shared = some t →
    tabOf I K m i = some r → kf i = some (I.ev (I.upd r t) t)

/-- Rates of one evaluator agree on class and type. -/
def Uniform (occ : R → Prop) : Prop :=
  ∀ r r', occ r → occ r' → key I r = key I r' → I.cls r = I.cls r' ∧ I.type r = I.type r'

theorem kinv_empty (occ : R → Prop) (kf : Nat → Option ℝ) : KInv I occ (Bulk.empty : Bulk R T) kf :=
  ⟨fun m M h => by simp [Bulk.empty] at h, fun s m h => by simp [Bulk.empty] at h,
   fun s s' m h => by simp [Bulk.empty] at h, fun ρ h => by simp [Bulk.empty] at h,
   fun r m M _ h => by simp [Bulk.empty] at h, fun m M t i r h => by simp [Bulk.empty] at h⟩

theorem inv_congr {I : Iface R T} {M : MR R T} {tab tab' : Nat → Option R} (h : Inv I M tab)
    (e : ∀ i, tab i = tab' i) : Inv I M tab' := by
  have : tab = tab' := funext e
  rw [← this]; exact h

theorem kinv_ensure {occ : R → Prop} (hu : Uniform I occ) {K : Bulk R T} {kf : Nat → Option ℝ}
    (h : KInv I occ K kf) (r : R) (hr : occ r) :
    KInv I occ (K.ensure I r) kf ∧ (∃ m, (K.ensure I r).types (key I r) = some m) := by
  unfold Bulk.ensure
  cases ht : K.types (key I r) with
  | some m => exact ⟨h, m, ht⟩
  | none =>
    have hold : ∀ ρ ∈ K.rxns, key I ρ.rate ≠ key I r := by
      intro ρ hρ e
      obtain ⟨_, m, hm⟩ := h.rx ρ hρ
      rw [e, ht] at hm; simp at hm
    have htab : ∀ m i, m < K.evs.length → tabOf I { K with
        types := fun s => if s = key I r then some K.evs.length else K.types s
        evs := K.evs ++ [MR.empty (I.cls r)] } m i = tabOf I K m i := by
      intro m i _
      unfold tabOf
      simp only
      cases hi : K.rxns[i]? with
      | none => rfl
      | some ρ =>
        have := hold ρ (List.mem_of_getElem? hi)
        simp [this]
    have htab2 : ∀ i, tabOf I { K with
        types := fun s => if s = key I r then some K.evs.length else K.types s
        evs := K.evs ++ [MR.empty (I.cls r)] } K.evs.length i = none := by
      intro i
      unfold tabOf
      simp only
      cases hi : K.rxns[i]? with
      | none => rfl
      | some ρ =>
        have hne := hold ρ (List.mem_of_getElem? hi)
        simp only [hne, if_false]
        split_ifs with h2
        · have := h.dom _ _ h2; omega
        · rfl
    refine ⟨⟨?_, ?_, ?_, ?_, ?_, ?_⟩, K.evs.length, by simp⟩
    · intro m M hM
      by_cases hm : m < K.evs.length
      · simp only [List.getElem?_append_left hm] at hM
        exact inv_congr (h.inv m M hM) (fun i => (htab m i hm).symm)
      · rw [List.getElem?_append_right (by omega)] at hM
        have hm' : m = K.evs.length := by
          have := (List.getElem?_eq_some_iff.mp hM).1; simp at this; omega
        subst hm'
        simp only [Nat.sub_self, List.getElem?_cons_zero, Option.some.injEq] at hM
        subst hM
        exact inv_congr (inv_empty I (I.cls r)) (fun i => (htab2 i).symm)
    · intro s m hm
      simp only at hm
      simp only [List.length_append, List.length_singleton]
      split_ifs at hm with hs
      · simp only [Option.some.injEq] at hm; omega
      · have := h.dom s m hm; omega
    · intro s s' m h1 h2
      simp only at h1 h2
      split_ifs at h1 h2 with a b b
      · rw [a, b]
      · simp only [Option.some.injEq] at h1
        have := h.dom s' m h2; omega
      · simp only [Option.some.injEq] at h2
        have := h.dom s m h1; omega
      · exact h.inj s s' m h1 h2
    · intro ρ hρ
      obtain ⟨a, m, hm⟩ := h.rx ρ hρ
      refine ⟨a, m, ?_⟩
      simp only [hold ρ hρ, if_false, hm]
    · intro r' m M hr' hm hM
      simp only at hm hM
      split_ifs at hm with hs
      · simp only [Option.some.injEq] at hm
        subst hm
        rw [List.getElem?_append_right (by omega)] at hM
        simp only [Nat.sub_self, List.getElem?_cons_zero, Option.some.injEq] at hM
        subst hM
        exact ⟨(hu r' r hr' hr hs).1, by simp [MR.empty]⟩
      · have hlt := h.dom _ _ hm
        rw [List.getElem?_append_left hlt] at hM
        exact h.cls r' m M hr' hm hM
    · intro m M t i r' hM hs htb
      by_cases hm : m < K.evs.length
      · simp only [List.getElem?_append_left hm] at hM
        rw [htab m i hm] at htb
        exact h.val m M t i r' hM hs htb
      · simp only at hM
        rw [List.getElem?_append_right (by omega)] at hM
        have := List.mem_of_getElem? hM
        simp only [List.mem_singleton] at this
        subst this
        simp [MR.empty] at hs

/-- Adding the reaction once its evaluator exists. -/
theorem kinv_addTo {occ : R → Prop} (hu : Uniform I occ) {K : Bulk R T} {kf : Nat → Option ℝ}
    (h : KInv I occ K kf) (r : Rxn R) (hr : occ r.rate) (m : Nat) (M : MR R T)
    (hm : K.types (key I r.rate) = some m) (hM : K.evs[m]? = some M) (rev : List Nat)
    (cm : List (Nat × Nat)) :
    KInv I occ ⟨K.types, K.evs.set m (M.add I K.rxns.length r.rate).1, K.rxns ++ [r], rev, cm⟩ kf := by
  have hml := (List.getElem?_eq_some_iff.mp hM).1
  obtain ⟨hc, hty⟩ := h.cls r.rate m M hr hm hM
  have htab : ∀ m' i, tabOf I ⟨K.types, K.evs.set m (M.add I K.rxns.length r.rate).1,
      K.rxns ++ [r], rev, cm⟩ m' i
      = if m' = m ∧ i = K.rxns.length then some r.rate else tabOf I K m' i := by
    intro m' i
    unfold tabOf
    simp only
    by_cases hi : i < K.rxns.length
    · rw [List.getElem?_append_left hi]
      have : ¬ (m' = m ∧ i = K.rxns.length) := by omega
      simp [this]
    · by_cases hi2 : i = K.rxns.length
      · subst hi2
        simp only [List.getElem?_concat_length, hm, Option.some.injEq, and_true,
          List.getElem?_eq_none le_rfl, eq_comm]
      · rw [List.getElem?_eq_none (by simp; omega), List.getElem?_eq_none (by omega)]
        simp [hi2]
  refine ⟨?_, ?_, h.inj, ?_, ?_, ?_⟩
  · intro m' M' hM'
    simp only [List.getElem?_set] at hM'
    by_cases hmm : m = m'
    · subst hmm
      simp only [if_true, hml, Option.some.injEq] at hM'
      subst hM'
      refine inv_congr (inv_add I (h.inv m M hM) K.rxns.length r.rate hc) (fun i => ?_)
      rw [htab]; simp
    · simp only [hmm, if_false] at hM'
      refine inv_congr (h.inv m' M' hM') (fun i => ?_)
      rw [htab]
      have : ¬ (m' = m ∧ i = K.rxns.length) := fun x => hmm x.1.symm
      simp [this]
  · intro s m' hs
    have := h.dom s m' hs
    simpa using this
  · intro ρ hρ
    rcases List.mem_append.mp hρ with h1 | h1
    · exact h.rx ρ h1
    · simp only [List.mem_singleton] at h1
      subst h1
      exact ⟨hr, m, hm⟩
  · intro r' m' M' hr' hm' hM'
    simp only [List.getElem?_set] at hM'
    by_cases hmm : m = m'
    · subst hmm
      simp only [if_true, hml, Option.some.injEq] at hM'
      subst hM'
      obtain ⟨a, b⟩ := h.cls r' m M hr' hm' hM
      refine ⟨by rw [add_cls]; exact a, ?_⟩
      simp only [MR.add, hc, if_true]
      intro e he
      rcases List.mem_append.mp he with h1 | h1
      · exact b e h1
      · simp only [List.mem_singleton] at h1
        subst h1
        exact (hu r.rate r' hr hr' (h.inj _ _ m hm hm')).2
    · simp only [hmm, if_false] at hM'
      exact h.cls r' m' M' hr' hm' hM'
  · intro m' M' t i r' hM' hs htb
    simp only [List.getElem?_set] at hM'
    by_cases hmm : m = m'
    · subst hmm
      simp only [if_true, hml, Option.some.injEq] at hM'
      subst hM'
      simp [MR.add, hc] at hs
    · simp only [hmm, if_false] at hM'
      rw [htab] at htb
      have : ¬ (m' = m ∧ i = K.rxns.length) := fun x => hmm x.1.symm
      simp only [this, if_false] at htb
      exact h.val m' M' t i r' hM' hs htb

theorem kinv_add {occ : R → Prop} (hu : Uniform I occ) {K : Bulk R T} {kf : Nat → Option ℝ}
    (h : KInv I occ K kf) (r : Rxn R) (hr : occ r.rate) :
    KInv I occ (K.addReaction I r).1 kf ∧ (K.addReaction I r).2 = .ok () ∧
      (K.addReaction I r).1.rxns = K.rxns ++ [r] := by
  obtain ⟨he, m, hm⟩ := kinv_ensure I hu h r.rate hr
  have hml := he.dom _ _ hm
  have hM : (K.ensure I r.rate).evs[m]? = some (K.ensure I r.rate).evs[m] :=
    List.getElem?_eq_getElem hml
  obtain ⟨hc, _⟩ := he.cls r.rate m _ hr hm hM
  have hrx : (K.ensure I r.rate).rxns = K.rxns := by
    unfold Bulk.ensure; split <;> rfl
  have key1 : ∀ (rev : List Nat) (cm : List (Nat × Nat)), KInv I occ ⟨(K.ensure I r.rate).types,
      (K.ensure I r.rate).evs.set m ((K.ensure I r.rate).evs[m].add I K.rxns.length r.rate).1,
      K.rxns ++ [r], rev, cm⟩ kf := by
    intro rev cm
    have := kinv_addTo I hu he r hr m _ hm hM rev cm
    rw [hrx] at this
    exact this
  have hadd : ((K.ensure I r.rate).evs[m].add I K.rxns.length r.rate)
      = (((K.ensure I r.rate).evs[m].add I K.rxns.length r.rate).1, .ok ()) := by
    simp [MR.add, hc]
  have e : Bulk.ensure I { K with
      rxns := K.rxns ++ [r]
      revindex := if r.reversible then K.revindex ++ [K.rxns.length] else K.revindex } r.rate
      = { K.ensure I r.rate with
          rxns := K.rxns ++ [r]
          revindex := if r.reversible then K.revindex ++ [K.rxns.length] else K.revindex } := by
    unfold Bulk.ensure
    cases ht : K.types (key I r.rate) <;> rfl
  unfold Bulk.addReaction
  rw [e]
  unfold Bulk.addTo
  simp only [hm, hM]
  rw [hadd]
  exact ⟨key1 _ _, rfl, rfl⟩

theorem key_of_rtype {I : Iface R T} (hI : I.Lawful) {r r' : Rxn R} (h : rtype I r = rtype I r')
    (ht : I.type r.rate = I.type r'.rate) : key I r.rate = key I r'.rate := by
  unfold key
  unfold rtype at h
  by_cases h1 : I.subType r.rate = ""
  · have h2 := hI.sub _ _ ht h1
    simp [h1, h2, ht]
  · have h2 : I.subType r'.rate ≠ "" := fun x => h1 (hI.sub _ _ ht.symm x)
    simp only [h1, h2, ne_eq, not_false_eq_true, if_true, ht] at h ⊢
    simpa using h

theorem kinv_modify (hI : I.Lawful) {occ : R → Prop} {K : Bulk R T} {kf : Nat → Option ℝ}
    (hu : Uniform I occ) (h : KInv I occ K kf) (i : Nat) (r : Rxn R) (hr : occ r.rate) :
    KInv I occ (K.modifyReaction I i r).1 kf := by
  unfold Bulk.modifyReaction
  cases hi : K.rxns[i]? with
  | none => exact h
  | some old =>
    simp only
    split_ifs with hcmp
    · exact h
    · push Not at hcmp
      obtain ⟨t1, t2, _⟩ := hcmp
      have hkey : key I r.rate = key I old.rate := key_of_rtype hI t1 t2
      obtain ⟨hoccold, m, hm⟩ := h.rx old (List.mem_of_getElem? hi)
      have hil := (List.getElem?_eq_some_iff.mp hi).1
      rw [← hkey] at hm
      have hml := h.dom _ _ hm
      have hM : K.evs[m]? = some K.evs[m] := List.getElem?_eq_getElem hml
      obtain ⟨hc, hty⟩ := h.cls r.rate m _ hr hm hM
      simp only [hm, hM]
      have hinv := h.inv m _ hM
      have htold : tabOf I K m i = some old.rate := by
        unfold tabOf; simp [hi, ← hkey, hm]
      obtain ⟨j, q, a, b, c, d⟩ := hinv.known i old.rate htold
      have hrep : K.evs[m].replace I i r.rate = ({ K.evs[m] with
          shared := none, rates := K.evs[m].rates.set j (i, r.rate) }, .ok true) := by
        unfold MR.replace
        have hne : K.evs[m].rates ≠ [] := by
          intro hnil; rw [hnil] at b; simp at b
        obtain ⟨e0, l, hl⟩ := List.exists_cons_of_ne_nil hne
        have hh : K.evs[m].rates.head? = some e0 := by rw [hl]; rfl
        obtain ⟨i0, r0⟩ := e0
        have hty0 : I.type r.rate = I.type r0 :=
          (hty (i0, r0) (by rw [hl]; exact List.mem_cons_self)).symm
        simp [hh, hty0, a, b, hc]
      have hinv2 := inv_replace I hinv i r.rate
      rw [hrep] at hinv2
      simp only at hinv2
      rw [hrep]
      simp only
      have htab : ∀ m' k, tabOf I ⟨K.types, K.evs.set m { K.evs[m] with
          shared := none, rates := K.evs[m].rates.set j (i, r.rate) }, K.rxns.set i r, K.revindex,
          K.concm⟩ m' k = if m' = m ∧ k = i then some r.rate else tabOf I K m' k := by
        intro m' k
        unfold tabOf
        simp only [List.getElem?_set]
        by_cases hk : i = k
        · subst hk
          by_cases hmm : m = m'
          · subst hmm; simp [hil, hm]
          · have h1 : m' ≠ m := fun x => hmm x.symm
            have h2 : K.types (key I old.rate) = some m := by rw [← hkey]; exact hm
            rw [hi]
            simp [hil, hm, h2, hmm, h1]
        · have h1 : k ≠ i := fun x => hk x.symm
          simp [hk, h1]
      refine ⟨?_, ?_, h.inj, ?_, ?_, ?_⟩
      · intro m' M' hM'
        simp only [List.getElem?_set] at hM'
        by_cases hmm : m = m'
        · subst hmm
          simp only [if_true, hml, Option.some.injEq] at hM'
          subst hM'
          refine inv_congr hinv2 (fun k => ?_)
          rw [htab]; simp
        · simp only [hmm, if_false] at hM'
          refine inv_congr (h.inv m' M' hM') (fun k => ?_)
          rw [htab]
          have : ¬ (m' = m ∧ k = i) := fun x => hmm x.1.symm
          simp [this]
      · intro s m' hs
        have := h.dom s m' hs
        simpa using this
      · intro ρ hρ
        rcases List.mem_or_eq_of_mem_set hρ with h1 | h1
        · exact h.rx ρ h1
        · subst h1; exact ⟨hr, m, hm⟩
      · intro r' m' M' hr' hm' hM'
        simp only [List.getElem?_set] at hM'
        by_cases hmm : m = m'
        · subst hmm
          simp only [if_true, hml, Option.some.injEq] at hM'
          subst hM'
          obtain ⟨x, y⟩ := h.cls r' m _ hr' hm' hM
          refine ⟨x, ?_⟩
          intro e he
          rcases List.mem_or_eq_of_mem_set he with h1 | h1
          · exact y e h1
          · subst h1
            exact (hu r.rate r' hr hr' (h.inj _ _ m hm hm')).2
        · simp only [hmm, if_false] at hM'
          exact h.cls r' m' M' hr' hm' hM'
      · intro m' M' t k r' hM' hs htb
        simp only [List.getElem?_set] at hM'
        by_cases hmm : m = m'
        · subst hmm
          simp only [if_true, hml, Option.some.injEq] at hM'
          subst hM'
          simp at hs
        · simp only [hmm, if_false] at hM'
          rw [htab] at htb
          have : ¬ (m' = m ∧ k = i) := fun x => hmm x.1.symm
          simp only [this, if_false] at htb
          exact h.val m' M' t k r' hM' hs htb

open Classical in
theorem fold_rates {I : Iface R T} (hI : I.Lawful) (t : T) (l : List (MR R T)) (tab : Nat → Nat → Option R)
    (hinv : ∀ (m : Nat) (M : MR R T), l[m]? = some M → Inv I M (tab m)) (kf : Nat → Option ℝ) (i : Nat) :
    ((∀ m, m < l.length → tab m i = none) →
      l.foldl (fun kf M => if M.shared = some t then kf else (M.update I t).getRateConstants I kf) kf i
        = kf i) ∧
    (∀ (m : Nat) (r : R), m < l.length → tab m i = some r →
      (∀ m', m' < l.length → m' ≠ m → tab m' i = none) →
      (∀ M, l[m]? = some M → M.shared = some t → kf i = some (I.ev (I.upd r t) t)) →
      l.foldl (fun kf M => if M.shared = some t then kf else (M.update I t).getRateConstants I kf) kf i
        = some (I.ev (I.upd r t) t)) := by
  induction l generalizing kf tab with
  | nil => exact ⟨fun _ => rfl, fun m r h => by simp at h⟩
  | cons M l ih =>
    have hM := hinv 0 M rfl
    have hval : ∀ kf : Nat → Option ℝ, (if M.shared = some t then kf
        else (M.update I t).getRateConstants I kf) i = if M.shared = some t then kf i
        else match tab 0 i with
          | some r => some (I.ev (I.upd r t) t)
          | none => kf i := by
      intro kf
      split_ifs
      · rfl
      · exact inv_values hI (inv_update I hM t) t (update_shared I M t) kf i
    have ih' := fun kf => ih (fun m => tab (m + 1))
      (fun m M' hm => hinv (m + 1) M' (by simpa using hm)) kf
    simp only [List.foldl_cons]
    constructor
    · intro h
      rw [(ih' _).1 (fun m hm => h (m + 1) (by simpa using hm)), hval]
      have := h 0 (by simp)
      simp [this]
    · intro m r hm htb hother hpre
      cases m with
      | zero =>
        rw [(ih' _).1 (fun m hm => hother (m + 1) (by simpa using hm) (by omega)), hval]
        simp only [htb]
        split_ifs with hs
        · exact hpre M rfl hs
        · rfl
      | succ m =>
        refine (ih' _).2 m r (by simpa using hm) htb
          (fun m' hm' hne => hother (m' + 1) (by simpa using hm') (by omega)) ?_
        intro M' hM' hs
        rw [hval]
        have h0 := hother 0 (by simp) (by omega)
        have h1 := hpre M' (by simpa using hM') hs
        simp [h0, h1]

theorem kinv_rates {I : Iface R T} (hI : I.Lawful) {occ : R → Prop} {K : Bulk R T}
    {kf : Nat → Option ℝ} (h : KInv I occ K kf) (t : T) :
    KInv I occ (K.updateRates I t kf).1 (K.updateRates I t kf).2 ∧
    ∀ (i : Nat) (ρ : Rxn R), K.rxns[i]? = some ρ →
      (K.updateRates I t kf).2 i = some (I.ev (I.upd ρ.rate t) t) := by
  have hval : ∀ (i : Nat) (ρ : Rxn R), K.rxns[i]? = some ρ →
      (K.updateRates I t kf).2 i = some (I.ev (I.upd ρ.rate t) t) := by
    intro i ρ hi
    obtain ⟨_, m, hm⟩ := h.rx ρ (List.mem_of_getElem? hi)
    have hml := h.dom _ _ hm
    have htb : tabOf I K m i = some ρ.rate := by unfold tabOf; simp [hi, hm]
    refine (fold_rates hI t K.evs (tabOf I K) h.inv kf i).2 m ρ.rate hml htb ?_ ?_
    · intro m' _ hne
      unfold tabOf
      have h1 : m ≠ m' := fun x => hne x.symm
      simp [hi, hm, h1]
    · intro M hM hs
      exact h.val m M t i ρ.rate hM hs htb
  refine ⟨⟨?_, ?_, h.inj, h.rx, ?_, ?_⟩, hval⟩
  · intro m M hM
    simp only [Bulk.updateRates, List.getElem?_map, Option.map_eq_some_iff] at hM
    obtain ⟨M0, h0, rfl⟩ := hM
    exact inv_update I (h.inv m M0 h0) t
  · intro s m hs
    have := h.dom s m hs
    simpa [Bulk.updateRates] using this
  · intro r m M hr hm hM
    simp only [Bulk.updateRates, List.getElem?_map, Option.map_eq_some_iff] at hM
    obtain ⟨M0, h0, rfl⟩ := hM
    obtain ⟨a, b⟩ := h.cls r m M0 hr hm h0
    refine ⟨by rw [update_cls]; exact a, ?_⟩
    unfold MR.update
    split_ifs
    · exact b
    · intro e he
      simp only [List.mem_map] at he
      obtain ⟨e0, he0, rfl⟩ := he
      simp only [hI.type_upd]
      exact b e0 he0
  · intro m M t' i r hM hs htb
    simp only [Bulk.updateRates, List.getElem?_map, Option.map_eq_some_iff] at hM
    obtain ⟨M0, h0, rfl⟩ := hM
    rw [update_shared] at hs
    simp only [Option.some.injEq] at hs
    subst hs
    have htb' : tabOf I K m i = some r := htb
    unfold tabOf at htb'
    cases hi : K.rxns[i]? with
    | none => simp [hi] at htb'
    | some ρ =>
      simp only [hi] at htb'
      split_ifs at htb'
      simp only [Option.some.injEq] at htb'
      subst htb'
      exact hval i ρ hi

/-- The rates occurring in a history. -/
def Occ (ops : List (KOp R T)) (r : R) : Prop :=
  (∃ ρ, KOp.add ρ ∈ ops ∧ ρ.rate = r) ∨ ∃ i ρ, KOp.modify i ρ ∈ ops ∧ ρ.rate = r

theorem krun_inv (hI : I.Lawful) (ops : List (KOp R T)) {occ : R → Prop}
    (hocc : ∀ r, Occ ops r → occ r) (hu : Uniform I occ) :
    KInv I occ (krun I ops).1 (krun I ops).2 := by
  unfold krun
  suffices hh : ∀ (l : List (KOp R T)) (s : Bulk R T × (Nat → Option ℝ)),
      (∀ o ∈ l, o ∈ ops) → KInv I occ s.1 s.2 →
      KInv I occ (l.foldl (kstep I) s).1 (l.foldl (kstep I) s).2 from
    hh ops _ (fun _ h => h) (kinv_empty I _ _)
  intro l
  induction l with
  | nil => intro s _ h; exact h
  | cons o l ih =>
    intro s hsub h
    simp only [List.foldl_cons]
    refine ih _ (fun o' ho' => hsub o' (by simp [ho'])) ?_
    have ho := hsub o (by simp)
    cases o with
    | add r => exact (kinv_add I hu h r (hocc _ (Or.inl ⟨r, ho, rfl⟩))).1
    | modify i r => exact kinv_modify I hI hu h i r (hocc _ (Or.inr ⟨i, r, ho, rfl⟩))
    | rates t => exact (kinv_rates hI h t).1

/-- After any history of adding and modifying reactions and evaluating rates, evaluating at `t`
gives every reaction the value at `t` of the rate that `reaction(i)` reports, whatever evaluator it
was sorted into.  Missing: mechanisms in which one evaluator holds rates of different `type()`
(falloff and chemically activated reactions with the same falloff function), see
`modify_chemically_activated`. -/
theorem dispatch_partial (hI : I.Lawful) (ops : List (KOp R T)) (hu : Uniform I (Occ ops)) (t : T)
    (i : Nat) (ρ : Rxn R) (hi : (krun I ops).1.rxns[i]? = some ρ) :
    (krun I (ops ++ [.rates t])).2 i = some (I.ev (I.upd ρ.rate t) t) := by
  have e : krun I (ops ++ [.rates t]) = (krun I ops).1.updateRates I t (krun I ops).2 := by
    unfold krun; rw [List.foldl_append]; rfl
  rw [e]
  exact (kinv_rates hI (krun_inv I hI ops (fun _ h => h) hu) t).2 i ρ hi

/-- Adding a reaction never fails for lack of an evaluator. -/
theorem dispatch_add_ok (hI : I.Lawful) (ops : List (KOp R T)) (r : Rxn R)
    (hu : Uniform I (Occ (ops ++ [.add r]))) :
    ((krun I ops).1.addReaction I r).2 = .ok () ∧
      ((krun I ops).1.addReaction I r).1.rxns = (krun I ops).1.rxns ++ [r] := by
  have h := krun_inv I hI ops (occ := Occ (ops ++ [.add r])) (by
    rintro q (⟨ρ, hm, rfl⟩ | ⟨i, ρ, hm, rfl⟩)
    · exact Or.inl ⟨ρ, by simp [hm], rfl⟩
    · exact Or.inr ⟨i, ρ, by simp [hm], rfl⟩) hu
  exact (kinv_add I hu h r (Or.inl ⟨r, by simp, rfl⟩)).2

/-! ### Witnesses and what `modifyReaction` leaves behind -/

/-- Rates of the witnesses: type, subtype and value. -/
structure Demo where
  type : String
  sub : String
  val : ℝ

/-- Their interface: no caches. -/
def demo : Iface Demo Unit :=
  ⟨Demo.type, fun r => if r.type = "Arrhenius" then "" else r.sub, fun _ => 0, fun r _ => r,
   fun r _ => r.val⟩


theorem foldl_const {α β : Type} (l : List β) (a : α) : l.foldl (fun a _ => a) a = a := by
  induction l with
  | nil => rfl
  | cons _ _ ih => exact ih

/-- The interface in which falloff subtypes are never empty. -/
def demoI : Iface Demo Unit :=
  { demo with subType := fun r => if r.type = "Arrhenius" then "" else "Lindemann" }

theorem demoI_lawful : demoI.Lawful := by
  refine ⟨fun _ _ => rfl, ?_, ?_⟩
  · intro r r' h h2
    simp only [demoI, demo] at h h2 ⊢
    rw [← h]
    split_ifs at h2 ⊢ with h3
    · rfl
    · exact h2
  · intro r ts t
    simp only [demoI, demo, foldl_const]

/-- **Finding.** Evaluators are chosen by subtype, but `MultiRate::replace` compares the type with
that of the first rate of the evaluator.  A chemically activated reaction sharing its falloff
function with an earlier falloff reaction cannot be modified: the call throws although type,
reactants and products agree, `reaction(1)` already returns the new reaction, and the rate
constants keep the old rate. -/
theorem modify_chemically_activated :
    let a : Rxn Demo := ⟨⟨"falloff", "", 1⟩, "a", none, false⟩
    let b : Rxn Demo := ⟨⟨"chemically-activated", "", 2⟩, "b", none, false⟩
    let b' : Rxn Demo := ⟨⟨"chemically-activated", "", 3⟩, "b", none, false⟩
    let K := (krun demoI [.add a, .add b]).1
    (K.modifyReaction demoI 1 b').2 = .throw ∧
    (K.modifyReaction demoI 1 b').1.rxns[1]? = some b' ∧
    (krun demoI [.add a, .add b, .modify 1 b', .rates ()]).2 1 = some 2 := by
  refine ⟨?_, ?_, ?_⟩ <;>
  simp [krun, kstep, Bulk.addReaction, Bulk.ensure, Bulk.addTo, Bulk.modifyReaction, key, demoI, demo,
    Bulk.empty, MR.empty, MR.add, MR.replace, rtype, Bulk.updateRates, MR.update,
    MR.getRateConstants]

/-- The reactions as they were when added. -/
def added : List (KOp R T) → List (Rxn R)
  | [] => []
  | .add r :: l => r :: added l
  | _ :: l => added l

theorem added_append (a b : List (KOp R T)) : added (a ++ b) = added a ++ added b := by
  induction a with
  | nil => rfl
  | cons o a ih => cases o <;> simp [added, ih]

/-- The tables filled by `addReaction` and never touched by `modifyReaction`. -/
theorem tables_from_added (ops : List (KOp R T)) :
    (krun I ops).1.rxns.length = (added ops).length ∧
    ∀ i, i ∈ (krun I ops).1.revindex ↔ ∃ r, (added ops)[i]? = some r ∧ r.reversible = true := by
  induction ops using List.reverseRecOn with
  | nil => simp [krun, Bulk.empty, added]
  | append_singleton ops o ih =>
    obtain ⟨h1, h2⟩ := ih
    have e : krun I (ops ++ [o]) = kstep I (krun I ops) o := by
      unfold krun; rw [List.foldl_append]; rfl
    rw [e, added_append]
    cases o with
    | rates t => simpa [kstep, Bulk.updateRates, added] using ⟨h1, h2⟩
    | modify i r =>
      have hm : ((krun I ops).1.modifyReaction I i r).1.rxns.length = (krun I ops).1.rxns.length ∧
          ((krun I ops).1.modifyReaction I i r).1.revindex = (krun I ops).1.revindex := by
        unfold Bulk.modifyReaction
        split
        · exact ⟨rfl, rfl⟩
        · split_ifs
          · exact ⟨rfl, rfl⟩
          · simp only
            split
            · simp
            · split
              · simp
              · split <;> simp
      simp only [kstep, hm.1, hm.2, added, List.append_nil]
      exact ⟨h1, h2⟩
    | add r =>
      have hm : ((krun I ops).1.addReaction I r).1.rxns = (krun I ops).1.rxns ++ [r] ∧
          ((krun I ops).1.addReaction I r).1.revindex = (if r.reversible then
            (krun I ops).1.revindex ++ [(krun I ops).1.rxns.length] else (krun I ops).1.revindex) := by
        have hE : ∀ (K : Bulk R T) (q : R), (K.ensure I q).rxns = K.rxns ∧
            (K.ensure I q).revindex = K.revindex := by
          intro K q; unfold Bulk.ensure; split <;> exact ⟨rfl, rfl⟩
        have hT : ∀ (K : Bulk R T) (n : Nat), (K.addTo I n r).1.rxns = K.rxns ∧
            (K.addTo I n r).1.revindex = K.revindex := by
          intro K n
          unfold Bulk.addTo
          split
          · exact ⟨rfl, rfl⟩
          · split
            · exact ⟨rfl, rfl⟩
            · split <;> exact ⟨rfl, rfl⟩
        unfold Bulk.addReaction
        rw [(hT _ _).1, (hT _ _).2, (hE _ _).1, (hE _ _).2]
        exact ⟨rfl, rfl⟩
      simp only [kstep, hm.1, hm.2, added, List.length_append, h1, List.length_singleton, true_and]
      intro i
      by_cases hi : i < (added ops).length
      · rw [List.getElem?_append_left hi, ← h2]
        split_ifs
        · simp only [List.mem_append, List.mem_singleton]
          constructor
          · rintro (h | h)
            · exact h
            · omega
          · exact Or.inl
        · rfl
      · have hn : i ∉ (krun I ops).1.revindex := by
          rw [h2, List.getElem?_eq_none (by omega)]; simp
        by_cases hi2 : i = (added ops).length
        · subst hi2
          rw [List.getElem?_concat_length]
          split_ifs with hr
          · simp [hr]
          · simp [hr, hn]
        · rw [List.getElem?_eq_none (by simp; omega)]
          split_ifs
          · simp [hn, hi2]
          · simp [hn]

/-- **Finding.** A successful `modifyReaction` may change reversibility and third-body
efficiencies; the kinetics object keeps computing with the old ones. -/
theorem modify_keeps_tables :
    let a : Rxn Demo := ⟨⟨"Arrhenius", "", 1⟩, "a", some 1, true⟩
    let a' : Rxn Demo := ⟨⟨"Arrhenius", "", 1⟩, "a", some 2, false⟩
    let K := (krun demoI [.add a]).1
    (K.modifyReaction demoI 0 a').2 = .ok () ∧ (K.modifyReaction demoI 0 a').1.rxns[0]? = some a' ∧
    0 ∈ (K.modifyReaction demoI 0 a').1.revindex ∧
    (K.modifyReaction demoI 0 a').1.concm = [(0, 1)] := by
  refine ⟨?_, ?_, ?_, ?_⟩ <;>
  simp [krun, kstep, Bulk.addReaction, Bulk.ensure, Bulk.addTo, Bulk.modifyReaction, key, demoI, demo,
    Bulk.empty, MR.empty, MR.add, MR.replace, rtype]

/-! ### Examples -/

/-- The hypotheses of `dispatch_partial` hold for a history with two evaluators. -/
example : Uniform demoI (Occ [.add ⟨⟨"Arrhenius", "", 1⟩, "a", none, true⟩,
    .add ⟨⟨"falloff", "", 2⟩, "b", none, true⟩, .modify 0 ⟨⟨"Arrhenius", "", 5⟩, "a", none, true⟩,
    .rates ()]) := by
  intro r r' h h' hk
  refine ⟨rfl, ?_⟩
  simp only [Occ, List.mem_cons, KOp.add.injEq, reduceCtorEq, List.not_mem_nil, or_false,
    KOp.modify.injEq, false_or, exists_eq_or_imp] at h h'
  simp only [key, demoI, demo] at hk ⊢
  rcases h with (rfl | ⟨ρ, rfl, rfl⟩) | ⟨i, ρ, ⟨rfl, rfl⟩, rfl⟩ <;>
  rcases h' with (rfl | ⟨ρ', rfl, rfl⟩) | ⟨i', ρ', ⟨rfl, rfl⟩, rfl⟩ <;>
  simp at hk ⊢

example : (krun demoI [.add ⟨⟨"Arrhenius", "", 1⟩, "a", none, true⟩,
    .add ⟨⟨"falloff", "", 2⟩, "b", none, true⟩, .rates (),
    .modify 0 ⟨⟨"Arrhenius", "", 5⟩, "a", none, true⟩, .rates ()]).2 0 = some 5 := by
  simp [krun, kstep, Bulk.addReaction, Bulk.ensure, Bulk.addTo, Bulk.modifyReaction, key, demoI, demo,
    Bulk.empty, MR.empty, MR.add, MR.replace, rtype, Bulk.updateRates, MR.update,
    MR.getRateConstants]

example : (run demo 0 [.add 3 ⟨"x", "", 1⟩, .update (), .replace 3 ⟨"x", "", 4⟩]).2 3
    = some ⟨"x", "", 4⟩ := by
  simp [run, step, MR.add, MR.replace, MR.update, MR.empty, demo]

end Verif.MultiRate
