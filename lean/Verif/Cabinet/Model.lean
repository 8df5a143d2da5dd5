import Verif.Basic

/-!
# Model of the handle table `Cabinet<M>` (src/clib/Cabinet.h)

Objects are represented by their address (`Nat`); a null `shared_ptr` is `none`.
`static_cast<int>` of the table size is exact (`Nat`), i.e. fewer than 2^31 entries.
`Cabinet::copy` (l. 111-118) is not modelled: the template body does not type check
(`add(*data[n])` passes an `M` where a `shared_ptr<M>` is expected) and no translation unit
instantiates it.
-/

namespace Verif.Cabinet

open Verif

/-- A raw pointer to an object; `none` is the null pointer. -/
abbrev Ptr := Option Nat

/-- Data members `m_table`, `m_parents`, `m_lookup` (src/clib/Cabinet.h:248-258).
`m_lookup : unordered_map<const M*, set<int>>` is a function; `none` means "key absent".
A `set<int>` is its sorted list of elements. -/
structure Cab where
  table : List Ptr
  parents : List Int
  lookup : Ptr → Option (List Nat)

/-- Freshly constructed singleton (src/clib/Cabinet.h:60). -/
def Cab.empty : Cab := ⟨[], [], fun _ => none⟩

/-- `std::set<int>::insert` on the sorted list of elements. -/
def setInsert (n : Nat) : List Nat → List Nat
  | [] => [n]
  | a :: l => if n < a then n :: a :: l else if n = a then a :: l else a :: setInsert n l

/-- `std::set<int>::erase`. -/
def setErase (n : Nat) (l : List Nat) : List Nat := l.filter (· ≠ n)

/-- Map update. -/
def upd (f : Ptr → Option (List Nat)) (p : Ptr) (v : Option (List Nat)) :
    Ptr → Option (List Nat) := fun q => if q = p then v else f q

/-- `Cabinet::add` (src/clib/Cabinet.h:65-78). -/
def Cab.add (c : Cab) (obj : Ptr) (parent : Int) : Cab × Nat :=
  let data := c.table ++ [obj]
  let idx := data.length - 1
  let lk := match c.lookup obj with
    | some s => upd c.lookup obj (some (setInsert idx s))
    | none => upd c.lookup obj (some [idx])
  (⟨data, c.parents ++ [parent], lk⟩, idx)

/-- `Cabinet::size` (src/clib/Cabinet.h:83-85). -/
def Cab.size (c : Cab) : Nat := c.table.length

/-- `Cabinet::del` (src/clib/Cabinet.h:123-143).  The new table and whether an exception was
thrown (in both throwing branches nothing has been modified). -/
def Cab.del (c : Cab) (n : Int) : Cab × Outcome Unit :=
  if 0 ≤ n ∧ n < c.table.length then
    match c.table[n.toNat]? with
    | none => (c, .ub)
    | some p =>
      match c.lookup p with
      | none => (c, .throw)
      | some s =>
        let lk := if s.length = 1 then upd c.lookup p none
                  else upd c.lookup p (some (setErase n.toNat s))
        ({ c with table := c.table.set n.toNat none, lookup := lk }, .ok ())
  else (c, .throw)

/-- Loop body of `Cabinet::clear` (src/clib/Cabinet.h:92-94): the first exception leaves the loop,
keeping what was already deleted. -/
def Cab.clearLoop (c : Cab) : List Nat → Cab × Outcome Unit
  | [] => (c, .ok ())
  | i :: is =>
    match c.del (i : Int) with
    | (c', .ok ()) => clearLoop c' is
    | (c', r) => (c', r)

/-- `Cabinet::clear` (src/clib/Cabinet.h:90-96). -/
def Cab.clear (c : Cab) : Cab × Outcome Unit := c.clearLoop (List.range c.table.length)

/-- `Cabinet::reset` (src/clib/Cabinet.h:101-106). -/
def Cab.reset (_ : Cab) : Cab := Cab.empty

/-- `Cabinet::parent` (src/clib/Cabinet.h:148-154). -/
def Cab.parent (c : Cab) (n : Int) : Outcome Int :=
  if n < 0 ∨ n ≥ c.parents.length then .throw
  else Outcome.vecGet c.parents n.toNat

/-- `Cabinet::at` (src/clib/Cabinet.h:159-169). -/
def Cab.at (c : Cab) (n : Int) : Outcome Nat :=
  if n < 0 ∨ n ≥ c.table.length then .throw
  else match c.table[n.toNat]? with
    | none => .ub
    | some none => .throw
    | some (some a) => .ok a

/-- Loop over the set in reverse order (src/clib/Cabinet.h:195-199);
`parents[e]` out of range is undefined behaviour. -/
def indexLoop (parents : List Int) (parent : Int) : List Nat → Outcome Int
  | [] => .ok (-2)
  | e :: es =>
    match parents[e]? with
    | none => .ub
    | some p => if p = parent then .ok (e : Int) else indexLoop parents parent es

/-- `Cabinet::index` (src/clib/Cabinet.h:188-201). -/
def Cab.index (c : Cab) (obj : Nat) (parent : Int) : Outcome Int :=
  match c.lookup (some obj) with
  | none => .ok (-1)
  | some s => indexLoop c.parents parent s.reverse

/-- Mutating calls a client can make. -/
inductive Op where
  | add (obj : Ptr) (parent : Int)
  | del (n : Int)
  | clear
  | reset

/-- State after one call. -/
def step (c : Cab) : Op → Cab
  | .add o p => (c.add o p).1
  | .del n => (c.del n).1
  | .clear => c.clear.1
  | .reset => c.reset

/-- State after a history of calls on the freshly created singleton. -/
def run (ops : List Op) : Cab := ops.foldl step Cab.empty

end Verif.Cabinet
