import Verif.Basic
import Mathlib.Data.List.Basic
import Mathlib.Data.List.Nodup
import Mathlib.Logic.Function.Basic

/-!
# Solution objects (C111)

Model of adjacent phases, managers and callbacks in `src/base/Solution.cpp`.  Objects are numbers.  Input files and
serialisation are not modelled.
-/

namespace Verif.Solution

/-- What is known of all `Solution` objects: whether they have a thermo object, its name and its dimension. -/
structure World where
  has : ℕ → Bool
  name : ℕ → String
  dim : ℕ → ℕ

/-- `m_adjacent` and `m_adjacentByName` (Solution.h:168-171) -/
structure Adj where
  list : List ℕ
  byName : String → Option ℕ

/-- A new object. -/
def Adj.empty : Adj := ⟨[], fun _ => none⟩

/-- `addAdjacent` of object `me` (Solution.cpp:94-111); `name()` throws without thermo object (lines 25-32). -/
def add (w : World) (me a : ℕ) (s : Adj) : Outcome Adj :=
  if w.has a = false then .throw
  else if (s.byName (w.name a)).isSome then .throw
  else if w.has me = true ∧ w.dim a ≤ w.dim me then .throw
  else .ok ⟨s.list ++ [a], Function.update s.byName (w.name a) (some a)⟩

/-- Several calls, in order. -/
def addAll (w : World) (me : ℕ) : List ℕ → Adj → Outcome Adj
  | [], s => .ok s
  | a :: l, s => (add w me a s).bind (addAll w me l)

/-- `adjacentName` (Solution.h:117-123) -/
def adjName (w : World) (s : Adj) (i : ℕ) : Outcome String :=
  match s.list[i]? with
  | none => .throw
  | some a => if w.has a then .ok (w.name a) else .throw

/-- Managers of a solution and its callbacks: `cb` maps an identifier to a callback. -/
structure Man where
  thermo : Option ℕ
  kin : Option ℕ
  tr : Option ℕ
  cb : ℕ → Option ℕ

/-- `registerChangedCallback`, `removeChangedCallback` (Solution.cpp:181-189) -/
def register (id f : ℕ) (m : Man) : Man := { m with cb := Function.update m.cb id (some f) }

/-- See `register`. -/
def remove (id : ℕ) (m : Man) : Man := { m with cb := Function.update m.cb id none }

/-- `setThermo` (lines 43-49): the new state and the callbacks called; a null pointer is dereferenced at line 45. -/
def setThermo (t : Option ℕ) (m : Man) : Outcome (Man × (ℕ → Option ℕ)) :=
  match t with
  | none => .ub
  | some t => .ok ({ m with thermo := some t }, m.cb)

/-- `setKinetics` (lines 51-62) -/
def setKin (k : Option ℕ) (m : Man) : Man × (ℕ → Option ℕ) :=
  if k = m.kin then (m, fun _ => none) else ({ m with kin := k }, m.cb)

/-- `setTransport` (lines 73-81) -/
def setTr (k : Option ℕ) (m : Man) : Man × (ℕ → Option ℕ) :=
  if k = m.tr then (m, fun _ => none) else ({ m with tr := k }, m.cb)

end Verif.Solution
