import Verif.Cabinet.Model

/-!
# Specification for C11: the clib handle table

Specification: a list of slots, one per handle issued since the last `reset`; each slot holds the
object (address) or nothing, and the parent handle.
-/

namespace Verif.Cabinet

open Verif

/-! ## Abstract specification (independent of the model) -/

/-- One slot per issued handle. -/
abbrev Spec := List (Option Nat × Int)

/-- The handle denotes a live object. -/
def liveAt (s : Spec) (n : Nat) : Prop := ∃ a p, s[n]? = some (some a, p)

/-- Abstract effect of deleting handle `n`: a live slot becomes dead, anything else is unchanged. -/
def specDel (s : Spec) (n : Int) : Spec :=
  if 0 ≤ n then s.modify n.toNat (fun x => (none, x.2)) else s

/-- Abstract effect of `clear` *as implemented*: slots are emptied from the left up to the first
slot that is already dead. -/
def specClear : Spec → Spec
  | [] => []
  | (none, p) :: s => (none, p) :: s
  | (some _, p) :: s => (none, p) :: specClear s

/-- Abstract transition. -/
def specStep (s : Spec) : Op → Spec
  | .add o p => s ++ [(o, p)]
  | .del n => specDel s n
  | .clear => specClear s
  | .reset => []

/-- Abstract state after a history. -/
def specRun (ops : List Op) : Spec := ops.foldl specStep []

/-- The client never stores a null pointer. -/
def NoNull (ops : List Op) : Prop := ∀ o p, Op.add o p ∈ ops → o ≠ none

/-- Handle of the most recently added live slot with this object and parent. -/
def IsLatest (s : Spec) (a : Nat) (p : Int) (n : Nat) : Prop :=
  s[n]? = some (some a, p) ∧ ∀ m, s[m]? = some (some a, p) → m ≤ n

end Verif.Cabinet
