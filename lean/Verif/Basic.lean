/-!
# Shared vocabulary

`Outcome` is how every fallible C++ function is modelled: a value, a C++ exception or
undefined behaviour.  It is a modelling convention, not a piece of `/repo`.
-/

namespace Verif

/-- Result of a modelled C++ call.  `throw` is any C++ exception derived from `std::exception`
(the message is not modelled), `ub` is undefined behaviour (out-of-range access, null or
`end()` dereference, ...). -/
inductive Outcome (α : Type u) where
  | ok (a : α)
  | throw
  | ub
  deriving DecidableEq, Repr

namespace Outcome

/-- Sequencing: exceptions and undefined behaviour propagate. -/
def bind {α : Type u} {β : Type v} (x : Outcome α) (f : α → Outcome β) : Outcome β :=
  match x with
  | ok a => f a
  | throw => throw
  | ub => ub

instance : Monad Outcome where
  pure := ok
  bind := bind

@[simp] theorem bind_ok {α β : Type u} (a : α) (f : α → Outcome β) :
    (Outcome.ok a >>= f) = f a := rfl
@[simp] theorem bind_throw {α β : Type u} (f : α → Outcome β) :
    ((Outcome.throw : Outcome α) >>= f) = Outcome.throw := rfl
@[simp] theorem bind_ub {α β : Type u} (f : α → Outcome β) :
    ((Outcome.ub : Outcome α) >>= f) = Outcome.ub := rfl
@[simp] theorem pure_eq {α : Type u} (a : α) : (pure a : Outcome α) = ok a := rfl

/-- The call returned normally. -/
def isOk {α : Type u} : Outcome α → Bool
  | ok _ => true
  | _ => false

/-- Read `v[i]` of a C++ vector: out of range is undefined behaviour. -/
def vecGet {α : Type u} (v : List α) (i : Nat) : Outcome α :=
  match v[i]? with
  | some a => ok a
  | none => ub

end Outcome

end Verif
