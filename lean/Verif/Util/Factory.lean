import Verif.Basic
import Mathlib.Tactic.Common
import Mathlib.Tactic.SplitIfs
import Mathlib.Algebra.Order.Group.Nat

/-!
# C36: factory registration and aliases (include/cantera/base/FactoryBase.h:68-134)

`std::unordered_map` is a partial function.  Makers are an arbitrary type `M`; calling the maker is
not modelled, `create` yields the maker that is called.  The deprecation warning printed by
`canonicalize` is not modelled.
-/

namespace Verif.Factory

open Verif

/-- The three maps (FactoryBase.h:126-133). -/
structure Fac (M : Type) where
  creators : String → Option M
  synonyms : String → Option String
  deprecated : String → Option String

variable {M : Type}

/-- `m[k] = v` -/
def upd {V : Type} (m : String → Option V) (k : String) (v : V) : String → Option V :=
  fun k' => if k' = k then some v else m k'

/-- Empty factory. -/
def Fac.empty : Fac M := ⟨fun _ => none, fun _ => none, fun _ => none⟩

/-- FactoryBase.h:80-82 -/
def Fac.reg (f : Fac M) (name : String) (m : M) : Fac M := { f with creators := upd f.creators name m }

/-- FactoryBase.h:85-91 -/
def Fac.addAlias (f : Fac M) (original syn : String) : Outcome (Fac M) :=
  if (f.creators original).isNone then .throw
  else .ok { f with synonyms := upd f.synonyms syn original }

/-- FactoryBase.h:116-123 -/
def Fac.addDeprecatedAlias (f : Fac M) (original syn : String) : Outcome (Fac M) :=
  if (f.creators original).isNone then .throw
  else .ok { f with deprecated := upd f.deprecated syn original }

/-- FactoryBase.h:94-107 -/
def Fac.canonicalize (f : Fac M) (name : String) : Outcome String :=
  if (f.creators name).isSome then .ok name
  else match f.synonyms name with
    | some s => .ok s
    | none => match f.deprecated name with
      | some s => .ok s
      | none => .throw

/-- FactoryBase.h:75-77; `unordered_map::at` throws for a missing key. -/
def Fac.create (f : Fac M) (name : String) : Outcome M :=
  f.canonicalize name >>= fun c => match f.creators c with
    | some m => .ok m
    | none => .throw

/-- FactoryBase.h:110-112 -/
def Fac.exists (f : Fac M) (name : String) : Bool :=
  (f.creators name).isSome || (f.synonyms name).isSome

/-- Registration calls. -/
inductive Op (M : Type) where
  | reg (name : String) (m : M)
  | syn (original syn : String)
  | deprecatedAlias (original syn : String)

/-- One call; a call that throws leaves the factory unchanged. -/
def Fac.step (f : Fac M) : Op M → Fac M
  | .reg n m => f.reg n m
  | .syn o a => match f.addAlias o a with | .ok f' => f' | _ => f
  | .deprecatedAlias o a => match f.addDeprecatedAlias o a with | .ok f' => f' | _ => f

/-- A history of calls (exceptions caught by the caller). -/
def Fac.run (ops : List (Op M)) : Fac M := ops.foldl Fac.step Fac.empty

/-! ## Specification: read off the history, newest call first -/

/-- The maker given in the latest `reg` of `name`. -/
def lastReg (name : String) : List (Op M) → Option M
  | [] => none
  | .reg n m :: rest => if n = name then some m else lastReg name rest
  | _ :: rest => lastReg name rest

/-- Target of the latest alias call for `name` whose target was registered at that time. -/
def lastAlias (name : String) : List (Op M) → Option String
  | [] => none
  | .syn o a :: rest =>
    if a = name ∧ (lastReg o rest).isSome then some o else lastAlias name rest
  | _ :: rest => lastAlias name rest

/-- Same for deprecated aliases. -/
def lastDeprecated (name : String) : List (Op M) → Option String
  | [] => none
  | .deprecatedAlias o a :: rest =>
    if a = name ∧ (lastReg o rest).isSome then some o else lastDeprecated name rest
  | _ :: rest => lastDeprecated name rest

/-! ## Theorems -/

theorem run_snoc (ops : List (Op M)) (o : Op M) : Fac.run (ops ++ [o]) = (Fac.run ops).step o := by
  simp [Fac.run]

theorem run_maps (rev : List (Op M)) :
    (∀ n, (Fac.run rev.reverse).creators n = lastReg n rev) ∧
    (∀ n, (Fac.run rev.reverse).synonyms n = lastAlias n rev) ∧
    (∀ n, (Fac.run rev.reverse).deprecated n = lastDeprecated n rev) := by
  induction rev with
  | nil => exact ⟨fun _ => rfl, fun _ => rfl, fun _ => rfl⟩
  | cons o rest ih =>
    obtain ⟨h1, h2, h3⟩ := ih
    rw [List.reverse_cons, run_snoc]
    cases o with
    | reg n m =>
      refine ⟨fun k => ?_, fun k => by simpa [Fac.step, Fac.reg, lastAlias] using h2 k,
        fun k => by simpa [Fac.step, Fac.reg, lastDeprecated] using h3 k⟩
      simp only [Fac.step, Fac.reg, upd, lastReg, h1]
      by_cases e : k = n
      · subst e; simp
      · rw [if_neg e, if_neg (fun h => e h.symm)]
    | syn orig a =>
      simp only [Fac.step, Fac.addAlias, h1]
      cases hr : lastReg orig rest with
      | none =>
        simp only [Option.isNone_none, if_true]
        exact ⟨fun k => by simpa [lastReg] using h1 k, fun k => by simpa [lastAlias, hr] using h2 k,
          fun k => by simpa [lastDeprecated] using h3 k⟩
      | some m =>
        simp only [Option.isNone_some, Bool.false_eq_true, if_false]
        refine ⟨fun k => by simpa [lastReg] using h1 k, fun k => ?_,
          fun k => by simpa [lastDeprecated] using h3 k⟩
        simp only [upd, lastAlias, hr, h2]
        by_cases e : k = a
        · subst e; simp
        · rw [if_neg e, if_neg (fun h => e h.1.symm)]
    | deprecatedAlias orig a =>
      simp only [Fac.step, Fac.addDeprecatedAlias, h1]
      cases hr : lastReg orig rest with
      | none =>
        simp only [Option.isNone_none, if_true]
        exact ⟨fun k => by simpa [lastReg] using h1 k, fun k => by simpa [lastAlias] using h2 k,
          fun k => by simpa [lastDeprecated, hr] using h3 k⟩
      | some m =>
        simp only [Option.isNone_some, Bool.false_eq_true, if_false]
        refine ⟨fun k => by simpa [lastReg] using h1 k, fun k => by simpa [lastAlias] using h2 k,
          fun k => ?_⟩
        simp only [upd, lastDeprecated, hr, h3]
        by_cases e : k = a
        · subst e; simp
        · rw [if_neg e, if_neg (fun h => e h.1.symm)]

theorem lastReg_mono (n : String) (o : Op M) (rest : List (Op M)) (h : (lastReg n rest).isSome) :
    (lastReg n (o :: rest)).isSome := by
  cases o with
  | reg k m => simp only [lastReg]; split_ifs <;> simp [h]
  | syn => exact h
  | deprecatedAlias => exact h

theorem lastAlias_reg (n t : String) (rev : List (Op M)) (h : lastAlias n rev = some t) :
    (lastReg t rev).isSome := by
  induction rev with
  | nil => simp [lastAlias] at h
  | cons o rest ih =>
    apply lastReg_mono
    cases o with
    | reg k m => exact ih h
    | syn o a =>
      simp only [lastAlias] at h
      split_ifs at h with hc
      · obtain rfl := Option.some.inj h; exact hc.2
      · exact ih h
    | deprecatedAlias o a => exact ih h

theorem lastDeprecated_reg (n t : String) (rev : List (Op M)) (h : lastDeprecated n rev = some t) :
    (lastReg t rev).isSome := by
  induction rev with
  | nil => simp [lastDeprecated] at h
  | cons o rest ih =>
    apply lastReg_mono
    cases o with
    | reg k m => exact ih h
    | deprecatedAlias o a =>
      simp only [lastDeprecated] at h
      split_ifs at h with hc
      · obtain rfl := Option.some.inj h; exact hc.2
      · exact ih h
    | syn o a => exact ih h

/-- After any history: a registered name yields its most recently registered maker, whatever aliases exist. -/
theorem factory_registered (ops : List (Op M)) (name : String) (m : M)
    (h : lastReg name ops.reverse = some m) : (Fac.run ops).create name = .ok m := by
  have hm := run_maps ops.reverse
  rw [List.reverse_reverse] at hm
  simp [Fac.create, Fac.canonicalize, hm.1, h]

/-- After any history: a name that is not registered but aliased yields what its target yields. -/
theorem factory_alias (ops : List (Op M)) (name target : String)
    (hn : lastReg name ops.reverse = none) (h : lastAlias name ops.reverse = some target) :
    ∃ m, lastReg target ops.reverse = some m ∧ (Fac.run ops).create name = .ok m ∧
      (Fac.run ops).create target = .ok m ∧ (Fac.run ops).canonicalize name = .ok target := by
  have hm := run_maps ops.reverse
  rw [List.reverse_reverse] at hm
  obtain ⟨m, hr⟩ := Option.isSome_iff_exists.1 (lastAlias_reg name target _ h)
  exact ⟨m, hr, by simp [Fac.create, Fac.canonicalize, hm.1, hm.2.1, hn, h, hr],
    by simp [Fac.create, Fac.canonicalize, hm.1, hr],
    by simp [Fac.canonicalize, hm.1, hm.2.1, hn, h]⟩

/-- After any history: deprecated names resolve to their target if the name is neither registered nor aliased. -/
theorem factory_deprecated (ops : List (Op M)) (name target : String)
    (hn : lastReg name ops.reverse = none) (ha : lastAlias name ops.reverse = none)
    (h : lastDeprecated name ops.reverse = some target) :
    ∃ m, lastReg target ops.reverse = some m ∧ (Fac.run ops).create name = .ok m := by
  have hm := run_maps ops.reverse
  rw [List.reverse_reverse] at hm
  obtain ⟨m, hr⟩ := Option.isSome_iff_exists.1 (lastDeprecated_reg name target _ h)
  exact ⟨m, hr, by simp [Fac.create, Fac.canonicalize, hm.1, hm.2.1, hm.2.2, hn, ha, h, hr]⟩

/-- `create` fails exactly for names that were never registered or successfully aliased. -/
theorem factory_unknown (ops : List (Op M)) (name : String) :
    (Fac.run ops).create name = .throw ↔
      lastReg name ops.reverse = none ∧ lastAlias name ops.reverse = none ∧
        lastDeprecated name ops.reverse = none := by
  constructor
  · intro h
    cases h1 : lastReg name ops.reverse with
    | some m => rw [factory_registered ops name m h1] at h; cases h
    | none =>
      cases h2 : lastAlias name ops.reverse with
      | some t => obtain ⟨m, -, e, -⟩ := factory_alias ops name t h1 h2; rw [e] at h; cases h
      | none =>
        cases h3 : lastDeprecated name ops.reverse with
        | some t => obtain ⟨m, -, e⟩ := factory_deprecated ops name t h1 h2 h3; rw [e] at h; cases h
        | none => exact ⟨rfl, rfl, rfl⟩
  · rintro ⟨h1, h2, h3⟩
    have hm := run_maps ops.reverse
    rw [List.reverse_reverse] at hm
    simp [Fac.create, Fac.canonicalize, hm.1, hm.2.1, hm.2.2, h1, h2, h3]

/-- An alias call for a target that is not registered is an error and changes nothing. -/
theorem factory_alias_throws_iff (ops : List (Op M)) (o a : String) :
    (Fac.run ops).addAlias o a = .throw ↔ lastReg o ops.reverse = none := by
  have hm := run_maps ops.reverse
  rw [List.reverse_reverse] at hm
  simp only [Fac.addAlias, hm.1]
  cases lastReg o ops.reverse <;> simp

/-- `exists` agrees with `create` succeeding for all names without a deprecated alias. -/
theorem factory_exists (ops : List (Op M)) (name : String)
    (hd : lastDeprecated name ops.reverse = none) :
    (Fac.run ops).exists name = true ↔ (Fac.run ops).create name ≠ .throw := by
  rw [ne_eq, factory_unknown]
  have hm := run_maps ops.reverse
  rw [List.reverse_reverse] at hm
  simp only [Fac.exists, hm.1, hm.2.1, hd]
  cases lastReg name ops.reverse <;> cases lastAlias name ops.reverse <;> simp

/-- Finding: `exists` is false for deprecated names although `create` accepts them. -/
theorem factory_exists_deprecated :
    ∃ ops : List (Op ℕ), (Fac.run ops).exists "old" = false ∧ (Fac.run ops).create "old" = .ok 1 :=
  ⟨[.reg "new" 1, .deprecatedAlias "new" "old"], by decide, rfl⟩

/-- Finding: an alias whose name is itself registered is accepted and silently ignored. -/
theorem factory_alias_shadowed :
    ∃ (f f' : Fac ℕ), f.addAlias "a" "b" = .ok f' ∧ f'.create "a" = .ok 1 ∧ f'.create "b" = .ok 2 := by
  refine ⟨Fac.run [.reg "a" 1, .reg "b" 2], _, rfl, rfl, rfl⟩

example : lastReg "b" ([.reg "a" 1, .syn "a" "b", .reg "a" 3, .deprecatedAlias "a" "c"] : List (Op ℕ)).reverse = none ∧
    lastAlias "b" ([.reg "a" 1, .syn "a" "b", .reg "a" 3, .deprecatedAlias "a" "c"] : List (Op ℕ)).reverse = some "a" ∧
    lastDeprecated "c" ([.reg "a" 1, .syn "a" "b", .reg "a" 3, .deprecatedAlias "a" "c"] : List (Op ℕ)).reverse = some "a" ∧
    lastReg "a" ([.reg "a" 1, .syn "a" "b", .reg "a" 3, .deprecatedAlias "a" "c"] : List (Op ℕ)).reverse = some 3 := by
  decide

end Verif.Factory
