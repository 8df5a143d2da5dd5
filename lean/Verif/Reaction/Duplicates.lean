import Verif.Basic
import Mathlib.Data.Real.Basic
import Mathlib.Data.Finset.Max
import Mathlib.Data.Finset.Image
import Mathlib.Algebra.BigOperators.Group.List.Basic
import Mathlib.Tactic.SplitIfs
import Mathlib.Tactic.Linarith
import Mathlib.Tactic.NormNum
import Mathlib.Tactic.Ring
import Mathlib.Tactic.FieldSimp

/-!
# Detection of duplicate reactions (C10), model

Model of `Kinetics::checkDuplicates` and `Kinetics::checkDuplicateStoich`
(src/kinetics/Kinetics.cpp:106-278).

Simplifications: species are given by their global index (`kineticsSpeciesIndex`, all species are
declared), the key is a natural number (no overflow), the reactions are distinct objects and each
has a rate.  The iteration order of the unordered sets is arbitrary: `ord` and `pick` below.
-/

namespace Verif.Duplicates

/-- A `map<int, double>`: which keys it has, and its values (zero where there is no entry). -/
structure Net where
  keys : Finset ℤ
  val : ℤ → ℝ

/-- The effect of reading `net[k]`: an entry is made if there is none. -/
def Net.touch (r : Net) (k : ℤ) : Net := { r with keys := insert k r.keys }

/-- `net[k] += v`. -/
def Net.add (r : Net) (k : ℤ) (v : ℝ) : Net :=
  { keys := insert k r.keys
    val := fun j => if j = k then r.val j + v else r.val j }

/-- The empty map. -/
def Net.empty : Net := { keys := ∅, val := fun _ => 0 }

open Classical in
/-- Loop for the same direction (252-259): is there a difference?  Both maps get entries for the
keys looked at. -/
noncomputable def sameLoop (ratio : ℝ) : List ℤ → Net → Net → Bool × Net × Net
  | [], r1, r2 => (false, r1, r2)
  | k :: ks, r1, r2 =>
    let r1' := r1.touch k
    let r2' := r2.touch k
    if (r1.val k ≠ 0 ∧ r2.val k = 0) ∨ (r1.val k = 0 ∧ r2.val k ≠ 0) ∨
        (r1.val k ≠ 0 ∧ |r2.val k / r1.val k - ratio| > 1e-8) then (true, r1', r2')
    else sameLoop ratio ks r1' r2'

open Classical in
/-- Loop for the reverse direction (270-277). -/
noncomputable def revLoop (ratio : ℝ) : List ℤ → Net → Net → ℝ × Net × Net
  | [], r1, r2 => (ratio, r1, r2)
  | k :: ks, r1, r2 =>
    let r1' := r1.touch k
    let r2' := r2.touch (-k)
    if (r1.val k ≠ 0 ∧ r2.val (-k) = 0) ∨ (r1.val k = 0 ∧ r2.val (-k) ≠ 0) ∨
        (r1.val k ≠ 0 ∧ |r2.val (-k) / r1.val k - ratio| > 1e-8) then (0, r1', r2')
    else revLoop ratio ks r1' r2'

open Classical in
/-- The second half of `checkDuplicateStoich` (265-277). -/
noncomputable def revPart (ks : List ℤ) (k1 : ℤ) (r1 r2 : Net) : ℝ × Net × Net :=
  if r1.val k1 = 0 then (0, r1, r2)
  else if r2.val (-k1) = 0 then (0, r1, r2.touch (-k1))
  else revLoop (r2.val (-k1) / r1.val k1) ks r1 (r2.touch (-k1))

open Classical in
/-- `checkDuplicateStoich` after lines 239-246; `ks` are the keys of both maps in order of
iteration. -/
noncomputable def checkFrom (ks : List ℤ) (k1 : ℤ) (r1 r2 : Net) : ℝ × Net × Net :=
  let r2a := if r1.val k1 ≠ 0 then r2.touch k1 else r2
  if r1.val k1 ≠ 0 ∧ r2.val k1 ≠ 0 then
    let ratio := r2.val k1 / r1.val k1
    let s := sameLoop ratio ks r1 r2a
    if s.1 = false then (ratio, s.2.1, s.2.2) else revPart ks k1 s.2.1 s.2.2
  else revPart ks k1 r1 r2a

/-- `Kinetics::checkDuplicateStoich` (237-278); `none`: `begin()` of an empty map is read. -/
noncomputable def checkDup (ord : Finset ℤ → List ℤ) (r1 r2 : Net) : Option (ℝ × Net × Net) :=
  if h : r1.keys.Nonempty then
    some (checkFrom (ord (r1.keys ∪ r2.keys)) (r1.keys.min' h) r1 r2)
  else none

/-- A third body: is its name `M`, and otherwise which species does it name. -/
structure TB where
  isM : Bool
  sp : Option ℕ

/-- A reaction: coefficients by species, type of reaction and rate, third body, efficiencies, and
whether it is declared reversible and duplicate. -/
structure Rx where
  reac : List (ℕ × ℝ)
  prod : List (ℕ × ℝ)
  typ : String
  rateTyp : String
  reversible : Bool
  third : Option TB
  eff : ℕ → ℝ
  dup : Bool

/-- Handling of reactions with an explicit and a generic third body. -/
inductive Policy where
  | warn | error | mark | modify
  deriving DecidableEq

/-- What does not change during the check: reactions, number of species, handling, whether errors
are collected and thrown, orders of iteration. -/
structure Setup where
  rx : ℕ → Rx
  n : ℕ
  nsp : ℕ
  policy : Policy
  throwErr : Bool
  ord : ℕ → ℕ → Finset ℤ → List ℤ
  pick : Finset ℕ → ℕ

/-- The variables of the function and the mutable parts of the reactions. -/
structure St where
  nets : ℕ → Net
  parts : ℕ → List ℕ
  dup : ℕ → Bool
  eff : ℕ → ℕ → ℝ
  unmatched : Finset ℕ
  errs : List (ℕ × ℕ)

/-- Go on, return a pair, or undefined behaviour. -/
inductive Step where
  | next (s : St)
  | ret (p : ℕ × ℕ)
  | ub

/-- Assignment to one entry. -/
def upd {α : Type} (f : ℕ → α) (i : ℕ) (a : α) : ℕ → α := fun j => if j = i then a else f j

/-- A pair has been found (201-209). -/
def report (S : Setup) (i m : ℕ) (s : St) : Step :=
  if S.throwErr then .next { s with errs := s.errs ++ [(i, m)] } else .ret (i, m)

/-- Set the efficiency for the species of a third body to zero. -/
def zeroEff (e : ℕ → ℝ) : Option ℕ → ℕ → ℝ
  | none => e
  | some k => upd e k 0

open Classical in
/-- Third bodies of a pair with matching stoichiometry (157-209). -/
noncomputable def cmpThird (S : Setup) (i m : ℕ) (s : St) : Step :=
  match (S.rx i).third, (S.rx m).third with
  | some t1, some t2 =>
    if ∀ k < S.nsp, s.eff i k * s.eff m k = 0 then .next s
    else if t1.isM ≠ t2.isM then
      match S.policy with
      | .mark => .next { s with dup := upd (upd s.dup i true) m true }
      | .modify =>
        if t1.isM then .next { s with eff := upd s.eff i (zeroEff (s.eff i) t2.sp) }
        else .next { s with eff := upd s.eff m (zeroEff (s.eff m) t1.sp) }
      | .warn => .next s
      | .error => report S i m s
    else report S i m s
  | _, _ => report S i m s

open Classical in
/-- Comparison of reaction `i` with an earlier reaction `m` with the same key (138-210). -/
noncomputable def cmp (S : Setup) (i m : ℕ) (s : St) : Step :=
  if s.dup i = true ∧ s.dup m = true then
    .next { s with unmatched := (s.unmatched.erase i).erase m }
  else if (S.rx i).typ ≠ (S.rx m).typ then .next s
  else if (S.rx i).rateTyp ≠ (S.rx m).rateTyp then .next s
  else match checkDup (S.ord i m) (s.nets i) (s.nets m) with
    | none => .ub
    | some (c, n1, n2) =>
      let s' := { s with nets := upd (upd s.nets i n1) m n2 }
      if c = 0 then .next s'
      else if c < 0 ∧ (S.rx i).reversible = false ∧ (S.rx m).reversible = false then .next s'
      else cmpThird S i m s'

/-- The loop over the related reactions. -/
noncomputable def cmpLoop (S : Setup) (i : ℕ) : List ℕ → St → Step
  | [], s => .next s
  | m :: ms, s => match cmp S i m s with
    | .next s' => cmpLoop S i ms s'
    | .ret p => .ret p
    | .ub => .ub

/-- The key of a reaction (121-134). -/
def keyOf (r : Rx) : ℕ :=
  (r.reac.map (fun x => x.1 * (x.1 + 1))).sum + (r.prod.map (fun x => x.1 * (x.1 + 1))).sum

/-- The coefficients of a reaction (123-134). -/
def netOf (r : Rx) : Net :=
  r.prod.foldl (fun a x => a.add (1 + x.1) x.2)
    (r.reac.foldl (fun a x => a.add (-1 - x.1) (-x.2)) Net.empty)

/-- One pass of the outer loop (119-212). -/
noncomputable def outer (S : Setup) (i : ℕ) (s : St) : Step :=
  let key := keyOf (S.rx i)
  let s1 := { s with nets := upd s.nets i (netOf (S.rx i)) }
  match cmpLoop S i (s.parts key) s1 with
  | .next s2 => .next { s2 with parts := upd s2.parts key (s2.parts key ++ [i]) }
  | r => r

/-- The first `k` passes. -/
noncomputable def loop (S : Setup) (s : St) : ℕ → Step
  | 0 => .next s
  | k + 1 => match loop S s k with
    | .next s' => outer S k s'
    | r => r

/-- Outcome of the function. -/
inductive Result where
  | clean
  | pair (p : ℕ × ℕ)
  | threw (l : List (ℕ × ℕ))
  | ub

/-- State before the loops (109-118). -/
def start (S : Setup) : St :=
  { nets := fun _ => Net.empty
    parts := fun _ => []
    dup := fun i => (S.rx i).dup
    eff := fun i => (S.rx i).eff
    unmatched := (Finset.range S.n).filter (fun i => (S.rx i).dup = true)
    errs := [] }

open Classical in
/-- The end of the function (213-234); an unmatched duplicate `i` is reported as the pair
`(i, i)`. -/
noncomputable def finish (S : Setup) (s : St) : Result :=
  if s.unmatched ≠ ∅ then
    let i := S.pick s.unmatched
    if S.throwErr then .threw (s.errs ++ [(i, i)]) else .pair (i, i)
  else if s.errs = [] then .clean
  else .threw s.errs

/-- `Kinetics::checkDuplicates` (106-235). -/
noncomputable def check (S : Setup) : Result :=
  match loop S (start S) S.n with
  | .next s => finish S s
  | .ret p => .pair p
  | .ub => .ub

/-! ## What duplicates are -/

/-- Reactant coefficient of species `k`. -/
def rc (r : Rx) (k : ℕ) : ℝ := ((r.reac.filter (fun x => x.1 = k)).map Prod.snd).sum

/-- Product coefficient of species `k`. -/
def pc (r : Rx) (k : ℕ) : ℝ := ((r.prod.filter (fun x => x.1 = k)).map Prod.snd).sum

/-- Proportional, written in the same direction. -/
def SameDir (a b : Rx) (c : ℝ) : Prop := ∀ k, rc b k = c * rc a k ∧ pc b k = c * pc a k

/-- Proportional, written in opposite directions. -/
def OppDir (a b : Rx) (c : ℝ) : Prop := ∀ k, pc b k = c * rc a k ∧ rc b k = c * pc a k

/-- `y` is `c x` up to the tolerance of the code. -/
def Near (c x y : ℝ) : Prop := (x = 0 ↔ y = 0) ∧ |y - c * x| ≤ 1e-8 * |x|

/-- Nearly proportional, same direction. -/
def SameNear (a b : Rx) (c : ℝ) : Prop :=
  ∀ k, Near c (rc a k) (rc b k) ∧ Near c (pc a k) (pc b k)

/-- Nearly proportional, opposite directions. -/
def OppNear (a b : Rx) (c : ℝ) : Prop :=
  ∀ k, Near c (rc a k) (pc b k) ∧ Near c (pc a k) (rc b k)

/-- Species `k` takes part in a reaction. -/
def Part (r : Rx) (k : ℕ) : Prop := (∃ v, (k, v) ∈ r.reac) ∨ ∃ v, (k, v) ∈ r.prod

/-- A pair is reported. -/
def Reported (S : Setup) (p : ℕ × ℕ) : Prop :=
  check S = .pair p ∨ ∃ l, check S = .threw l ∧ p ∈ l

end Verif.Duplicates
