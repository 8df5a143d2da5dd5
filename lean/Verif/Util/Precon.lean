import Verif.Basic
import Mathlib.Data.Real.Basic
import Mathlib.Algebra.BigOperators.Group.List.Basic
import Mathlib.Algebra.BigOperators.Group.Finset.Basic
import Mathlib.Tactic.Linarith
import Mathlib.Tactic.Ring

/-!
# C88: Sparse Jacobians and preconditioners

EigenSparseJacobian.cpp, AdaptivePreconditioner.cpp, EigenSparseDirectJacobian.cpp and the part of
ReactorNet.cpp and of the integrators that uses them.  A sparse matrix is a function of row and column;
an element that is not stored is zero.  Eigen's factorizations are given functions: `ok M` says whether
`compute(M)` succeeds.
-/

namespace Verif.Precon

/-- Eigen::Triplet. -/
structure Trip where
  row : ℕ
  col : ℕ
  val : ℝ

/-- The matrix of a list of triplets (`setFromTriplets` adds values of equal indices). -/
noncomputable def entry (l : List Trip) (i j : ℕ) : ℝ :=
  (l.map fun t => if t.row = i ∧ t.col = j then t.val else 0).sum

/-- Objects: SystemJacobian.h:207-225, EigenSparseJacobian.h:42-49, AdaptivePreconditioner.h:73-87.
`solverDrop`, `solverFill` are the numbers inside Eigen::IncompleteLUT; `factored` is the matrix of the
last successful factorization. -/
structure Jac where
  adaptive : Bool
  dim : ℕ
  trips : List Trip
  matrix : ℕ → ℕ → ℝ
  gamma : ℝ
  atol : ℝ
  threshold : ℝ
  prune : Bool
  dropTol : ℝ
  fill : ℝ
  solverDrop : ℝ
  solverFill : ℝ
  factored : Option (ℕ → ℕ → ℝ)

/-- EigenSparseJacobian::initialize (lines 12-28). -/
def initBase (s : Jac) (n : ℕ) : Jac :=
  { s with
    trips := []
    dim := n
    matrix := fun _ _ => 0 }

/-- AdaptivePreconditioner.h:60-63. -/
def setDropTol (s : Jac) (x : ℝ) : Jac :=
  { s with
    dropTol := x
    solverDrop := x }

/-- AdaptivePreconditioner.h:67-70. -/
def setFill (s : Jac) (x : ℝ) : Jac :=
  { s with
    fill := x
    solverFill := x }

open Classical in
/-- initialize; for the adaptive class AdaptivePreconditioner.cpp:24-38. -/
noncomputable def initObj (s : Jac) (n : ℕ) : Jac :=
  let s := initBase s n
  if s.adaptive then
    let s := if s.dropTol = 0 then setDropTol s (1 / 10 ^ 12) else s
    if s.dropTol = 0 then setFill s ((n / 2 : ℕ) : ℝ) else s
  else s

/-- setThreshold (AdaptivePreconditioner.h:53-56). -/
noncomputable def setThreshold (s : Jac) (x : ℝ) : Jac :=
  { s with
    threshold := x
    prune := !decide (x ≤ 0) }

/-- reset (lines 30-34). -/
def reset (s : Jac) : Jac :=
  { s with
    matrix := fun _ _ => 0
    trips := [] }

/-- setValue (lines 36-39). -/
def setValue (s : Jac) (r c : ℕ) (v : ℝ) : Jac := { s with trips := s.trips ++ [⟨r, c, v⟩] }

/-- prunePreconditioner (AdaptivePreconditioner.cpp:64-74). -/
noncomputable def pruned (M : ℕ → ℕ → ℝ) (thr : ℝ) (i j : ℕ) : ℝ :=
  if |M i j| < thr ∧ i ≠ j then 0 else M i j

/-- factorize (AdaptivePreconditioner.cpp:48-62, EigenSparseDirectJacobian.cpp:12-22): `false` if it
throws. -/
noncomputable def factorize (ok : (ℕ → ℕ → ℝ) → Bool) (s : Jac) : Jac × Bool :=
  let M := if s.adaptive && s.prune then pruned s.matrix s.threshold else s.matrix
  ({ s with
     matrix := M
     factored := if ok M then some M else none }, ok M)

/-- `setFromTriplets` without index checks. -/
def inRange (s : Jac) : Prop := ∀ t ∈ s.trips, t.row < s.dim ∧ t.col < s.dim

open Classical in
/-- updatePreconditioner (lines 41-49). -/
noncomputable def update (ok : (ℕ → ℕ → ℝ) → Bool) (s : Jac) : Outcome (Jac × Bool) :=
  if inRange s then
    .ok (factorize ok { s with
      matrix := fun i j => (if i = j then 1 else 0) - s.gamma * entry s.trips i j })
  else .ub

open Classical in
/-- updateTransient (lines 51-59). -/
noncomputable def transient (ok : (ℕ → ℕ → ℝ) → Bool) (s : Jac) (rdt : ℝ) (mask : ℕ → ℤ) :
    Outcome (Jac × Bool) :=
  if inRange s then
    .ok (factorize ok { s with
      matrix := fun i j => entry s.trips i j - rdt * (if i = j then (mask i : ℝ) else 0) })
  else .ub

/-- `matrix()` (EigenSparseJacobian.h:31-34): the object afterwards and the result. -/
noncomputable def getMatrix (ok : (ℕ → ℕ → ℝ) → Bool) (s : Jac) : Outcome (Jac × Option (ℕ → ℕ → ℝ)) :=
  match update ok s with
  | .ok (s', true) => .ok (s', some s'.matrix)
  | .ok (s', false) => .ok (s', none)
  | .throw => .throw
  | .ub => .ub

/-- solve (EigenSparseDirectJacobian.cpp:24-32, AdaptivePreconditioner.cpp:76-88) with a given solver
for the factorized matrix; `none` before any factorization. -/
def solve (lin : (ℕ → ℕ → ℝ) → (ℕ → ℝ) → ℕ → ℝ) (s : Jac) (b : ℕ → ℝ) : Option (ℕ → ℝ) :=
  s.factored.map fun M => lin M b

/-- stateAdjustment (AdaptivePreconditioner.cpp:17-22). -/
noncomputable def adjust (s : Jac) (y : ℕ → ℝ) (i : ℕ) : ℝ := max (y i) s.atol

/-! ## Networks (ReactorNet.cpp:558-608) -/

/-- The Jacobian of one reactor: number of variables and stored elements. -/
structure Block where
  size : ℕ
  elems : List Trip

/-- Lines 586-595: elements of the reactors at their place, `s` = m_start[i]. -/
def place : ℕ → List Block → List Trip
  | _, [] => []
  | s, b :: bs => b.elems.map (fun t => ⟨t.row + s, t.col + s, t.val⟩) ++ place (s + b.size) bs

/-- preconditionerSetup (lines 567-597).  `rt y` is the result of updateState followed by getState,
`jac` the Jacobians of the reactors in a given state.  Returns the object and the state in which the
reactors are left. -/
noncomputable def setup (ok : (ℕ → ℕ → ℝ) → Bool) (rt : (ℕ → ℝ) → ℕ → ℝ) (jac : (ℕ → ℝ) → List Block)
    (s : Jac) (y : ℕ → ℝ) (gamma : ℝ) : Outcome ((Jac × Bool) × (ℕ → ℝ)) :=
  let s := reset s
  let s := { s with gamma := gamma }
  let z := adjust s (rt y)
  let s := (place 0 (jac z)).foldl (fun s t => setValue s t.row t.col t.val) s
  match update ok s with
  | .ok r => .ok (r, z)
  | .throw => .throw
  | .ub => .ub

/-- ReactorNet::updatePreconditioner (lines 599-608). -/
noncomputable def newGamma (ok : (ℕ → ℕ → ℝ) → Bool) (s : Jac) (gamma : ℝ) : Outcome (Jac × Bool) :=
  update ok { s with gamma := gamma }

/-! ## Choosing the preconditioner -/

/-- PreconditionerSide (SystemJacobian.h:19-24). -/
inductive Side where
  | none | left | right | both
  deriving DecidableEq

/-- The part of an integrator: pointer (by number) and side. -/
structure Integ where
  precon : Option ℕ
  side : Side

/-- Integrator::setPreconditioner (Integrator.h:94-108): the pointer is stored first. -/
def setPrecon (g : Integ) (p : ℕ) (name : String) : Integ × Bool :=
  let g := { g with precon := some p }
  if name = "none" then ({ g with side := .none }, true)
  else if name = "left" then ({ g with side := .left }, true)
  else if name = "right" then ({ g with side := .right }, true)
  else if name = "both" then ({ g with side := .both }, true)
  else (g, false)

/-- ReactorNet::initialize lines 123-125. -/
def netInit (g : Integ) (p : Option (ℕ × String)) : Integ × Bool :=
  match p with
  | some (p, name) => setPrecon g p name
  | .none => (g, true)

/-- CVodesIntegrator::applyOptions (lines 352-462): is the choice of linear solver accepted, and is the
preconditioner used? -/
def applyOptions (g : Integ) (type : String) : Bool × Bool :=
  if type = "DENSE" then (decide (g.side = .none), false)
  else if type = "DIAG" then (decide (g.side = .none), false)
  else if type = "GMRES" then (true, decide (g.side ≠ .none))
  else if type = "BAND" then (true, false)
  else (false, false)

end Verif.Precon
