import Verif.Basic
import Mathlib.Data.Real.Basic
import Mathlib.Algebra.BigOperators.Intervals

/-!
# Model of src/numerics/BandMatrix.cpp

The storage vector `data` is a list; reading outside of it is `ub`.  A `double&` result is a location (`Loc`).
LAPACK's factorisation is represented by the copy of `data` it was computed from (`lu`).
Not modelled: the pivot vector, `rcond`, the printed form, column pointers other than as
addresses into `data`.
-/

namespace Verif.BandM

open Verif

/-- `BandMatrix` (BandMatrix.h:241-275): `n`, `kl`, `ku`, `data`, `m_zero`, `m_factored`, and the
data from which `ludata` was last computed (`none`: never). -/
structure Band where
  n : ℕ
  kl : ℕ
  ku : ℕ
  data : List ℝ
  zeroCell : ℝ
  factored : Bool
  lu : Option (List ℝ)

/-- Constructor (BandMatrix.cpp:44-62), `m_zero = 0` (BandMatrix.h:258). -/
def Band.mk' (n kl ku : ℕ) (v : ℝ) : Band :=
  ⟨n, kl, ku, List.replicate (n * (2 * kl + ku + 1)) v, 0, false, none⟩

/-- BandMatrix.cpp:107-124 -/
def Band.resize (b : Band) (n kl ku : ℕ) (v : ℝ) : Band :=
  { b with n := n, kl := kl, ku := ku, data := List.replicate (n * (2 * kl + ku + 1)) v,
           factored := false }

/-- BandMatrix.cpp:126-130 -/
def Band.bfill (b : Band) (v : ℝ) : Band :=
  { b with data := List.replicate b.data.length v, factored := false }

/-- BandMatrix.cpp:132-136 -/
def Band.zero (b : Band) : Band :=
  { b with data := List.replicate b.data.length 0, factored := false }

/-- BandMatrix.cpp:165-168 -/
def Band.index (b : Band) (i j : ℕ) : ℕ := (2 * b.kl + b.ku) * j + b.kl + b.ku + i

/-- What a returned `double&` refers to. -/
inductive Loc where
  | zeroCell
  | cell (p : ℕ)
  deriving DecidableEq

/-- Non-const `value` (BandMatrix.cpp:148-155): marks the matrix as not factored and returns a reference. -/
def Band.valueRef (b : Band) (i j : ℕ) : Band × Loc :=
  ({ b with factored := false },
    if i + b.ku < j ∨ i > j + b.kl then .zeroCell else .cell (b.index i j))

/-- Assignment through a reference. -/
def Band.store (b : Band) (l : Loc) (x : ℝ) : Outcome Band :=
  match l with
  | .zeroCell => .ok { b with zeroCell := x }
  | .cell p => if p < b.data.length then .ok { b with data := b.data.set p x } else .ub

/-- Reading through a reference. -/
def Band.load (b : Band) (l : Loc) : Outcome ℝ :=
  match l with
  | .zeroCell => .ok b.zeroCell
  | .cell p => Outcome.vecGet b.data p

/-- `value(i, j) = x` with the non-const accessor. -/
def Band.write (b : Band) (i j : ℕ) (x : ℝ) : Outcome Band :=
  let r := b.valueRef i j
  r.1.store r.2 x

/-- Reading with the non-const accessor. -/
def Band.readRef (b : Band) (i j : ℕ) : Outcome ℝ :=
  let r := b.valueRef i j
  r.1.load r.2

/-- `_value` (BandMatrix.cpp:170-173). -/
def Band.raw (b : Band) (i j : ℕ) : Outcome ℝ := Outcome.vecGet b.data (b.index i j)

/-- Const `value` (BandMatrix.cpp:157-163). -/
def Band.value (b : Band) (i j : ℕ) : Outcome ℝ :=
  if i + b.ku < j ∨ i > j + b.kl then .ok 0 else b.raw i j

/-- Loop `for j in [start, stop): sum += f j`. -/
def sumLoop (f : ℕ → Outcome ℝ) (start : ℕ) : ℕ → ℝ → Outcome ℝ
  | 0, acc => .ok acc
  | c + 1, acc => f start >>= fun x => sumLoop f (start + 1) c (acc + x)

/-- One row of `mult` (BandMatrix.cpp:203-209). -/
def Band.multRow (a : Band) (b : ℕ → ℝ) (m : ℕ) : Outcome ℝ :=
  let start := if m ≥ a.kl then m - a.kl else 0
  let stop := min (m + a.ku + 1) a.n
  sumLoop (fun j => a.raw m j >>= fun v => .ok (v * b j)) start (stop - start) 0

/-- One column of `leftMult` (BandMatrix.cpp:216-222). -/
def Band.leftMultCol (a : Band) (b : ℕ → ℝ) (c : ℕ) : Outcome ℝ :=
  let start := if c ≥ a.ku then c - a.ku else 0
  let stop := min (c + a.kl + 1) a.n
  sumLoop (fun i => a.raw i c >>= fun v => .ok (v * b i)) start (stop - start) 0

/-- Column sum inside `oneNorm` (BandMatrix.cpp:337-342). -/
noncomputable def Band.colAbs (a : Band) (j : ℕ) : Outcome ℝ :=
  let start := if j ≥ a.ku then j - a.ku else 0
  let stop := min (j + a.kl + 1) a.n
  sumLoop (fun i => a.raw i j >>= fun v => .ok |v|) start (stop - start) 0

/-- `oneNorm` (BandMatrix.cpp:333-346): the loop over columns from `j`, `c` columns left. -/
noncomputable def Band.oneNormLoop (a : Band) (j : ℕ) : ℕ → ℝ → Outcome ℝ
  | 0, v => .ok v
  | c + 1, v => a.colAbs j >>= fun s => a.oneNormLoop (j + 1) c (max s v)

/-- BandMatrix.cpp:333-346 -/
noncomputable def Band.oneNorm (a : Band) : Outcome ℝ := a.oneNormLoop 0 a.n 0

/-- `factor` (BandMatrix.cpp:226-251).  `lapackOk data` says whether DGBTRF succeeds.  The
copy into `ludata` happens before the error is raised. -/
def Band.factor (b : Band) (lapackOk : List ℝ → Bool) : Band × Outcome Unit :=
  let b1 : Band := { b with lu := some b.data }
  if lapackOk b.data then ({ b1 with factored := true }, .ok ()) else (b1, .throw)

/-- `solve` (BandMatrix.cpp:259-291): result is the matrix data whose factorisation is used. -/
def Band.solve (b : Band) (lapackOk : List ℝ → Bool) : Band × Outcome (List ℝ) :=
  if b.factored then
    match b.lu with
    | some d => (b, .ok d)
    | none => (b, .ub)
  else
    match b.factor lapackOk with
    | (b1, .ok ()) => (b1, match b1.lu with | some d => .ok d | none => .ub)
    | (b1, .throw) => (b1, .throw)
    | (b1, .ub) => (b1, .ub)

/-- Writing through `ptrColumn(j)[off]` (BandMatrix.cpp:392-395): the flag is not touched. -/
def Band.writeColumn (b : Band) (j off : ℕ) (x : ℝ) : Outcome Band :=
  let p := (2 * b.kl + b.ku + 1) * j + off
  if p < b.data.length then .ok { b with data := b.data.set p x } else .ub

/-- Public operations. -/
inductive Op where
  | write (i j : ℕ) (x : ℝ)
  | bfill (v : ℝ)
  | zero
  | resize (n kl ku : ℕ) (v : ℝ)
  | factor
  | solve

/-- State after an operation that returns or throws. -/
def Band.step (ok : List ℝ → Bool) (b : Band) : Op → Outcome Band
  | .write i j x => b.write i j x
  | .bfill v => .ok (b.bfill v)
  | .zero => .ok b.zero
  | .resize n kl ku v => .ok (b.resize n kl ku v)
  | .factor => .ok (b.factor ok).1
  | .solve => .ok (b.solve ok).1

/-- A history of operations. -/
def Band.run (ok : List ℝ → Bool) (b : Band) : List Op → Outcome Band
  | [] => .ok b
  | o :: os => b.step ok o >>= fun b => b.run ok os

end Verif.BandM
