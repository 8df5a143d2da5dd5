import Verif.Basic
import Mathlib.Data.Real.Basic
import Mathlib.Algebra.BigOperators.Group.Finset.Basic
import Mathlib.Algebra.BigOperators.Ring.Finset
import Mathlib.Tactic.Ring
import Mathlib.Tactic.Linarith
import Mathlib.Tactic.NormNum
import Mathlib.Tactic.SplitIfs

/-!
# Dense matrices (C75)

Model of `Array2D` (src/base/Array.cpp, include/cantera/base/Array.h) and `DenseMatrix`
(src/numerics/DenseMatrix.cpp).  Access to `m_data` beyond its end is undefined behaviour, written
`none`.  Column pointers are offsets into the data; reallocation of the data is not modelled.
-/

namespace Verif.Dense

open Finset

/-- Members (Array.h:217-225, DenseMatrix.h:127-153). -/
structure Mat where
  data : List ℝ
  nr : ℕ
  nc : ℕ
  /-- `m_ipiv.size()` -/
  npiv : ℕ
  /-- `m_colPts` -/
  cols : List ℕ
  returnCode : Bool
  printLevel : ℕ

/-- value (Array.h:160-173) -/
def Mat.get (m : Mat) (i j : ℕ) : Option ℝ := m.data[m.nr * j + i]?

/-- Assignment to an element of `m_data`. -/
def Mat.put (m : Mat) (k : ℕ) (v : ℝ) : Option Mat :=
  if k < m.data.length then some { m with data := m.data.set k v } else none

/-- Assignment to `value(i, j)` (Array.h:160-162). -/
def Mat.set (m : Mat) (i j : ℕ) (v : ℝ) : Option Mat := m.put (m.nr * j + i) v

/-- `vector::resize`. -/
def resizeList (l : List ℝ) (n : ℕ) (v : ℝ) : List ℝ := l.take n ++ List.replicate (n - l.length) v

/-- The loops which set `m_colPts` (DenseMatrix.cpp:24-29, 36-41, 64-69): not entered if there are no
data, the pointers are then null, here zero. -/
def colOffsets (data : List ℝ) (nr nc : ℕ) : List ℕ :=
  if data = [] then List.replicate nc 0 else (List.range nc).map (fun j => nr * j)

/-- The constructor (Array.cpp:15-20, DenseMatrix.cpp:20-30). -/
def mk (n m : ℕ) (v : ℝ) : Mat :=
  { data := List.replicate (m * n) v, nr := n, nc := m, npiv := max n m
    cols := colOffsets (List.replicate (m * n) v) n m, returnCode := false, printLevel := 0 }

/-- The copy constructor (Array.cpp:29-34, DenseMatrix.cpp:32-42). -/
def copy (y : Mat) : Mat :=
  { data := y.data, nr := y.nr, nc := y.nc, npiv := y.npiv, cols := colOffsets y.data y.nr y.nc
    returnCode := false, printLevel := 0 }

/-- operator= for different objects (Array.cpp:36-45, DenseMatrix.cpp:44-58): the pointers are taken
without a check for empty data. -/
def assign (_ y : Mat) : Option Mat :=
  if y.nc ≠ 0 ∧ y.data = [] then none
  else some { data := y.data, nr := y.nr, nc := y.nc, npiv := y.npiv
              cols := (List.range y.nc).map (fun j => y.nr * j)
              returnCode := y.returnCode, printLevel := y.printLevel }

/-- resize (Array.cpp:47-52, DenseMatrix.cpp:60-70) -/
def resize (x : Mat) (n m : ℕ) (v : ℝ) : Mat :=
  { x with data := resizeList x.data (n * m) v, nr := n, nc := m, npiv := max n m
           cols := colOffsets (resizeList x.data (n * m) v) n m }

/-- A loop of assignments to `m_data`. -/
def putAll (x : Mat) (idx : ℕ → ℕ) (c : ℕ → ℝ) : ℕ → Option Mat
  | 0 => some x
  | k + 1 => (putAll x idx c k).bind (fun y => y.put (idx k) (c k))

/-- appendColumn (Array.cpp:54-70) -/
def appendColumn (x : Mat) (c : ℕ → ℝ) : Option Mat :=
  let y : Mat := { x with nc := x.nc + 1, data := resizeList x.data (x.nr * (x.nc + 1)) 0 }
  putAll y (fun m => y.nr * m + y.nc) c y.nr

/-- setRow (Array.cpp:72-77) -/
def setRow (x : Mat) (n : ℕ) (rw : ℕ → ℝ) : Option Mat :=
  putAll x (fun j => x.nr * j + n) rw x.nc

/-- setColumn (Array.cpp:86-91) -/
def setColumn (x : Mat) (m : ℕ) (col : ℕ → ℝ) : Option Mat :=
  putAll x (fun i => x.nr * m + i) col x.nr

/-- getRow (Array.cpp:79-84) -/
def getRow (x : Mat) (n : ℕ) : Option (List ℝ) :=
  (List.range x.nc).mapM (fun j => x.data[x.nr * j + n]?)

/-- getColumn (Array.cpp:93-98) -/
def getColumn (x : Mat) (m : ℕ) : Option (List ℝ) :=
  (List.range x.nr).mapM (fun i => x.data[x.nr * m + i]?)

/-- operator*= (Array.cpp:114-117) -/
def scale (x : Mat) (a : ℝ) : Mat := { x with data := x.data.map (fun v => a * v) }

/-- Element for matrices with all data present. -/
noncomputable def Mat.val (m : Mat) (i j : ℕ) : ℝ := m.data.getD (m.nr * j + i) 0

/-- mult with a vector (DenseMatrix.cpp:82-95): the library routine is taken to compute the sum. -/
noncomputable def mulVec (x : Mat) (b : ℕ → ℝ) (i : ℕ) : ℝ := ∑ j ∈ range x.nc, x.val i j * b j

/-- increment (DenseMatrix.cpp:212-224) -/
noncomputable def increment (x : Mat) (b prod : ℕ → ℝ) (i : ℕ) : ℝ :=
  prod i + ∑ j ∈ range x.nc, x.val i j * b j

/-- leftMult (DenseMatrix.cpp:117-126) -/
noncomputable def leftMult (x : Mat) (b : ℕ → ℝ) (n : ℕ) : ℝ :=
  (List.range x.nr).foldl (fun sum i => sum + x.val i n * b i) 0

/-- One column of the product: `mult(bcols[col], prodcols[col])` (DenseMatrix.cpp:113); the column
pointers are used, reading beyond `m_colPts` or `m_data` is undefined.  The matrices are different
objects. -/
noncomputable def multCol (a b p : Mat) (col : ℕ) : Option Mat :=
  match b.cols[col]?, p.cols[col]? with
  | some bo, some po =>
    if bo + a.nc ≤ b.data.length then
      putAll p (fun i => po + i) (mulVec a (fun j => b.data.getD (bo + j) 0)) a.nr
    else none
  | _, _ => none

/-- Result of the product: exception, undefined behaviour or the new matrix. -/
noncomputable def mult (a b p : Mat) : Outcome Mat :=
  if a.nc ≠ b.nr then .throw
  else if a.nr ≠ p.nr ∨ b.nc ≠ p.nc then .throw
  else
    match (List.range b.nc).foldlM (fun q col => multCol a b q col) p with
    | some q => .ok q
    | none => .ub

/-! ### Solution of linear systems (DenseMatrix.cpp:133-205) -/

/-- The library routines: `dgetrf` returns the factors and `info`, `dgetrs` solves for one right hand
side of the given order with the factors.  For Eigen `lu` gives the solution, or nothing if the
elimination divides by zero, and `rankOk` is the check of the number of pivots. -/
structure Lib where
  getrf : List ℝ → ℕ → List ℝ × ℤ
  getrs : List ℝ → ℕ → (ℕ → ℝ) → (ℕ → ℝ)
  lu : List ℝ → ℕ → (ℕ → ℝ) → Option (ℕ → ℝ)
  rankOk : List ℝ → ℕ → Bool

/-- How the library was built. -/
inductive Build | lapack | eigenDebug | eigenRelease
  deriving DecidableEq

/-- Right hand sides, stored with leading dimension `ldb`. -/
def column (b : ℕ → ℝ) (ldb c : ℕ) (i : ℕ) : ℝ := b (ldb * c + i)

/-- Write a solution of length `n` back to column `c`. -/
def putColumn (b : ℕ → ℝ) (ldb n c : ℕ) (x : ℕ → ℝ) : ℕ → ℝ :=
  fun k => if ldb * c ≤ k ∧ k < ldb * c + n then x (k - ldb * c) else b k

/-- Result of `solve`: return code, matrix afterwards, right hand sides afterwards; `none` for values
which are not numbers. -/
structure Solved where
  info : ℤ
  mat : List ℝ
  rhs : Option (ℕ → ℝ)

/-- solve (DenseMatrix.cpp:133-200).  `dgetrs` returns zero for legal arguments and the factorisation
does not return negative codes. -/
def solve (L : Lib) (bd : Build) (a : Mat) (b : ℕ → ℝ) (nrhs ldb0 : ℕ) : Outcome Solved :=
  if a.nc ≠ a.nr then .throw
  else
    let ldb := if ldb0 = 0 then a.nc else ldb0
    match bd with
    | .lapack =>
      let f := L.getrf a.data a.nr
      if 0 < f.2 then
        if !a.returnCode then .throw else .ok ⟨f.2, f.1, some b⟩
      else .ok ⟨0, f.1, some ((List.range nrhs).foldl
        (fun r c => putColumn r ldb a.nr c (L.getrs f.1 a.nr (column r ldb c))) b)⟩
    | .eigenDebug =>
      if !L.rankOk a.data a.nr then .throw
      else .ok ⟨0, a.data, (List.range nrhs).foldlM
        (fun r c => (L.lu a.data a.nr (column r ldb c)).map (putColumn r ldb a.nc c)) b⟩
    | .eigenRelease =>
      .ok ⟨0, a.data, (List.range nrhs).foldlM
        (fun r c => (L.lu a.data a.nr (column r ldb c)).map (putColumn r ldb a.nc c)) b⟩

end Verif.Dense
