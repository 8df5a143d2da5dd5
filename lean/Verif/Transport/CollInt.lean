import Verif.Basic
import Mathlib.Analysis.Real.Sqrt
import Mathlib.Analysis.SpecialFunctions.Log.Basic
import Mathlib.Algebra.BigOperators.Group.Finset.Basic
import Mathlib.Data.Finset.Range

/-!
# Polynomial fits and tables of collision integrals (C106)

Model of `src/numerics/polyfit.cpp` and of `src/transport/MMCollisionInt.cpp`.  The factorisation
`colPivHouseholderQr` of Eigen is a parameter `qr`; the theorems assume that it
returns a minimum of the sum of squares.
Weights are not negative (`cwiseSqrt` gives NaN otherwise).  The tables are parameters: `tab i j` is the entry for the
`i`-th reduced temperature (from 0.1 on) and the `j`-th value of delta.
-/

namespace Verif.CollInt

open Finset

/-! ## polyfit -/

/-- The columns of `A` at the point `x` (polyfit.cpp:29-36). -/
def col (x : ℝ) : ℕ → ℝ
  | 0 => 1
  | 1 => x
  | k + 2 => col x (k + 1) * x

open Classical in
/-- The factor of row `i` (polyfit.cpp:38-46); `none` is the null pointer. -/
noncomputable def factor (w : Option (ℕ → ℝ)) (i : ℕ) : ℝ :=
  match w with
  | none => 1
  | some w => if w 0 > 0 then Real.sqrt (w i) else 1

/-- Row `i` of `A*p - y` (polyfit.cpp:44-45, 53). -/
noncomputable def resid (deg : ℕ) (x y : ℕ → ℝ) (w : Option (ℕ → ℝ)) (p : ℕ → ℝ) (i : ℕ) : ℝ :=
  (∑ k ∈ range (deg + 1), factor w i * col (x i) k * p k) - y i * factor w i

/-- The square of the norm (polyfit.cpp:53). -/
noncomputable def sq (n deg : ℕ) (x y : ℕ → ℝ) (w : Option (ℕ → ℝ)) (p : ℕ → ℝ) : ℝ :=
  ∑ i ∈ range n, resid deg x y w p i ^ 2

/-- `polyfit` (polyfit.cpp:14-54); the result is the coefficients and the error. -/
noncomputable def polyfit (qr : ((ℕ → ℝ) → ℝ) → ℕ → ℝ) (n deg : ℕ) (x y : ℕ → ℝ) (w : Option (ℕ → ℝ)) :
    Outcome ((ℕ → ℝ) × ℝ) :=
  if deg ≥ n then .throw
  else .ok (qr (sq n deg x y w), Real.sqrt (sq n deg x y w (qr (sq n deg x y w))) / Real.sqrt n)

/-! ## Collision integrals -/

/-- `quadInterp` (MMCollisionInt.cpp:22-31) -/
noncomputable def quad (t x0 x1 x2 y0 y1 y2 : ℝ) : ℝ :=
  ((x1 - x0) * (y2 - y1) - (y1 - y0) * (x2 - x1)) / ((x1 - x0) * ((x1 - x0) + (x2 - x1)) * (x2 - x1)) *
    (t - x0) * (t - x1) + (y1 - y0) / (x1 - x0) * (t - x1) + y1

/-- `tstar22` (MMCollisionInt.cpp:33-38); `tstar[n+1]` (81-86) is the same. -/
noncomputable def tstars : List ℝ := [
  0.1, 0.2, 0.3, 0.4, 0.5, 0.6, 0.7, 0.8, 0.9, 1.0,
  1.2, 1.4, 1.6, 1.8, 2.0, 2.5, 3.0, 3.5, 4.0,
  5.0, 6.0, 7.0, 8.0, 9.0, 10.0, 12.0, 14.0, 16.0,
  18.0, 20.0, 25.0, 30.0, 35.0, 40.0, 50.0, 75.0, 100.0]

/-- Entry `i`. -/
noncomputable def tstar (i : ℕ) : ℝ := tstars.getD i 0

open Classical in
/-- The search (MMCollisionInt.cpp:279-284). -/
noncomputable def search (ts : ℝ) : ℕ := tstars.findIdx (fun t => ts < t)

/-- The first of the three entries used (MMCollisionInt.cpp:285-290). -/
noncomputable def first (ts : ℝ) : ℕ :=
  let i1 := search ts - 1
  let i2 := i1 + 3
  if i2 > 36 then 36 - 3 else i1

/-- `poly6` (utilities.h:116-121) -/
def poly6 (x : ℝ) (c : ℕ → ℝ) : ℝ :=
  (((((c 6 * x + c 5) * x + c 4) * x + c 3) * x + c 2) * x + c 1) * x + c 0

open Classical in
/-- The value at entry `i` (MMCollisionInt.cpp:293-297). -/
noncomputable def value (tab P : ℕ → ℕ → ℝ) (d : ℝ) (i : ℕ) : ℝ := if d = 0 then tab i 0 else poly6 d (P i)

/-- `omega22`, `astar`, `bstar` and `cstar` (MMCollisionInt.cpp:277-369) for their tables; `P i` are the fitted
polynomials in delta. -/
noncomputable def interp (tab P : ℕ → ℕ → ℝ) (ts d : ℝ) : ℝ :=
  let i := first ts
  quad (Real.log ts) (Real.log (tstar i)) (Real.log (tstar (i + 1))) (Real.log (tstar (i + 2)))
    (value tab P d i) (value tab P d (i + 1)) (value tab P d (i + 2))

/-- `omega11` (MMCollisionInt.h:78-80) -/
noncomputable def omega11 (o P a Pa : ℕ → ℕ → ℝ) (ts d : ℝ) : ℝ := interp o P ts d / interp a Pa ts d

open Classical in
/-- The last `n < m` with `ts > tstar n`, from a start value (loop of MMCollisionInt.cpp:221-228). -/
noncomputable def lastBelow (ts : ℝ) : ℕ → ℤ
  | 0 => -1
  | m + 1 => if ts > tstar m then (m : ℤ) else lastBelow ts m

/-- `m_nmin` and `m_nmax` after `init` (MMCollisionInt.cpp:216-232). -/
noncomputable def init (lo hi : ℝ) : ℤ × ℤ :=
  let a := lastBelow lo 37
  let b := if lastBelow hi 37 = -1 then -1 else lastBelow hi 37 + 1
  if a < 0 ∨ a ≥ 36 ∨ b < 0 ∨ b > 36 then (0, 36) else (a, b)

/-- `fit_omega22`, and `fit` for each of its tables (MMCollisionInt.cpp:371-423). -/
noncomputable def fit (qr : ((ℕ → ℝ) → ℝ) → ℕ → ℝ) (tab P : ℕ → ℕ → ℝ) (r : ℤ × ℤ) (degree : ℕ) (d : ℝ) :
    Outcome ((ℕ → ℝ) × ℝ) :=
  polyfit qr (r.2 - r.1 + 1).toNat degree (fun i => Real.log (tstar (i + r.1.toNat)))
    (fun i => value tab P d (i + r.1.toNat)) (some fun i => if i = 0 then -1 else 0)

/-- `delta` (MMCollisionInt.cpp:18-20) -/
noncomputable def deltas : List ℝ := [0, 0.25, 0.5, 0.75, 1, 1.5, 2, 2.5]

/-- `fitDelta` (MMCollisionInt.cpp:253-275) for a row of a table. -/
noncomputable def fitDelta (qr : ((ℕ → ℝ) → ℝ) → ℕ → ℝ) (row : ℕ → ℝ) (degree : ℕ) : Outcome ((ℕ → ℝ) × ℝ) :=
  polyfit qr 8 degree (fun i => deltas.getD i 0) row (some fun i => if i = 0 then -1 else 0)

/-- First row of the table for omega22 (MMCollisionInt.cpp:41). -/
noncomputable def row0 : List ℝ := [4.1005, 4.266, 4.833, 5.742, 6.729, 8.624, 10.34, 11.89]

end Verif.CollInt
