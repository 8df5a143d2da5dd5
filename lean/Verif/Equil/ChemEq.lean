import Verif.Basic
import Mathlib.Analysis.SpecialFunctions.Log.Basic
import Mathlib.Algebra.BigOperators.Group.Finset.Basic
import Mathlib.Data.Finset.Range
import Mathlib.Logic.Function.Basic

/-!
# The element potential solver (C108)

Model of `src/equil/ChemEquil.cpp`: property pairs, elements, residuals, step control, convergence and the adjustment of
the charge.  Properties of the phase enter as values or functions.  The initial estimate of element potentials and the
Brinkley iteration (lines 201-291, 828-1294), the linear solver and log output are not modelled.
-/

namespace Verif.ChemEq

open Finset

/-- `_equilflag`, lines 20-41, with the constants of ct_defs.h:149-153; `none` is an exception. -/
def flag (s : String) : Option ℤ :=
  if s = "TP" then some 104 else if s = "TV" then some 100 else if s = "HP" then some 101
  else if s = "UV" then some 105 else if s = "SP" then some 102 else if s = "SV" then some 107
  else if s = "UP" then some 108 else none

/-- The properties held fixed. -/
inductive Pr | T | H | S | U | P | D
  deriving DecidableEq

/-- The `switch` of `equilibrate`, lines 319-357: the two properties and `tempFixed`. -/
def pair (f : ℤ) : Option (Pr × Pr × Bool) :=
  if f = 104 ∨ f = -104 then some (.T, .P, true)
  else if f = 101 ∨ f = -101 then some (.H, .P, false)
  else if f = 102 ∨ f = -102 then some (.S, .P, false)
  else if f = 107 ∨ f = -107 then some (.S, .D, false)
  else if f = 100 ∨ f = -100 then some (.T, .D, true)
  else if f = 105 ∨ f = -105 then some (.U, .D, false)
  else none

open Classical in
/-- The test of a fixed temperature, lines 360-367; `true` if accepted. -/
noncomputable def tempOk (T lo hi : ℝ) : Bool := !decide (T > hi + 1 ∨ T < lo - 1)

/-- The loop of `initialize` over one element (lines 81-104): `none` is an exception. -/
noncomputable def negStep (atoms : ℕ → ℕ → ℝ) (kk m : ℕ) (neg : Option ℕ) : Option (Option ℕ) :=
  open Classical in
  if ∃ k < kk, atoms k m < 0 then (if neg ≠ none ∧ neg ≠ some m then none else some (some m)) else some neg

/-- The loops of `initialize` (lines 79-106): the element with negative numbers of atoms. -/
noncomputable def findNeg (atoms : ℕ → ℕ → ℝ) (kk : ℕ) : ℕ → Option (Option ℕ)
  | 0 => some none
  | m + 1 => (findNeg atoms kk m).bind (negStep atoms kk m)

/-- Chemical potentials from element potentials (`setToEquilState`, lines 120-125) -/
noncomputable def mu (atoms : ℕ → ℕ → ℝ) (mm : ℕ) (lam : ℕ → ℝ) (k : ℕ) : ℝ := ∑ m ∈ range mm, lam m * atoms k m

/-- Moles of an element per mole (lines 147-149) -/
noncomputable def elem (atoms : ℕ → ℕ → ℝ) (kk : ℕ) (X : ℕ → ℝ) (m : ℕ) : ℝ := ∑ k ∈ range kk, atoms k m * X k

open Classical in
/-- `update`, lines 137-164: elemental mole fractions; `throw` for negative mole fractions, `ub` for a division by
zero. -/
noncomputable def update (atoms : ℕ → ℕ → ℝ) (mm kk : ℕ) (X : ℕ → ℝ) : Outcome (ℕ → ℝ) :=
  if 0 < mm ∧ ∃ k < kk, X k < 0 then .throw
  else if 0 < mm ∧ ∑ m ∈ range mm, elem atoms kk X m = 0 then .ub
  else .ok fun m => elem atoms kk X m / ∑ m ∈ range mm, elem atoms kk X m

open Classical in
/-- The loop for the skipped element (lines 384-391): its index and its goal.  At this point the elements are in their
own order and `m_nComponents` is their number. -/
noncomputable def skipLoop (goal : ℕ → ℝ) : ℕ → Option ℕ × ℝ
  | 0 => (none, -1)
  | m + 1 => if goal m > (skipLoop goal m).2 then (some m, goal m) else skipLoop goal m

open Classical in
/-- Lines 384-395. -/
noncomputable def skip (goal : ℕ → ℝ) (mm : ℕ) : Outcome (Option ℕ) :=
  if (skipLoop goal mm).2 ≤ 0 then .throw else .ok (skipLoop goal mm).1

open Classical in
/-- The first bracket for the temperature (lines 414-421) -/
noncomputable def bracket (T lo hi : ℝ) : ℝ × ℝ :=
  let a := if max T lo > hi then hi - 20 else max T lo
  let b := min (a + 10) hi
  (a, if b < lo then lo + 20 else b)

/-- `clip` (utilities.h) for a number that may be NaN: `std::min(upper, NaN)` is the upper limit. -/
noncomputable def clip (v : Option ℝ) (lo up : ℝ) : ℝ :=
  match v with
  | none => up
  | some v => max lo (min up v)

/-- Quotient, NaN for zero by zero; `none` for the infinite quotients as well. -/
noncomputable def quot (a b : ℝ) : Option ℝ := open Classical in if b = 0 then none else some (a / b)

/-- One pass of the search of the temperature: stop, exception, or the next temperature. -/
inductive Srch | stop | throw | next (t : ℝ)

open Classical in
/-- Lines 468-480: the next temperature. -/
noncomputable def nextT (lo hi t0 : ℝ) (dt : Option ℝ) : Srch :=
  let d := clip dt (-200) 200
  let d1 := if t0 + d < lo then 1 / 2 * (t0 + lo) - t0 else d
  let d2 := if t0 + d1 > hi then 1 / 2 * (t0 + hi) - t0 else d1
  if t0 + d2 ≤ lo ∨ t0 + d2 ≥ hi ∨ t0 + d2 < 100 then .throw else .next (t0 + d2)

open Classical in
/-- One pass (lines 444-481) with the property `p` as function of temperature and the bounds `tmin`, `tmax`; a slope
of zero, with an infinite step in the code, is not followed. -/
noncomputable def search (p : ℝ → ℝ) (xval lo hi t0 tmin tmax : ℝ) : Srch :=
  let a := if p t0 > xval then tmin else t0
  let b := if p t0 > xval then t0 else tmax
  let dt := (quot (p b - p a) (b - a)).bind fun s => quot (xval - p t0) s
  if ∃ d, dt = some d ∧ |d| < 50 then .stop else nextT lo hi t0 dt

/-! ## Newton iteration -/

/-- Sizes and options of the solver (ChemEquil.h:29-31, 253, 282, 296): `comp m` tells whether element `m` is one of the
first `m_nComponents` in `m_orderVectorElements`. -/
structure Sys where
  mm : ℕ
  skip : ℕ
  eloc : Option ℕ
  comp : ℕ → Bool
  cut : ℝ
  rtol : ℝ
  atol : ℝ

open Classical in
/-- `equilResidual`, lines 719-750, at elemental mole fractions `frac` and properties `xx`, `yy`. -/
noncomputable def resid (c : Sys) (x goal frac : ℕ → ℝ) (xval yval xx yy : ℝ) (m : ℕ) : ℝ :=
  if m = c.skip then yy / yval - 1
  else if m = c.mm then xx / xval - 1
  else if goal m < c.cut ∧ c.eloc ≠ some m then x m + 1000
  else if c.comp m = false then x m
  else if goal m < 1 / 10 ^ 10 ∨ frac m < 1 / 10 ^ 10 ∨ c.eloc = some m then goal m - frac m
  else Real.log ((1 + goal m) / (1 + frac m))

open Classical in
/-- The tolerance of an equation (lines 539-558) -/
noncomputable def tolOf (c : Sys) (goal : ℕ → ℝ) (m : ℕ) : ℝ :=
  if m < c.mm then
    (if c.eloc = some m then goal m * c.rtol + c.atol + 1 / 10 ^ 13 else goal m * c.rtol + c.atol)
  else c.rtol

open Classical in
/-- The convergence test, lines 535-564; a division by zero gives no finite difference and no convergence. -/
noncomputable def conv (c : Sys) (iter : ℕ) (goal res : ℕ → ℝ) (xval yval xx yy : ℝ) : Bool :=
  decide (0 < iter ∧ (∀ m ≤ c.mm, |res m| ≤ tolOf c goal m) ∧ (xval ≠ 0 ∧ |(xx - xval) / xval| < c.rtol) ∧
    (yval ≠ 0 ∧ |(yy - yval) / yval| < c.rtol))

open Classical in
/-- `equilJacobian`, lines 768-788: column `n` by forward differences of the residual `r`. -/
noncomputable def jac (r : (ℕ → ℝ) → ℕ → ℝ) (x : ℕ → ℝ) (m n : ℕ) : ℝ :=
  let dx := max (1 / 10 ^ 10) (|x n| * (1 / 10 ^ 7))
  (r (Function.update x n (x n + dx)) m - r x m) * (1 / dx)

open Classical in
/-- The step as changed at the lower bounds (lines 631-636) -/
noncomputable def stepAdj (c : Sys) (above below x r : ℕ → ℝ) (m : ℕ) : ℝ :=
  if x m + r m > above m then r m
  else if x m + r m < below m ∧ m < c.mm ∧ m ≠ c.skip then (if x m < below m + 50 then below m - x m else -50)
  else r m

open Classical in
/-- The factor after unknown `m` (lines 627-644) -/
noncomputable def facStep (c : Sys) (above below x r : ℕ → ℝ) (m : ℕ) (f : ℝ) : ℝ :=
  let f1 := if x m + r m > above m then max 0 (min f (0.8 * (above m - x m) / (x m + r m - x m)))
    else if x m + r m < below m ∧ ¬(m < c.mm ∧ m ≠ c.skip) then min f (0.8 * (x m - below m) / (x m - (x m + r m)))
    else f
  if m = c.mm ∧ |stepAdj c above below x r m| > 0.2 then min f1 (0.2 / |stepAdj c above below x r m|) else f1

/-- The loop over the unknowns (lines 625-645) -/
noncomputable def fac (c : Sys) (above below x r : ℕ → ℝ) : ℕ → ℝ
  | 0 => 1
  | m + 1 => facStep c above below x r m (fac c above below x r m)

/-- The step after scaling (line 652) -/
noncomputable def scaled (c : Sys) (above below x r : ℕ → ℝ) (m : ℕ) : ℝ :=
  stepAdj c above below x r m * fac c above below x r (c.mm + 1)

open Classical in
/-- The damping of `dampStep` after unknown `m` (lines 682-696) -/
noncomputable def dampOne (c : Sys) (step : ℕ → ℝ) (m : ℕ) (d : ℝ) : ℝ :=
  let l := if c.eloc = some m then 1.25 else 0.75
  let d1 := if step m > l then min d (l / step m) else d
  if step m < -l then min d1 (-l / step m) else d1

/-- The loop of `dampStep` (lines 680-697) -/
noncomputable def damp (c : Sys) (step : ℕ → ℝ) : ℕ → ℝ
  | 0 => 1
  | m + 1 => dampOne c step m (damp c step m)

/-- `dampStep`, lines 700-702 -/
noncomputable def newX (c : Sys) (x step : ℕ → ℝ) (m : ℕ) : ℝ := x m + damp c step c.mm * step m

/-- The mole number of a species in `calcEmoles` (lines 807-816); `ac` is the activity coefficient. -/
noncomputable def calcN (atoms : ℕ → ℕ → ℝ) (mm : ℕ) (x muSS ac : ℕ → ℝ) (nt : ℝ) (k : ℕ) : ℝ :=
  open Classical in
  let t := min (-(muSS k + Real.log (ac k)) + ∑ m ∈ range mm, atoms k m * x m) 100
  if t < -300 then 0 else nt * Real.exp t

open Classical in
/-- `adjustEloc`, lines 1302-1364, with the numbers `a` of atoms of the element: the mole fractions handed to the
phase, `none` if nothing is done. -/
noncomputable def adjust (kk : ℕ) (a X : ℕ → ℝ) (goal : ℝ) : Option (ℕ → ℝ) :=
  let pos := ∑ k ∈ range kk, if a k > 0 then a k * X k else 0
  let neg := -∑ k ∈ range kk, if a k < 0 then a k * X k else 0
  if |goal| > 1 / 10 ^ 20 then none
  else if pos ≥ neg then
    if pos ≤ 0 then none else some fun k => if a k > 0 then X k * ((goal + neg) / pos) else X k
  else some fun k => if a k < 0 then X k * ((-goal + pos) / neg) else X k

end Verif.ChemEq
