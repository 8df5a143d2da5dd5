import Verif.Basic
import Mathlib.Data.Real.Basic
import Mathlib.Algebra.BigOperators.Group.Finset.Basic
import Mathlib.Logic.Equiv.Basic
import Mathlib.Data.Finset.Card

/-!
# Choice of component species and rearrangement of elements

Model of `src/equil/BasisOptimize.cpp` without the printing.  Orderings are functions on indices below
the number of species (elements); the working matrix `sm` is the list of its accepted columns (rows, in
`ElemRearrange`), each being orthogonal to those before; `sa` is the squared length of each.
-/

namespace Verif.Basis

open Verif

/-- `MultiPhase`: numbers of elements and species, `nAtoms(species, element)`, `getMoles`. -/
structure Prob where
  ne : ℕ
  nsp : ℕ
  atoms : ℕ → ℕ → ℝ
  moles : ℕ → ℝ

/-- Inner product of the first `n` entries. -/
noncomputable def ip (n : ℕ) (u w : ℕ → ℝ) : ℝ := ∑ e ∈ Finset.range n, u e * w e

/-- Subtraction of the projections, `BasisOptimize.cpp:144-163` and `407-426`: the coefficients `ss` are
all taken with the original column. -/
noncomputable def residual (n : ℕ) (cols : List (ℕ → ℝ)) (v : ℕ → ℝ) : ℕ → ℝ :=
  fun e => v e - (cols.map fun c => ip n v c / ip n c c * c e).sum

/-- `std::max_element`: the first of the largest, `BasisOptimize.cpp:108`. -/
noncomputable def argmax (mol : ℕ → ℝ) (n : ℕ) : ℕ :=
  (List.range n).foldl (fun b k => if mol b < mol k then k else b) 0

/-- Search in the ordering, `BasisOptimize.cpp:109-118`. -/
def posOf (order : ℕ → ℕ) (n kk : ℕ) : Option ℕ := (List.range n).find? fun j => order j = kk

/-- `std::swap` of two entries of an ordering. -/
def swapAt (order : ℕ → ℕ) (a b : ℕ) : ℕ → ℕ := fun i => order (Equiv.swap a b i)

/-- Ordering of the species, remaining mole numbers (-1 = `USEDBEFORE`), accepted columns, flag
`usedZeroedSpecies`. -/
structure St where
  order : ℕ → ℕ
  mol : ℕ → ℝ
  cols : List (ℕ → ℝ)
  zero : Bool

/-- How the inner loop ends. -/
inductive Found
  | col (s : St) (k : ℕ) (c : ℕ → ℝ)
  | exhausted (s : St) (k : ℕ)
  | bad
  | fuel

open Classical in
/-- The loop `while (true)`, `BasisOptimize.cpp:104-176`. -/
noncomputable def inner (P : Prob) (oE : ℕ → ℕ) : ℕ → St → Found
  | 0, _ => .fuel
  | f + 1, s =>
    let kk := argmax s.mol P.nsp
    match posOf s.order P.nsp kk with
    | none => .bad
    | some k =>
      let z := s.zero || decide (s.mol kk = 0)
      if s.mol kk = -1 then .exhausted { s with zero := z } k
      else
        let c := residual P.ne s.cols fun j => P.atoms kk (oE j)
        let s' : St := { s with zero := z, mol := Function.update s.mol kk (-1) }
        if 1e-6 < ip P.ne c c then .col s' k c else inner P oE f s'

/-- The loop over the components, `BasisOptimize.cpp:100-193`, `rem = nComponents - jr`.  When the species
are exhausted `nComponents` becomes `jr`, but the exchange of lines 178-189 is made all the same. -/
noncomputable def outer (P : Prob) (oE : ℕ → ℕ) : ℕ → St → Outcome (St × ℕ)
  | 0, s => .ok (s, s.cols.length)
  | rem + 1, s =>
    match inner P oE (P.nsp + 1) s with
    | .col s' k c => outer P oE rem { s' with
        order := swapAt s'.order s'.cols.length k
        cols := s'.cols ++ [c] }
    | .exhausted s' k => .ok ({ s' with order := swapAt s'.order s'.cols.length k }, s'.cols.length)
    | .bad => .throw
    | .fuel => .ub

/-- Start of an ordering: lines 29-39. -/
def initE (l : List ℕ) (n : ℕ) : ℕ → ℕ := if l.length < n then id else fun i => l.getD i 0
def initS (l : List ℕ) (n : ℕ) : ℕ → ℕ := if l.length ≠ n then id else fun i => l.getD i 0

/-- `BasisOptimize` up to line 197: ordering, flag and number of components. -/
noncomputable def basis (P : Prob) (lS lE : List ℕ) : Outcome (St × ℕ) :=
  outer P (initE lE P.ne) (min P.ne P.nsp) ⟨initS lS P.nsp, P.moles, [], false⟩

/-! ## Formation reactions -/

/-- The matrix and the right hand sides, `BasisOptimize.cpp:230-246`. -/
def formMatrix (P : Prob) (order oE : ℕ → ℕ) (j k : ℕ) : ℝ := P.atoms (order k) (oE j)
def formRhs (P : Prob) (order oE : ℕ → ℕ) (nc j i : ℕ) : ℝ := -P.atoms (order (nc + i)) (oE j)

/-! ## Elements -/

/-- `eAbund`, `BasisOptimize.cpp:326-341`. -/
noncomputable def abund (P : Prob) (ea : List ℝ) : ℕ → ℝ :=
  if ea.length ≠ P.ne then fun j => ∑ k ∈ Finset.range P.nsp, |P.atoms k j| else fun j => ea.getD j 0

open Classical in
/-- First index from `jr` on with a property. -/
noncomputable def firstFrom (n jr : ℕ) (p : ℕ → Prop) : Option ℕ :=
  ((List.range n).filter (jr ≤ ·)).find? fun i => decide (p i)

/-- Ordering of the elements, remaining abundances, accepted rows. -/
structure ESt where
  order : ℕ → ℕ
  ab : ℕ → ℝ
  rows : List (ℕ → ℝ)

/-- The two searches, `BasisOptimize.cpp:358-372`: the second is made whatever the first has found. -/
noncomputable def pickElem (ne : ℕ) (s : ESt) : Option ℕ :=
  let k1 := firstFrom ne s.rows.length fun i => s.ab (s.order i) ≠ -1 ∧ 0 < s.ab (s.order i)
  match firstFrom ne s.rows.length fun i => s.ab (s.order i) ≠ -1 with
  | some k => some k
  | none => k1

open Classical in
/-- The loop `while (true)`, `BasisOptimize.cpp:353-434`: position and row, or the exception of lines 374-382. -/
noncomputable def innerE (P : Prob) (oS : ℕ → ℕ) (nc : ℕ) : ℕ → ESt → Outcome (ESt × ℕ × (ℕ → ℝ))
  | 0, _ => .ub
  | f + 1, s =>
    match pickElem P.ne s with
    | none => .throw
    | some k =>
      let s' : ESt := { s with ab := Function.update s.ab (s.order k) (-1) }
      let c := residual nc s.rows fun j => P.atoms (oS j) (s.order k)
      if 1e-6 < ip nc c c then .ok (s', k, c) else innerE P oS nc f s'

/-- The loop over the elements, `BasisOptimize.cpp:348-452`. -/
noncomputable def outerE (P : Prob) (oS : ℕ → ℕ) (nc : ℕ) : ℕ → ESt → Outcome ESt
  | 0, s => .ok s
  | rem + 1, s =>
    match innerE P oS nc (P.ne + 1) s with
    | .ok (s', k, c) => outerE P oS nc rem { s' with
        order := swapAt s'.order s'.rows.length k
        rows := s'.rows ++ [c] }
    | .throw => .throw
    | .ub => .ub

/-- `ElemRearrange`, `BasisOptimize.cpp:292-453`. -/
noncomputable def rearrange (P : Prob) (nc : ℕ) (ea : List ℝ) (lS lE : List ℕ) : Outcome ESt :=
  outerE P (initS lS P.nsp) nc nc ⟨initE lE P.ne, abund P ea, []⟩

end Verif.Basis
