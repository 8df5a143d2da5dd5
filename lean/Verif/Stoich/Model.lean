import Verif.Basic
import Mathlib.Analysis.SpecialFunctions.Pow.Real

/-!
# Model of include/cantera/kinetics/StoichManager.h

`double` is `ℝ`.  A `const double*`/`double*` argument is a function `ℕ → ℝ` (pointer arithmetic without
bounds; input and output arrays are assumed not to alias, as in all callers in
src/kinetics/Kinetics.cpp and BulkKinetics.cpp).  That only declared species and reaction slots are
read and written is a consequence of the theorems in `Props.lean`.

The Eigen sparse-matrix storage of `resizeCoeffs` (l. 600-637) is not modelled; a "triplet
vector index" `m_jc` is replaced by the pair (reaction, species) it stands for.
-/

namespace Verif.Stoich

open Verif

/-- A C array of doubles. -/
abbrev Vec := ℕ → ℝ

/-- `S[i] += x`. -/
noncomputable def addAt (S : Vec) (i : ℕ) (x : ℝ) : Vec := Function.update S i (S i + x)

/-- `R[i] *= x`. -/
noncomputable def mulAt (S : Vec) (i : ℕ) (x : ℝ) : Vec := Function.update S i (S i * x)

/-- Class `C1` (StoichManager.h:131-182). -/
structure C1 where
  rxn : ℕ
  ic0 : ℕ

/-- Class `C2` (StoichManager.h:189-250). -/
structure C2 where
  rxn : ℕ
  ic0 : ℕ
  ic1 : ℕ

/-- Class `C3` (StoichManager.h:257-324). -/
structure C3 where
  rxn : ℕ
  ic0 : ℕ
  ic1 : ℕ
  ic2 : ℕ

/-- One entry of the parallel vectors `m_ic`, `m_order`, `m_stoich` of `C_AnyN`. -/
structure Part where
  ic : ℕ
  order : ℝ
  stoich : ℝ

/-- Class `C_AnyN` (StoichManager.h:332-477); the three parallel vectors are one list. -/
structure CN where
  rxn : ℕ
  parts : List Part

/-! ### C1 -/
/-- StoichManager.h:139-141 -/
noncomputable def C1.incrementSpecies (c : C1) (R S : Vec) : Vec := addAt S c.ic0 (R c.rxn)
/-- StoichManager.h:143-145 -/
noncomputable def C1.decrementSpecies (c : C1) (R S : Vec) : Vec := addAt S c.ic0 (-(R c.rxn))
/-- StoichManager.h:147-149 -/
noncomputable def C1.multiply (c : C1) (S R : Vec) : Vec := mulAt R c.rxn (S c.ic0)
/-- StoichManager.h:151-153 -/
noncomputable def C1.incrementReaction (c : C1) (S R : Vec) : Vec := addAt R c.rxn (S c.ic0)
/-- StoichManager.h:155-157 -/
noncomputable def C1.decrementReaction (c : C1) (S R : Vec) : Vec := addAt R c.rxn (-(S c.ic0))

/-! ### C2 -/
/-- StoichManager.h:195-198 -/
noncomputable def C2.incrementSpecies (c : C2) (R S : Vec) : Vec :=
  let S := addAt S c.ic0 (R c.rxn)
  addAt S c.ic1 (R c.rxn)
/-- StoichManager.h:200-203 -/
noncomputable def C2.decrementSpecies (c : C2) (R S : Vec) : Vec :=
  let S := addAt S c.ic0 (-(R c.rxn))
  addAt S c.ic1 (-(R c.rxn))
open Classical in
/-- StoichManager.h:205-211 -/
noncomputable def C2.multiply (c : C2) (S R : Vec) : Vec :=
  if S c.ic0 < 0 ∧ S c.ic1 < 0 then Function.update R c.rxn 0
  else mulAt R c.rxn (S c.ic0 * S c.ic1)
/-- StoichManager.h:213-215 -/
noncomputable def C2.incrementReaction (c : C2) (S R : Vec) : Vec :=
  addAt R c.rxn (S c.ic0 + S c.ic1)
/-- StoichManager.h:217-219 -/
noncomputable def C2.decrementReaction (c : C2) (S R : Vec) : Vec :=
  addAt R c.rxn (-(S c.ic0 + S c.ic1))

/-! ### C3 -/
/-- StoichManager.h:263-267 -/
noncomputable def C3.incrementSpecies (c : C3) (R S : Vec) : Vec :=
  let S := addAt S c.ic0 (R c.rxn)
  let S := addAt S c.ic1 (R c.rxn)
  addAt S c.ic2 (R c.rxn)
/-- StoichManager.h:269-273 -/
noncomputable def C3.decrementSpecies (c : C3) (R S : Vec) : Vec :=
  let S := addAt S c.ic0 (-(R c.rxn))
  let S := addAt S c.ic1 (-(R c.rxn))
  addAt S c.ic2 (-(R c.rxn))
open Classical in
/-- StoichManager.h:275-282 -/
noncomputable def C3.multiply (c : C3) (S R : Vec) : Vec :=
  if (S c.ic0 < 0 ∧ (S c.ic1 < 0 ∨ S c.ic2 < 0)) ∨ (S c.ic1 < 0 ∧ S c.ic2 < 0) then
    Function.update R c.rxn 0
  else mulAt R c.rxn (S c.ic0 * S c.ic1 * S c.ic2)
/-- StoichManager.h:284-286 -/
noncomputable def C3.incrementReaction (c : C3) (S R : Vec) : Vec :=
  addAt R c.rxn (S c.ic0 + S c.ic1 + S c.ic2)
/-- StoichManager.h:288-290 -/
noncomputable def C3.decrementReaction (c : C3) (S R : Vec) : Vec :=
  addAt R c.rxn (-(S c.ic0 + S c.ic1 + S c.ic2))

/-! ### C_AnyN -/
/-- StoichManager.h:366-371 -/
noncomputable def CN.incrementSpecies (c : CN) (R S : Vec) : Vec :=
  c.parts.foldl (fun S p => addAt S p.ic (p.stoich * R c.rxn)) S
/-- StoichManager.h:373-378 -/
noncomputable def CN.decrementSpecies (c : CN) (R S : Vec) : Vec :=
  c.parts.foldl (fun S p => addAt S p.ic (-(p.stoich * R c.rxn))) S
open Classical in
/-- StoichManager.h:352-364 -/
noncomputable def CN.multiply (c : CN) (S R : Vec) : Vec :=
  c.parts.foldl (fun R p =>
    if p.order ≠ 0 then
      if S p.ic > 0 then mulAt R c.rxn (S p.ic ^ p.order) else Function.update R c.rxn 0
    else R) R
/-- StoichManager.h:380-384 -/
noncomputable def CN.incrementReaction (c : CN) (S R : Vec) : Vec :=
  c.parts.foldl (fun R p => addAt R c.rxn (p.stoich * S p.ic)) R
/-- StoichManager.h:386-390 -/
noncomputable def CN.decrementReaction (c : CN) (S R : Vec) : Vec :=
  c.parts.foldl (fun R p => addAt R c.rxn (-(p.stoich * S p.ic))) R

/-! ### Derivatives

`jac[m_jc]` is indexed by the pair (reaction, species). -/

/-- Storage for derivative entries. -/
abbrev Jac := ℕ → ℕ → ℝ

/-- `jac[index(rxn, k)] += x`. -/
noncomputable def jacAdd (J : Jac) (rxn k : ℕ) (x : ℝ) : Jac :=
  Function.update J rxn (Function.update (J rxn) k (J rxn k + x))

/-- StoichManager.h:164-167 -/
noncomputable def C1.derivatives (c : C1) (_S R : Vec) (J : Jac) : Jac :=
  jacAdd J c.rxn c.ic0 (R c.rxn)
open Classical in
/-- StoichManager.h:227-235 -/
noncomputable def C2.derivatives (c : C2) (S R : Vec) (J : Jac) : Jac :=
  let J := if S c.ic1 > 0 then jacAdd J c.rxn c.ic0 (R c.rxn * S c.ic1) else J
  if S c.ic0 > 0 then jacAdd J c.rxn c.ic1 (R c.rxn * S c.ic0) else J
open Classical in
/-- StoichManager.h:299-310 -/
noncomputable def C3.derivatives (c : C3) (S R : Vec) (J : Jac) : Jac :=
  let J := if S c.ic1 > 0 ∧ S c.ic2 > 0 then
    jacAdd J c.rxn c.ic0 (R c.rxn * S c.ic1 * S c.ic2) else J
  let J := if S c.ic0 > 0 ∧ S c.ic2 > 0 then
    jacAdd J c.rxn c.ic1 (R c.rxn * S c.ic0 * S c.ic2) else J
  if S c.ic0 > 0 ∧ S c.ic1 > 0 then jacAdd J c.rxn c.ic2 (R c.rxn * S c.ic0 * S c.ic1) else J
open Classical in
/-- Inner loop of `C_AnyN::derivatives` (StoichManager.h:412-421) over `(j, part j)`:
the running product, stopping with zero at a non-positive concentration. -/
noncomputable def derivProd (S : Vec) (i : ℕ) (prod : ℝ) : List (Part × ℕ) → ℝ
  | [] => prod
  | (p, j) :: rest =>
    if i ≠ j then
      if S p.ic > 0 then derivProd S i (prod * S p.ic ^ p.order) rest else 0
    else derivProd S i prod rest
open Classical in
/-- StoichManager.h:404-427 -/
noncomputable def CN.derivatives (c : CN) (S R : Vec) (J : Jac) : Jac :=
  c.parts.zipIdx.foldl (fun J pi =>
    let prod :=
      if S pi.1.ic > 0 ∧ pi.1.order ≠ 0 then
        derivProd S pi.2 (R c.rxn * (pi.1.order * S pi.1.ic ^ (pi.1.order - 1))) c.parts.zipIdx
      else 0
    jacAdd J c.rxn pi.1.ic prod) J

/-! ### StoichManagerN -/

/-- Class `StoichManagerN` (StoichManager.h:588-819) without the sparse-matrix members;
`coeffs` is `m_coeffList` as triples (species, reaction, coefficient). -/
structure Mgr where
  c1 : List C1
  c2 : List C2
  c3 : List C3
  cn : List CN
  coeffs : List (ℕ × ℕ × ℝ)

/-- Constructor (StoichManager.h:594-597). -/
def Mgr.empty : Mgr := ⟨[], [], [], [], []⟩

/-- Arguments of `StoichManagerN::add(rxn, k, order, stoich)`. -/
structure Decl where
  rxn : ℕ
  k : List ℕ
  order : List ℝ
  stoich : List ℝ

/-- The three argument vectors walked in parallel (only used after the size checks). -/
def Decl.parts (d : Decl) : List Part :=
  (d.k.zip (d.order.zip d.stoich)).map (fun x => ⟨x.1, x.2.1, x.2.2⟩)

/-- The `frac` test of StoichManager.h:687: `fmod(stoich, 1.0) != 0 || stoich != order`. -/
def Part.frac (p : Part) : Prop := Int.fract p.stoich ≠ 0 ∨ p.stoich ≠ p.order

/-- Species repeated `stoich` times (StoichManager.h:698-703): the loop `i < stoich` runs
`⌈stoich⌉` times for a positive and zero times for a non-positive coefficient. -/
noncomputable def kRep (ps : List Part) : List ℕ :=
  ps.flatMap (fun p => List.replicate ⌈p.stoich⌉₊ p.ic)

open Classical in
/-- `StoichManagerN::add` (StoichManager.h:673-720). -/
noncomputable def Mgr.add (m : Mgr) (d : Decl) : Outcome Mgr :=
  if d.order.length ≠ d.k.length then .throw
  else if d.stoich.length ≠ d.k.length then .throw
  else
    let m : Mgr := { m with coeffs := m.coeffs ++ d.parts.map (fun p => (p.ic, d.rxn, p.stoich)) }
    if (∃ p ∈ d.parts, p.frac) ∨ d.k.length > 3 then
      .ok { m with cn := m.cn ++ [⟨d.rxn, d.parts⟩] }
    else
      match kRep d.parts with
      | [a] => .ok { m with c1 := m.c1 ++ [⟨d.rxn, a⟩] }
      | [a, b] => .ok { m with c2 := m.c2 ++ [⟨d.rxn, a, b⟩] }
      | [a, b, c] => .ok { m with c3 := m.c3 ++ [⟨d.rxn, a, b, c⟩] }
      | _ => .ok { m with cn := m.cn ++ [⟨d.rxn, d.parts⟩] }

/-- A sequence of `add` calls. -/
noncomputable def Mgr.addAll (m : Mgr) : List Decl → Outcome Mgr
  | [] => .ok m
  | d :: ds => m.add d >>= fun m => m.addAll ds

/-- StoichManager.h:722-727 (and `_multiply`, l. 479-486). -/
noncomputable def Mgr.multiply (m : Mgr) (S R : Vec) : Vec :=
  let R := m.c1.foldl (fun R c => c.multiply S R) R
  let R := m.c2.foldl (fun R c => c.multiply S R) R
  let R := m.c3.foldl (fun R c => c.multiply S R) R
  m.cn.foldl (fun R c => c.multiply S R) R

/-- StoichManager.h:729-734 -/
noncomputable def Mgr.incrementSpecies (m : Mgr) (R S : Vec) : Vec :=
  let S := m.c1.foldl (fun S c => c.incrementSpecies R S) S
  let S := m.c2.foldl (fun S c => c.incrementSpecies R S) S
  let S := m.c3.foldl (fun S c => c.incrementSpecies R S) S
  m.cn.foldl (fun S c => c.incrementSpecies R S) S

/-- StoichManager.h:736-741 -/
noncomputable def Mgr.decrementSpecies (m : Mgr) (R S : Vec) : Vec :=
  let S := m.c1.foldl (fun S c => c.decrementSpecies R S) S
  let S := m.c2.foldl (fun S c => c.decrementSpecies R S) S
  let S := m.c3.foldl (fun S c => c.decrementSpecies R S) S
  m.cn.foldl (fun S c => c.decrementSpecies R S) S

/-- StoichManager.h:743-748 -/
noncomputable def Mgr.incrementReactions (m : Mgr) (S R : Vec) : Vec :=
  let R := m.c1.foldl (fun R c => c.incrementReaction S R) R
  let R := m.c2.foldl (fun R c => c.incrementReaction S R) R
  let R := m.c3.foldl (fun R c => c.incrementReaction S R) R
  m.cn.foldl (fun R c => c.incrementReaction S R) R

/-- StoichManager.h:750-755 -/
noncomputable def Mgr.decrementReactions (m : Mgr) (S R : Vec) : Vec :=
  let R := m.c1.foldl (fun R c => c.decrementReaction S R) R
  let R := m.c2.foldl (fun R c => c.decrementReaction S R) R
  let R := m.c3.foldl (fun R c => c.decrementReaction S R) R
  m.cn.foldl (fun R c => c.decrementReaction S R) R

/-- StoichManager.h:780-792, entries instead of the Eigen matrix. -/
noncomputable def Mgr.derivatives (m : Mgr) (S R : Vec) : Jac :=
  let J : Jac := fun _ _ => 0
  let J := m.c1.foldl (fun J c => c.derivatives S R J) J
  let J := m.c2.foldl (fun J c => c.derivatives S R J) J
  let J := m.c3.foldl (fun J c => c.derivatives S R J) J
  m.cn.foldl (fun J c => c.derivatives S R J) J

/-- Entry of the matrix built by Eigen's `setFromTriplets` (StoichManager.h:607): duplicates are summed. -/
noncomputable def Mgr.stoichCoeff (m : Mgr) (k i : ℕ) : ℝ :=
  (m.coeffs.map (fun t => if t.1 = k ∧ t.2.1 = i then t.2.2 else 0)).sum

end Verif.Stoich
