import Mathlib.Analysis.SpecialFunctions.Exp
import Mathlib.Logic.Equiv.Basic
import Verif.Basic

/-!
# The multiphase equilibrium solver

Model of the component selection and of the composition steps of
`src/equil/MultiPhaseEquil.cpp` and `include/cantera/equil/MultiPhaseEquil.h`.

Simplifications:
* `m_species` and `m_element` (lines 49-93) are composed with the indices: `atoms s i` is
  `nAtoms(m_species[s], m_element[i])`, and everything is indexed by included species and elements.
* arrays are functions on ℕ of which only the entries below `nsp`, `nel` or `nFree` are read.
* the chemical potentials returned by the mixture are given functions of the mole numbers.
-/

namespace Verif.MPE

open Finset

/-- The included species and elements: `m_nel`, `m_nsp`, `m_dsoln` and the composition
(`MultiPhaseEquil.h:167-182`, `MultiPhaseEquil.cpp:267-271`). -/
structure Prob where
  nel : ℕ
  nsp : ℕ
  atoms : ℕ → ℕ → ℝ
  /-- `m_dsoln[k] == 1` (`MultiPhaseEquil.cpp:141-145`). -/
  soln : ℕ → Prop

/-- `nFree` (`MultiPhaseEquil.h:163-165`): the natural subtraction is `0` when
`m_nsp ≤ m_nel`. -/
def nFree (P : Prob) : ℕ := if P.nsp > P.nel then P.nsp - P.nel else 0

/-- The matrix `m_A` and the species order `m_order` during `getComponents`. -/
structure El where
  A : ℕ → ℕ → ℝ
  order : ℕ → ℕ

/-- The matrix before elimination (`MultiPhaseEquil.cpp:251-271`). The order has length `m_nsp` in
every call (line 619). -/
def start (P : Prob) (ord : ℕ → ℕ) : El :=
  ⟨fun m k => P.atoms (ord k) m, ord⟩

/-- All entries of row `r` from column `m` on are at most `sqrt(Tiny) = 1e-10`
(`MultiPhaseEquil.cpp:276-282`, `288-293`). -/
def rowZero (nsp : ℕ) (A : ℕ → ℕ → ℝ) (m r : ℕ) : Prop :=
  ∀ k, m ≤ k → k < nsp → |A r k| ≤ (1 : ℝ) / 10 ^ 10

open Classical in
/-- The search for the last non-zero row (`MultiPhaseEquil.cpp:285-297`). -/
noncomputable def lastRow (nsp : ℕ) (A : ℕ → ℕ → ℝ) (m : ℕ) : ℕ → ℕ
  | 0 => m
  | n + 1 => if n + 1 ≤ m then m else if rowZero nsp A m (n + 1) then lastRow nsp A m n else n + 1

/-- Exchange of two rows (`MultiPhaseEquil.cpp:300-302`). -/
def swapRows (A : ℕ → ℕ → ℝ) (a b : ℕ) : ℕ → ℕ → ℝ := fun r k => A (Equiv.swap a b r) k

/-- Exchange of two columns and of their labels (`MultiPhaseEquil.cpp:330-335`). -/
def swapCols (s : El) (a b : ℕ) : El :=
  ⟨fun r k => s.A r (Equiv.swap a b k), fun k => s.order (Equiv.swap a b k)⟩

open Classical in
/-- One pass of the loop that looks for the species with the greatest mole number
(`MultiPhaseEquil.cpp:321-326`). -/
noncomputable def pickStep (s : El) (moles : ℕ → ℝ) (m : ℕ) (p : ℕ × ℝ) (k : ℕ) : ℕ × ℝ :=
  if s.A m k ≠ 0 ∧ |moles (s.order k)| > p.2 then (k, |moles (s.order k)|) else p

/-- The column that is exchanged with a zero pivot (`MultiPhaseEquil.cpp:319-326`). -/
noncomputable def pick (P : Prob) (s : El) (moles : ℕ → ℝ) (m : ℕ) : ℕ :=
  ((List.range' (m + 1) (P.nsp - (m + 1))).foldl (pickStep s moles m) (0, -999)).1

open Classical in
/-- `MultiPhaseEquil.cpp:309-336`. -/
noncomputable def fixPivot (P : Prob) (moles : ℕ → ℝ) (m : ℕ) (s : El) : El :=
  if m < P.nsp ∧ s.A m m = 0 then swapCols s m (pick P s moles m) else s

/-- `MultiPhaseEquil.cpp:338-342`. -/
noncomputable def scaleRow (A : ℕ → ℕ → ℝ) (m : ℕ) : ℕ → ℕ → ℝ := fun r k =>
  if r = m then A m k * (1 / A m m) else A r k

/-- `MultiPhaseEquil.cpp:344-351`: the rows below row `m`; each row only reads itself and row
`m`. -/
noncomputable def below (nel : ℕ) (A : ℕ → ℕ → ℝ) (m : ℕ) : ℕ → ℕ → ℝ := fun r k =>
  if m + 1 ≤ r ∧ r < nel then A r k - A m k * (A r m / A m m) else A r k

/-- The second half of one pass (`MultiPhaseEquil.cpp:309-351`). -/
noncomputable def pivot (P : Prob) (moles : ℕ → ℝ) (m : ℕ) (s : El) : El :=
  ⟨below P.nel (scaleRow (fixPivot P moles m s).A m) m, (fixPivot P moles m s).order⟩

open Classical in
/-- One pass of the elimination (`MultiPhaseEquil.cpp:274-352`); `none` is the `break` of line
305. -/
noncomputable def pass (P : Prob) (moles : ℕ → ℝ) (m : ℕ) (s : El) : Option El :=
  if rowZero P.nsp s.A m m then
    if m ≠ lastRow P.nsp s.A m (P.nel - 1) then
      some (pivot P moles m ⟨swapRows s.A (lastRow P.nsp s.A m (P.nel - 1)) m, s.order⟩)
    else none
  else some (pivot P moles m s)

/-- The elimination loop (`MultiPhaseEquil.cpp:273-352`) from row `m` on with `c` rows left. The
second component is the number of rows processed. -/
noncomputable def forward (P : Prob) (moles : ℕ → ℝ) : ℕ → ℕ → El → El × ℕ
  | 0, m, s => (s, m)
  | c + 1, m, s =>
    match pass P moles m s with
    | none => (s, m)
    | some s' => forward P moles c (m + 1) s'

/-- The rows above row `m` (`MultiPhaseEquil.cpp:357-364`). Subtracting with a zero factor
changes nothing. -/
def clear (A : ℕ → ℕ → ℝ) (m : ℕ) : ℕ → ℕ → ℝ := fun n k =>
  if n < m ∧ m ≤ k then A n k - A n m * A m k else A n k

/-- `MultiPhaseEquil.cpp:354-365` from row `m` down to row 1. -/
def backward : ℕ → (ℕ → ℕ → ℝ) → (ℕ → ℕ → ℝ)
  | 0, A => A
  | m + 1, A => backward m (clear A (m + 1))

/-- The stoichiometric matrix `m_N` (`MultiPhaseEquil.cpp:367-379`). -/
noncomputable def stoich (P : Prob) (A : ℕ → ℕ → ℝ) : ℕ → ℕ → ℝ := fun n k =>
  if n < P.nel then -A n (k + P.nel) else if k = n - P.nel then 1 else 0

/-- What `getComponents` leaves behind. -/
structure Comp where
  order : ℕ → ℕ
  N : ℕ → ℕ → ℝ
  A : ℕ → ℕ → ℝ
  rank : ℕ

/-- `getComponents` (`MultiPhaseEquil.cpp:249-379`). With no species `min(nRows,nColumns)-1`
(line 356) wraps around and the matrix is read out of range. -/
noncomputable def getComponents (P : Prob) (moles : ℕ → ℝ) (ord : ℕ → ℕ) : Outcome Comp :=
  let f := forward P moles P.nel 0 (start P ord)
  if min P.nel P.nsp = 0 then .ub
  else
    let B := backward (min P.nel P.nsp - 1) f.1.A
    .ok ⟨f.1.order, stoich P B, B, f.2⟩

/-- A vector in sorted form is written to sequential form: `unsort`
(`MultiPhaseEquil.cpp:392-398`) and `getStoichVector` (`MultiPhaseEquil.h:59-61`). -/
def scatter (order : ℕ → ℕ) (x old : ℕ → ℝ) : ℕ → ℕ → ℝ
  | 0 => old
  | n + 1 => Function.update (scatter order x old n) (order n) (x n)

/-- `getStoichVector` (`MultiPhaseEquil.h:54-62`): the index `nFree` itself passes the test and
reads behind the last column. -/
noncomputable def getStoichVector (P : Prob) (c : Comp) (rxn : ℕ) (old : ℕ → ℝ) :
    Outcome (ℕ → ℝ) :=
  if rxn > nFree P then .ok old
  else if rxn = nFree P ∧ 0 < P.nsp then .ub
  else .ok (scatter c.order (fun k => c.N k rxn) old P.nsp)

/-- The changes of the mole numbers for the extents `dxi` (`MultiPhaseEquil.cpp:430-436`). -/
noncomputable def change (P : Prob) (c : Comp) (dxi : ℕ → ℝ) : ℕ → ℝ :=
  scatter c.order (fun k => ∑ j ∈ range (nFree P), c.N k j * dxi j) (fun _ => 0) P.nsp

/-- The component loop of `step` (`MultiPhaseEquil.cpp:406-410`). -/
noncomputable def compLoop (order : ℕ → ℕ) (om : ℝ) (dN : ℕ → ℝ) (m : ℕ → ℝ) : ℕ → ℕ → ℝ
  | 0 => m
  | n + 1 =>
    Function.update (compLoop order om dN m n) (order n)
      (compLoop order om dN m n (order n) + om * dN (order n))

open Classical in
/-- The other species (`MultiPhaseEquil.cpp:412-421`). -/
noncomputable def restLoop (P : Prob) (order : ℕ → ℕ) (major : ℕ → Prop) (dG : ℕ → ℝ) (om : ℝ)
    (dN : ℕ → ℝ) (m : ℕ → ℝ) : ℕ → ℕ → ℝ
  | 0 => m
  | j + 1 =>
    Function.update (restLoop P order major dG om dN m j) (order (P.nel + j))
      (if major (order (P.nel + j)) then
        restLoop P order major dG om dN m j (order (P.nel + j)) + om * dN (order (P.nel + j))
      else |restLoop P order major dG om dN m j (order (P.nel + j))|
        * min 10 (Real.exp (-dG j)))

open Classical in
/-- `step` (`MultiPhaseEquil.cpp:400-423`). -/
noncomputable def step (P : Prob) (order : ℕ → ℕ) (major : ℕ → Prop) (dG : ℕ → ℝ) (om : ℝ)
    (dN : ℕ → ℝ) (m : ℕ → ℝ) : Outcome (ℕ → ℝ) :=
  if om < 0 then .throw
  else .ok (restLoop P order major dG om dN (compLoop order om dN m P.nel) (P.nsp - P.nel))

/-- `m_majorsp[m_order[ik]]` (`MultiPhaseEquil.cpp:455-482`). -/
def majorAt (P : Prob) (order : ℕ → ℕ) (m : ℕ → ℝ) (ik : ℕ) : Prop :=
  ¬ P.soln (order ik) ∨ m (order ik) > 1 / 10 ^ 12 ∨ ik < P.nel

/-- `m_majorsp` by species. -/
def major (P : Prob) (order : ℕ → ℕ) (m : ℕ → ℝ) (k : ℕ) : Prop :=
  ∃ ik < P.nsp, order ik = k ∧ majorAt P order m ik

open Classical in
/-- One pass of the loop that limits the step (`MultiPhaseEquil.cpp:442-483`). -/
noncomputable def limitOne (P : Prob) (order : ℕ → ℕ) (m dN : ℕ → ℝ) (ik : ℕ) (om : ℝ) : ℝ :=
  if P.soln (order ik) then
    if m (order ik) > 1 / 10 ^ 12 ∨ ik < P.nel then
      if dN (order ik) < 0 ∧ m (order ik) * (if ik < P.nel then 99 / 100 else 9 / 10)
          / (|dN (order ik)| + 1 / 10 ^ 20) < om then
        m (order ik) * (if ik < P.nel then 99 / 100 else 9 / 10)
          / (|dN (order ik)| + 1 / 10 ^ 20)
      else om
    else om
  else if dN (order ik) < 0 ∧ m (order ik) > 0 then
    if -m (order ik) / dN (order ik) < om then -m (order ik) / dN (order ik) else om
  else om

/-- `omegamax` (`MultiPhaseEquil.cpp:438-483`). -/
noncomputable def omegaMax (P : Prob) (order : ℕ → ℕ) (m dN : ℕ → ℝ) : ℕ → ℝ
  | 0 => 1
  | n + 1 => limitOne P order m dN n (omegaMax P order m dN n)

open Classical in
/-- `stepComposition` after the reaction steps are known (`MultiPhaseEquil.cpp:430-506`): `mu`
gives the chemical potentials of the included species for a composition, `grad0` is the gradient
returned by `computeReactionSteps`. The result is the new composition and the step taken. -/
noncomputable def stepComposition (P : Prob) (c : Comp) (dG dxi : ℕ → ℝ) (grad0 : ℝ)
    (mu : (ℕ → ℝ) → ℕ → ℝ) (m : ℕ → ℝ) : Outcome ((ℕ → ℝ) × ℝ) :=
  let dN := change P c dxi
  let om := omegaMax P c.order m dN P.nsp
  match step P c.order (major P c.order m) dG om dN m with
  | .ok m1 =>
    let grad1 := ∑ k ∈ range P.nsp, dN k * mu m1 k
    if grad1 > 0 then
      match step P c.order (major P c.order m) dG (om * (|grad0| / (grad1 + |grad0|))) dN m with
      | .ok m2 => .ok (m2, om * (|grad0| / (grad1 + |grad0|)))
      | .throw => .throw
      | .ub => .ub
    else .ok (m1, om)
  | .throw => .throw
  | .ub => .ub

open Classical in
/-- The damping factor of reaction `j` (`MultiPhaseEquil.cpp:529-577`). `phase k` is the phase of
species `k`, `multi ip` says that phase `ip` has more than one species, `nk` and `np` are the mole
numbers of the species and of the phases in the mixture, `nu` is the reaction in sequential form. -/
noncomputable def damping (P : Prob) (c : Comp) (nph : ℕ) (phase : ℕ → ℕ) (multi : ℕ → Prop)
    (nk np : ℕ → ℝ) (m : ℕ → ℝ) (nu : ℕ → ℝ) (solnrxn : Prop) (j : ℕ) (dg : ℝ) : ℝ :=
  if ¬ P.soln (c.order (j + P.nel)) then
    if m (c.order (j + P.nel)) ≤ 0 ∧ dg > 0 then 0 else 1 / 2
  else if ¬ solnrxn then 1
  else
    let csum := ∑ k ∈ range P.nel, nu (c.order k) ^ 2
      * (if P.soln (c.order k) then 1 else 0) / (|nk (c.order k)| + 1 / 10 ^ 20)
    let term1 := 1 / (|nk (c.order (j + P.nel))| + 1 / 10 ^ 20)
    let sum := ∑ ip ∈ range nph, if multi ip then
      (∑ k ∈ range P.nsp, if phase k = ip then nu k ^ 2 else 0) / (|np ip| + 1 / 10 ^ 20) else 0
    if |term1 + csum - sum| < 1 / 10 ^ 20 then 1 else 1 / (term1 + csum - sum)

open Classical in
/-- The extent of reaction `j` (`MultiPhaseEquil.cpp:578-584`): setting the extent to zero once
leaves it zero. -/
noncomputable def extent (P : Prob) (c : Comp) (m : ℕ → ℝ) (j : ℕ) (fctr dg : ℝ) : ℝ :=
  if ∃ i < P.nel, m (c.order i) ≤ 0 ∧ c.N i j * (-fctr * dg) < 0 then 0 else -fctr * dg

open Classical in
/-- One entry of `error` (`MultiPhaseEquil.cpp:634-647`): the assignment of line 637 is
overwritten by lines 642-647. -/
noncomputable def errOne (P : Prob) (order : ℕ → ℕ) (dG m : ℕ → ℝ) (j : ℕ) : ℝ :=
  if ¬ P.soln (order (j + P.nel)) ∧ m (order (j + P.nel)) ≤ 0 ∧ dG j ≥ 0 then 0 else |dG j|

/-- `error` (`MultiPhaseEquil.cpp:626-651`). -/
noncomputable def error (P : Prob) (order : ℕ → ℕ) (dG m : ℕ → ℝ) : ℕ → ℝ
  | 0 => 0
  | n + 1 => max (error P order dG m n) (errOne P order dG m n)

/-- `finish` (`MultiPhaseEquil.cpp:183-190`). -/
noncomputable def finish (m : ℕ → ℝ) : ℕ → ℝ := fun k => if m k > 0 then m k else 0

open Classical in
/-- The loop of `equilibrate` (`MultiPhaseEquil.cpp:155-172`) with the state, the step and the error
given; `throw` when the steps are used up or a step throws. -/
noncomputable def loop {S : Type} (stepc : S → Outcome S) (er : S → ℝ) (err : ℝ) :
    ℕ → S → Outcome S
  | 0, _ => .throw
  | n + 1, s =>
    match stepc s with
    | .ok s' => if er s' < err then .ok s' else loop stepc er err n s'
    | .throw => .throw
    | .ub => .ub

open Classical in
/-- The largest extent of reaction `j` in `setInitialMoles` (`MultiPhaseEquil.cpp:212-237`). -/
noncomputable def dxiMin (c : Comp) (m : ℕ → ℝ) (j : ℕ) (idir : ℝ) : ℕ → ℝ
  | 0 => 10 ^ 10
  | n + 1 => if c.N n j * idir < 0 then
      min (dxiMin c m j idir n) |99 / 100 * m (c.order n) / c.N n j| else dxiMin c m j idir n

/-- One reaction of `setInitialMoles` (`MultiPhaseEquil.cpp:210-242`). -/
noncomputable def initOne (P : Prob) (c : Comp) (mu : ℕ → ℝ) (m : ℕ → ℝ) (j : ℕ) : ℕ → ℝ :=
  let dg := ∑ ik ∈ range P.nsp, mu (c.order ik) * c.N ik j
  let idir : ℝ := if dg < 0 then 1 else -1
  let x := dxiMin c m j idir P.nsp
  scatter c.order (fun ik => m (c.order ik) + c.N ik j * idir * x) m P.nsp

/-- The reactions of one round of `setInitialMoles`. -/
noncomputable def initAll (P : Prob) (c : Comp) (mu : ℕ → ℝ) (m : ℕ → ℝ) : ℕ → ℕ → ℝ
  | 0 => m
  | j + 1 => initOne P c mu (initAll P c mu m j) j

open Classical in
/-- The first species of the sorted list that contains element `e`, or the last of the list
(`MultiPhaseEquil.cpp:605-611`). -/
noncomputable def firstWith (P : Prob) (sorted : ℕ → ℕ) (e : ℕ) : ℕ → ℕ → ℕ
  | 0, ik => if ik = 0 then 0 else sorted (ik - 1)
  | c + 1, ik => if P.atoms (sorted ik) e ≠ 0 then sorted ik else firstWith P sorted e c (ik + 1)

/-- `computeN` (`MultiPhaseEquil.cpp:604-623`) calls `getComponents` when the greatest species of
some element is not a component or when `m_force` is set. -/
def recomputes (P : Prob) (sorted order : ℕ → ℕ) (force : Prop) : Prop :=
  ∃ e < P.nel, force ∨ ∀ ij < P.nel, firstWith P sorted e P.nsp 0 ≠ order ij

/-- An element of the mixture in the constructor: name and moles
(`MultiPhaseEquil.cpp:28-47`). -/
structure MixEl where
  name : String
  moles : ℝ

/-- `m_eloc`: the last element named `E` or `e` (`MultiPhaseEquil.cpp:32-34`), from the element
with index `i` on. -/
def eloc : List MixEl → ℕ → Option ℕ → Option ℕ
  | [], _, r => r
  | e :: l, i, r => eloc l (i + 1) (if e.name = "E" ∨ e.name = "e" then some i else r)

open Classical in
/-- `m_incl_element` (`MultiPhaseEquil.cpp:28-47`): `r` is the value of `m_eloc` before element
`i`. -/
noncomputable def inclGo : List MixEl → ℕ → Option ℕ → List Bool
  | [], _, _ => []
  | e :: l, i, r =>
    let r' := if e.name = "E" ∨ e.name = "e" then some i else r
    decide (¬ (e.moles ≤ 0 ∧ r' ≠ some i)) :: inclGo l (i + 1) r'

open Classical in
/-- `m_incl_species[k]` (`MultiPhaseEquil.cpp:39-46`, `72-76`): `a k i` are the atoms in the
mixture, `cond k` says that the species is a pure phase with data that are not valid. -/
noncomputable def inclSpecies (els : List MixEl) (a : ℕ → ℕ → ℝ) (cond : ℕ → Prop) (k : ℕ) : Prop :=
  (∀ i < els.length, (inclGo els 0 none).getD i true = false → a k i = 0) ∧ ¬ cond k

/-- The mole numbers handed to the mixture (`MultiPhaseEquil.cpp:174-181`, `183-190`): the
species that are not included get zero. -/
noncomputable def writeMix (species : List ℕ) (m : ℕ → ℝ) (k : ℕ) : ℝ :=
  match species.idxOf? k with
  | some i => m i
  | none => 0

end Verif.MPE
