import Verif.Basic
import Mathlib.Algebra.Order.Archimedean.Real.Basic
import Mathlib.Analysis.SpecialFunctions.Log.Base

/-!
# Reaction path analysis

Model of `src/kinetics/ReactionPath.cpp`, `include/cantera/kinetics/ReactionPath.h` and of
`Group` (`Group.cpp`, `Group.h`).  The kinetics object is a table of stoichiometric
coefficients and of the numbers of atoms; the rates of progress are arguments of `build`.
Labels, fonts and the text of the `dot` output are not modelled; the edges with their relative
flows and the visible nodes are.  `m_x` and `value` are not used by the code and left out.
-/

namespace Verif.RPath

/-! ## Groups of atoms -/

/-- Group.h:133-135: `m_comp` and `m_sign`. -/
structure Grp where
  comp : List ℤ
  sign : ℤ
  deriving DecidableEq

/-- Group.h:23: the default constructed group is not valid. -/
def Grp.dflt : Grp := ⟨[], -999⟩

/-- Group.cpp:24-33: the loop of `validate`; `none` is `ok = false`.
`m_comp[m]/abs(m_comp[m])` is the sign of a nonzero integer. -/
def signLoop : List ℤ → ℤ → Option ℤ
  | [], s => some s
  | c :: cs, s =>
    if c ≠ 0 then
      if s = 0 then signLoop cs (c / |c|)
      else if s * c < 0 then none
      else signLoop cs s
    else signLoop cs s

/-- Group.cpp:15-37: `validate`. -/
def Grp.validate (g : Grp) : Grp :=
  if g.sign = -999 then g
  else
    match signLoop g.comp 0 with
    | some s => { g with sign := s }
    | none => { g with sign := -999 }

/-- Group.h:27-30: construction from a vector of integers. -/
def Grp.ofComp (c : List ℤ) : Grp := (Grp.mk c 0).validate

/-- Group.h:52-57, 78-82: difference; both groups have the same number of elements. -/
def Grp.sub (a b : Grp) : Grp := (Grp.mk (List.zipWith (· - ·) a.comp b.comp) a.sign).validate

/-- Group.h:64-69: multiplication by an integer. -/
def Grp.mul (a : Grp) (n : ℤ) : Grp := (Grp.mk (a.comp.map (· * n)) a.sign).validate

/-- Group.h:99-101. -/
def Grp.valid (g : Grp) : Prop := g.sign ≠ -999

instance (g : Grp) : Decidable g.valid := by unfold Grp.valid; infer_instance

/-- Group.h:121-126: `nAtoms(m)`; the index is below the number of elements. -/
def Grp.nAtoms (g : Grp) (m : ℕ) : ℤ := if g.comp = [] then 0 else g.comp.getD m 0

/-! ## The builder -/

/-- What `init` reads of the Kinetics object: numbers of species, elements and reactions,
atoms of element `m` in species `k` (562-599, `findElements`; an element which is unknown to a
phase has no atoms in its species) and the stoichiometric coefficients of species `k` in
reaction `i`. -/
structure Mech where
  ns : ℕ
  nel : ℕ
  nr : ℕ
  atoms : ℕ → ℕ → ℝ
  nuR : ℕ → ℕ → ℝ
  nuP : ℕ → ℕ → ℝ

/-- 615-620: number of iterations of `for (int n = 0; n < c; n++)`. -/
noncomputable def copies (c : ℝ) : ℕ := ⌈c⌉₊

variable (M : Mech)

/-- 639-647: `net[k]`, the number of copies among the products less that among the
reactants. -/
noncomputable def net (i k : ℕ) : ℤ := (copies (M.nuP k i) : ℤ) - copies (M.nuR k i)

/-- 649-654: `m_reac[i]`. -/
noncomputable def reac (i : ℕ) : List ℕ :=
  (List.range M.ns).flatMap fun k => List.replicate (- net M i k).toNat k

/-- 649, 655-660: `m_prod[i]`. -/
noncomputable def prods (i : ℕ) : List ℕ :=
  (List.range M.ns).flatMap fun k => List.replicate (net M i k).toNat k

/-- 632, 668-673: `m_elatoms(m,i)` after `init`, where `old` is the value before the call:
`resize` keeps it, and the loop increments it. It is zero in a new builder. -/
noncomputable def elatomsFrom (old : ℕ → ℕ → ℝ) (m i : ℕ) : ℝ :=
  old m i + ((reac M i).map (M.atoms · m)).sum

/-- Conversion `int(double)`: truncation. -/
noncomputable def trunc (x : ℝ) : ℤ := if 0 ≤ x then ⌊x⌋ else ⌈x⌉

/-- 677-684: `m_sgroup[j]`. -/
noncomputable def sgroup (j : ℕ) : Grp :=
  Grp.ofComp ((List.range M.nel).map fun m => trunc (M.atoms j m))

/-- 699-708: number of entries of the list whose species contains element `m`. -/
noncomputable def nContain (l : List ℕ) (m : ℕ) : ℕ :=
  (l.filter fun k => decide (0 < M.atoms k m)).length

/-- 692-714: `m_determinate[i]`. -/
noncomputable def determinate (i : ℕ) : Bool :=
  (List.range M.nel).all fun m =>
    !(decide (1 < nContain M (reac M i) m) && decide (1 < nContain M (prods M i) m))

/-- `m_transfer[i]`: `none` is the empty map; missing entries are default constructed when
they are read. -/
abbrev Transfer := Option (ℕ → ℕ → Grp)

/-- Assignment `m_transfer[i][a][b] = g`. -/
def Transfer.put (t : Transfer) (a b : ℕ) (g : Grp) : Transfer :=
  some fun x y => if x = a ∧ y = b then g else (t.getD fun _ _ => Grp.dflt) x y

/-- 471-542: the rules for two reactants and two products. -/
def rule (r0 r1 p0 p1 : Grp) : Transfer :=
  let b0 := p0.sub r0
  let b1 := p1.sub r0
  let t0 : Transfer :=
    if b0.valid then
      if 0 < b0.sign then
        Transfer.put (Transfer.put (Transfer.put none 0 0 r0) 1 0 b0) 1 1 p1
      else
        Transfer.put (Transfer.put (Transfer.put none 1 1 r1) 0 1 (b0.mul (-1))) 0 0 p0
    else none
  -- line 499 changes `b0` before `valid` is asked again
  let b0' := if b0.valid ∧ ¬ 0 < b0.sign then b0.mul (-1) else b0
  if b1.valid then
    if 0 < b1.sign then
      if ¬ b0'.valid then
        Transfer.put (Transfer.put (Transfer.put t0 0 1 r0) 1 1 b0') 1 0 p0
      else t0
    else
      if ¬ b0'.valid then
        Transfer.put (Transfer.put (Transfer.put t0 1 0 r1) 0 0 b0') 0 1 p1
      else t0
  else t0

/-- 452-560: `m_transfer[i]`. -/
noncomputable def transfer (i : ℕ) : Transfer :=
  if determinate M i then none
  else
    match reac M i, prods M i with
    | [kr0, kr1], [kp0, kp1] => rule (sgroup M kr0) (sgroup M kr1) (sgroup M kp0) (sgroup M kp1)
    | _, _ => none

/-- 801-830: `f` for a pair of positions in `m_reac[i]` and `m_prod[i]`; `E` is
`m_elatoms(m,i)`. -/
noncomputable def factorE (E : ℝ) (m i kr kp : ℕ) : ℝ :=
  let kkr := (reac M i).getD kr 0
  let kkp := (prods M i).getD kp 0
  if M.atoms kkp m < E ∧ M.atoms kkr m < E then
    match transfer M i with
    | none => 0
    | some g => if ¬ (g kr kp).valid then 0 else ((g kr kp).nAtoms m : ℝ)
  else M.atoms kkp m * M.atoms kkr m / E

/-! ## The diagram -/

/-- 82-154 of the header: the flow of a path and the map from reaction numbers to flows.  The
keys are `size_t`; `-int(i)` is the negative number (851), which `reactions()` converts back. -/
structure PathD where
  total : ℝ
  rxn : ℤ → ℝ

/-- State of the diagram: keys of `m_nodes` (null pointers included), `m_speciesNumber` (the
nodes which exist), the two-level map of paths, `m_pathlist`, `m_in` and `m_out` of the nodes,
`m_flxmax`, `visible` of the nodes. -/
structure Diag where
  keys : List ℕ
  nums : List ℕ
  path : ℕ → ℕ → Option PathD
  plist : List (ℕ × ℕ)
  nin : ℕ → ℝ
  nout : ℕ → ℝ
  flxmax : ℝ
  visible : ℕ → Bool

/-- A new diagram. -/
def Diag.empty : Diag :=
  ⟨[], [], fun _ _ => none, [], fun _ => 0, fun _ => 0, 0, fun _ => false⟩

/-- Header 190-192. The null pointers which it inserts into the map of paths are not
distinguished from missing entries: all readers test for them. -/
def Diag.flow (d : Diag) (a b : ℕ) : ℝ :=
  match d.path a b with
  | some p => p.total
  | none => 0

/-- Header 185-187. -/
def Diag.netFlow (d : Diag) (a b : ℕ) : ℝ := d.flow a b - d.flow b a

/-- `m_nodes[k]` inserts a null pointer for an absent key. -/
def Diag.touch (d : Diag) (k : ℕ) : Diag :=
  { d with keys := if k ∈ d.keys then d.keys else d.keys ++ [k] }

/-- Header 195-197: `hasNode`. -/
def Diag.hasNode (d : Diag) (k : ℕ) : Diag × Bool := (d.touch k, decide (k ∈ d.nums))

/-- 422-431: `addNode`. -/
def Diag.addNode (d : Diag) (k : ℕ) : Diag :=
  let d := d.touch k
  if k ∈ d.nums then d else { d with nums := d.nums ++ [k] }

/-- 841-843, 844-846: a node is added unless `hasNode` finds it. -/
def Diag.ensure (d : Diag) (k : ℕ) : Diag :=
  let q := d.hasNode k
  if q.2 then q.1 else q.1.addNode k

/-- 51-58: `Path::addReaction`, without the label. -/
noncomputable def PathD.add (p : PathD) (r : ℤ) (v : ℝ) : PathD :=
  ⟨p.total + v, fun j => if j = r then p.rxn j + v else p.rxn j⟩

/-- 433-445: `linkNodes`.  A new path registers itself with its nodes with the flow it has
then, zero (44-49, 23-33); a null node is dereferenced. -/
noncomputable def Diag.link (d : Diag) (a b : ℕ) (r : ℤ) (v : ℝ) : Outcome Diag :=
  match d.path a b with
  | some p =>
    .ok { d with
      path := fun x y => if x = a ∧ y = b then some (p.add r v) else d.path x y
      flxmax := max (p.add r v).total d.flxmax }
  | none =>
    if a ∈ d.nums ∧ b ∈ d.nums then
      let p : PathD := ⟨0, fun _ => 0⟩
      .ok { d with
        path := fun x y => if x = a ∧ y = b then some (p.add r v) else d.path x y
        plist := d.plist ++ [(a, b)]
        nout := fun k => if k = a then d.nout k + p.total else d.nout k
        nin := fun k => if k = b ∧ k ≠ a then d.nin k + p.total else d.nin k
        flxmax := max (p.add r v).total d.flxmax }
    else .ub

/-- 755-761: `status`; `inc` and `exc` are the indices of the included and excluded species. -/
def status (inc exc : List ℕ) (k : ℕ) : ℤ :=
  if k ∈ exc then -1 else if k ∈ inc then 1 else 0

/-- 772-855: one pair of positions. `ropf` and `ropr` are the rates of progress. The threshold
of line 741 is zero, hence `force_incl` has no effect. -/
noncomputable def step (E : ℝ) (ropf ropr : ℕ → ℝ) (inc exc : List ℕ) (m : ℕ) (d : Diag)
    (t : ℕ × ℕ × ℕ) : Outcome Diag :=
  let i := t.1
  let kkr := (reac M i).getD t.2.1 0
  let kkp := (prods M i).getD t.2.2 0
  if kkr ≠ kkp ∧ 0 < M.atoms kkr m ∧ 0 < M.atoms kkp m ∧
      0 ≤ status inc exc kkr ∧ 0 ≤ status inc exc kkp then
    let f := factorE M E m i t.2.1 t.2.2
    let fwd := ropf i * f
    let rev := ropr i * f
    let force := status inc exc kkr = 1 ∨ status inc exc kkp = 1
    let fi := 0 < fwd ∨ (0 < fwd ∧ force)
    let ri := 0 < rev ∨ (0 < rev ∧ force)
    open Classical in
    let d1 := if fi ∨ ri then (d.ensure kkr).ensure kkp else d
    (if fi then d1.link kkr kkp i fwd else .ok d1) >>= fun d2 =>
    if ri then d2.link kkp kkr (-i) rev else .ok d2
  else .ok d

/-- Iteration of `step`. -/
noncomputable def steps (E : ℕ → ℝ) (ropf ropr : ℕ → ℝ) (inc exc : List ℕ) (m : ℕ) :
    List (ℕ × ℕ × ℕ) → Diag → Outcome Diag
  | [], d => .ok d
  | t :: ts, d => step M (E t.1) ropf ropr inc exc m d t >>= steps E ropf ropr inc exc m ts

/-- 763-776: the pairs of positions in the order of the loops; `E i` is `m_elatoms(m,i)`. -/
noncomputable def triples (E : ℕ → ℝ) : List (ℕ × ℕ × ℕ) :=
  (List.range M.nr).flatMap fun i =>
    if 0 < E i then
      (List.range (reac M i).length).flatMap fun kr =>
        (List.range (prods M i).length).map fun kp => (i, kr, kp)
    else []

/-- 737-860: `build`. `m` is `none` for an unknown element (742-746); `inc` and `exc` are the
results of `kineticsSpeciesIndex`, `none` is `npos`, which is used as an index (757, 760).
The result is the diagram and the return value. -/
noncomputable def build (old : ℕ → ℕ → ℝ) (ropf ropr : ℕ → ℝ) (inc exc : List (Option ℕ))
    (m : Option ℕ) (d : Diag) : Outcome (Diag × ℤ) :=
  match m with
  | none => .ok (d, -1)
  | some m =>
    if none ∈ inc ∨ none ∈ exc then .ub
    else
      let E := fun i => elatomsFrom M old m i
      steps M E ropf ropr (inc.filterMap id) (exc.filterMap id) m (triples M E) d >>= fun d =>
      .ok (d, 1)

/-- 188-192: `ReactionPathDiagram::build`: the new diagram and `m_isBuilt`; the return value is
ignored. -/
noncomputable def buildDiagram (ropf ropr : ℕ → ℝ) (inc exc : List (Option ℕ))
    (m : Option ℕ) (d : Diag) : Outcome (Diag × Bool) :=
  build M (fun _ _ => 0) ropf ropr inc exc m d >>= fun r => .ok (r.1, true)

/-- 130-138: `add`: `setFlow` for the paths of this diagram. -/
def Diag.add (d e : Diag) : Diag :=
  { d with path := fun a b =>
      match d.path a b with
      | some p => some { p with total := p.total + e.flow a b }
      | none => none }

/-- 109-113, 358-360: the largest flow of the paths, at least zero. -/
noncomputable def Diag.flmax1 (d : Diag) : ℝ :=
  (d.plist.map fun q => d.flow q.1 q.2).foldl (fun m x => max x m) 0

/-! ## Export -/

/-- 266-282: `flmax` for net flows, over the list of nodes. -/
noncomputable def flmaxNet (d : Diag) (scale : ℝ) (ks : List ℕ) : ℝ :=
  max (if scale ≤ 0 then
      ((ks.zipIdx.flatMap fun p => (ks.drop (p.2 + 1)).map fun k2 =>
          let flx := d.netFlow p.1 k2
          if flx < 0 then -flx else flx).foldl (fun m x => max x m) 0)
    else scale) (1 / 10 ^ 10)

/-- 288-310: the edge of a pair of nodes, if one is written: begin, end and relative flow. -/
noncomputable def edgeOf (d : Diag) (loc : Option ℕ) (thr flmax : ℝ) (k1 k2 : ℕ) :
    List (ℕ × ℕ × ℝ) :=
  let flx := match loc with
    | some l => if k1 ≠ l ∧ k2 ≠ l then 0 else d.netFlow k1 k2
    | none => d.netFlow k1 k2
  if flx ≠ 0 then
    let e := if 0 < flx then (k1, k2, flx / flmax) else (k2, k1, -flx / flmax)
    if thr ≤ e.2.2 then [e] else []
  else []

/-- 284-355: the edges for net flows. -/
noncomputable def edges (d : Diag) (loc : Option ℕ) (thr flmax : ℝ) (ks : List ℕ) :
    List (ℕ × ℕ × ℝ) :=
  ks.zipIdx.flatMap fun p => (ks.drop (p.2 + 1)).flatMap fun k2 => edgeOf d loc thr flmax p.1 k2

/-- 263-355, 409-415: `exportToDot` with net flows: the edges and the nodes which are written.
The loops read `m_speciesNumber[i]` for `i < nNodes()`, the number of keys of `m_nodes`, and the
last loop dereferences all nodes. -/
noncomputable def exportNet (d : Diag) (loc : Option ℕ) (thr scale : ℝ) :
    Outcome (List (ℕ × ℕ × ℝ) × List ℕ) :=
  if d.nums.length < d.keys.length then .ub
  else
    let es := edges d loc thr (flmaxNet d scale d.nums) d.nums
    let vis := fun k => (!decide (scale ≤ 0) && d.visible k) ||
      es.any fun e => e.1 == k || e.2.1 == k
    .ok (es, d.keys.filter vis)

/-- 357-376: one-way flows: the edges; `none`: division by zero. -/
noncomputable def exportOneWay (d : Diag) (loc : Option ℕ) (thr scale : ℝ) :
    Option (List (ℕ × ℕ × ℝ)) :=
  let flmax := if scale < 0 then d.flmax1 else scale
  if flmax = 0 ∧ d.plist ≠ [] then none
  else
    some (d.plist.flatMap fun q =>
      let ratio := match loc with
        | some l => if q.1 ≠ l ∧ q.2 ≠ l then 0 else d.flow q.1 q.2 / flmax
        | none => d.flow q.1 q.2 / flmax
      if thr < ratio then [(q.1, q.2, ratio)] else [])

/-- 319-320, 381-382: width of the line for a relative flow. -/
noncomputable def lwidth (ratio thr : ℝ) : ℝ :=
  1 - 4 * Real.logb 10 (ratio / thr) / Real.logb 10 thr + 1

end Verif.RPath
