import Verif.Basic
import Mathlib.Analysis.SpecialFunctions.Log.Basic
import Mathlib.Algebra.BigOperators.Group.Finset.Basic

/-!
# C73: surface phase with coverage-dependent properties

Model of `/repo/src/thermo/CoverageDependentSurfPhase.cpp` together with the parts of
`/repo/src/thermo/SurfPhase.cpp` it uses (`getCoverages`, `_updateThermo`).

Simplifications: the reference state functions of the species are arbitrary functions of temperature in molar units;
`mean_X` is the sum weighted by the mole fractions; the units and keys of the input have been processed; an update that
throws leaves the object as it was (the code leaves partial sums, which the next update discards because the stored state
number is not changed); the list of species is fixed.
-/

namespace Verif.Thermo.CovSurf

open Finset

/-- Dependency by a polynomial (CoverageDependentSurfPhase.h:136-165): vectors of coefficients. -/
structure Poly where
  k : ℕ
  j : ℕ
  h : List ℝ
  s : List ℝ

/-- `poly4` (utilities.h:153-157): reads five coefficients. -/
noncomputable def poly4 (c : List ℝ) (x : ℝ) : Outcome ℝ :=
  if c.length < 5 then .ub
  else .ok ((((c.getD 4 0 * x + c.getD 3 0) * x + c.getD 2 0) * x + c.getD 1 0) * x + c.getD 0 0)

/-- Model `linear` (l. 35-42). -/
def linear (k j : ℕ) (h s : Option ℝ) : Poly := ⟨k, j, [0, h.getD 0, 0, 0, 0], [0, s.getD 0, 0, 0, 0]⟩

/-- Model `polynomial` (l. 44-55). -/
def polynomial (k j : ℕ) (h s : Option (List ℝ)) : Poly :=
  ⟨k, j, (h.map fun c => 0 :: c).getD [0, 0, 0, 0, 0], (s.map fun c => 0 :: c).getD [0, 0, 0, 0, 0]⟩

/-- `map<double, double>`: ordered list of pairs. -/
abbrev Map := List (ℝ × ℝ)

open Classical in
/-- Assignment to an element of a map. -/
noncomputable def put (k v : ℝ) : Map → Map
  | [] => [(k, v)]
  | (a, b) :: m => if k < a then (k, v) :: (a, b) :: m else if k = a then (k, v) :: m else (a, b) :: put k v m

open Classical in
/-- Value of an element of a map (a missing element would be created with the value zero). -/
noncomputable def get (k : ℝ) : Map → ℝ
  | [] => 0
  | (a, b) :: m => if k = a then b else get k m

/-- Initial map (l. 63-64). -/
def start : Map := [(0, 0), (1, 0)]

/-- Map of model `piecewise-linear` (l. 70-92). -/
noncomputable def piecewise (low change high : ℝ) : Map :=
  let m := put change (low * change) start
  put 1 ((1 - change) * high + get change m) m

/-- Map of model `interpolative` (l. 95-121); `none` if the arrays have different lengths (an exception). -/
noncomputable def table (x v : List ℝ) : Option Map :=
  if x.length ≠ v.length then none else some ((x.zip v).foldl (fun m p => put p.1 p.2 m) start)

/-- Dependency by interpolation. -/
structure Interp where
  k : ℕ
  j : ℕ
  h : Map
  s : Map

/-- The checks of `addInterpolativeDependency` (l. 136-152). -/
def Accept (d : Interp) : Prop :=
  d.h.head?.map Prod.fst = some 0 ∧ d.h.getLast?.map Prod.fst = some 1 ∧
  d.s.head?.map Prod.fst = some 0 ∧ d.s.getLast?.map Prod.fst = some 1

/-- The element found by `upper_bound` and the one before (l. 476-499); `none` if the iterator is `end()` or `begin()`. -/
noncomputable def bracket (x : ℝ) : Option (ℝ × ℝ) → Map → Option ((ℝ × ℝ) × (ℝ × ℝ))
  | _, [] => none
  | lo, p :: m => if x < p.1 then lo.map fun q => (q, p) else bracket x (some p) m

/-- Interpolated value (l. 501-505). -/
noncomputable def interp (m : Map) (x : ℝ) : Option ℝ :=
  (bracket x none m).map fun (lo, hi) => (hi.2 - lo.2) / (hi.1 - lo.1) * (x - lo.1) + lo.2

/-- Coverage dependence of the heat capacity. -/
structure Heat where
  k : ℕ
  j : ℕ
  a : ℝ
  b : ℝ

/-- Parameters of the phase: number and sizes of species, gas constant, reference coverage, reference state functions,
dependencies. -/
structure Data where
  n : ℕ
  size : ℕ → ℝ
  R : ℝ
  thetaRef : ℝ
  h0 : ℝ → ℕ → ℝ
  s0 : ℝ → ℕ → ℝ
  cp0 : ℝ → ℕ → ℝ
  polys : List Poly
  interps : List Interp
  heats : List Heat

/-- Object: state of the phase (temperature, mole fractions, state number) and stored results. -/
structure Obj where
  d : Data
  T : ℝ
  X : ℕ → ℝ
  num : ℤ
  tlast : ℝ
  numLast : ℤ
  cov : ℕ → ℝ
  hCov : ℕ → ℝ
  sCov : ℕ → ℝ
  cpCov : ℕ → ℝ
  muCov : ℕ → ℝ
  h0 : ℕ → ℝ
  s0 : ℕ → ℝ
  cp0 : ℕ → ℝ
  mu0 : ℕ → ℝ

/-- `SurfPhase::getCoverages` (SurfPhase.cpp:249-261). -/
noncomputable def coverages (d : Data) (X : ℕ → ℝ) (k : ℕ) : ℝ :=
  X k * (d.size k * (∑ i ∈ range d.n, X i) / ∑ i ∈ range d.n, X i * d.size i)

/-- `v[k] += x`. -/
noncomputable def addAt (f : ℕ → ℝ) (k : ℕ) (x : ℝ) : ℕ → ℝ := fun i => if i = k then f i + x else f i

/-- Loop over the polynomials (l. 469-472). -/
noncomputable def loopPoly (cov : ℕ → ℝ) : List Poly → (ℕ → ℝ) × (ℕ → ℝ) → Outcome ((ℕ → ℝ) × (ℕ → ℝ))
  | [], f => .ok f
  | p :: ps, f => do
    let h ← poly4 p.h (cov p.j)
    let s ← poly4 p.s (cov p.j)
    loopPoly cov ps (addAt f.1 p.k h, addAt f.2 p.k s)

/-- Loop over the interpolated dependencies (l. 475-506); the assertions are empty if `NDEBUG` is defined. -/
noncomputable def loopInterp (ndebug : Bool) (cov : ℕ → ℝ) :
    List Interp → (ℕ → ℝ) × (ℕ → ℝ) → Outcome ((ℕ → ℝ) × (ℕ → ℝ))
  | [], f => .ok f
  | p :: ps, f =>
    match interp p.h (cov p.j), interp p.s (cov p.j) with
    | some h, some s => loopInterp ndebug cov ps (addAt f.1 p.k h, addAt f.2 p.k s)
    | _, _ => if ndebug then .ub else .throw

/-- Loop over the heat capacities (l. 509-521). -/
noncomputable def loopHeat (T : ℝ) (cov : ℕ → ℝ) : List Heat → (ℕ → ℝ) × (ℕ → ℝ) × (ℕ → ℝ) → (ℕ → ℝ) × (ℕ → ℝ) × (ℕ → ℝ)
  | [], f => f
  | p :: ps, (h, s, cp) =>
    let a := p.a
    let b := p.b
    let iT := T * (a * Real.log T - a + b)
    let i298 := 298.15 * (a * Real.log 298.15 - a + b)
    let jT := Real.log T * (a * Real.log T + 2 * b)
    let j298 := Real.log 298.15 * (a * Real.log 298.15 + 2 * b)
    loopHeat T cov ps (addAt h p.k ((iT - i298) * cov p.j * cov p.j), addAt s p.k (0.5 * (jT - j298) * cov p.j * cov p.j),
      addAt cp p.k ((a * Real.log T + b) * cov p.j * cov p.j))

open Classical in
/-- `_updateCovDepThermo` (l. 456-528). -/
noncomputable def updateCov (ndebug : Bool) (o : Obj) : Outcome Obj :=
  if o.numLast ≠ o.num ∨ o.tlast ≠ o.T then do
    let cov := coverages o.d o.X
    let f ← loopPoly cov o.d.polys (fun _ => 0, fun _ => 0)
    let f ← loopInterp ndebug cov o.d.interps f
    let (h, s, cp) := loopHeat o.T cov o.d.heats (f.1, f.2, fun _ => 0)
    .ok { o with cov := cov, hCov := h, sCov := s, cpCov := cp, muCov := fun k => h k - o.T * s k, numLast := o.num }
  else .ok o

open Classical in
/-- `SurfPhase::_updateThermo` (SurfPhase.cpp:303-317). -/
noncomputable def updateRef (o : Obj) : Obj :=
  if o.tlast ≠ o.T then
    { o with h0 := o.d.h0 o.T, s0 := o.d.s0 o.T, cp0 := o.d.cp0 o.T,
             mu0 := fun k => o.d.h0 o.T k - o.T * o.d.s0 o.T k, tlast := o.T }
  else o

/-- `_updateTotalThermo` (l. 530-541), up to the sums. -/
noncomputable def update (ndebug : Bool) (o : Obj) : Outcome Obj := do
  let o ← updateCov ndebug o
  .ok (updateRef o)

namespace Obj

variable (o : Obj)

/-- The sums (l. 535-540). -/
def enthalpy (k : ℕ) : ℝ := o.h0 k + o.hCov k
/-- The sums (l. 535-540). -/
def entropy (k : ℕ) : ℝ := o.s0 k + o.sCov k
/-- The sums (l. 535-540). -/
def heatCapacity (k : ℕ) : ℝ := o.cp0 k + o.cpCov k
/-- The sums (l. 535-540). -/
def chempot (k : ℕ) : ℝ := o.mu0 k + o.muCov k

/-- `SmallNumber`. -/
noncomputable def small : ℝ := 1 / 10 ^ 300

/-- `getEnthalpy_RT` (l. 347-351) after the update; also below. -/
noncomputable def enthalpyRT (k : ℕ) : ℝ := o.enthalpy k * (1 / (o.d.R * o.T))

open Classical in
/-- `getEntropy_R` (l. 353-363). -/
noncomputable def entropyR (k : ℕ) : ℝ :=
  if o.d.thetaRef ≠ 1 then o.entropy k * (1 / o.d.R) - -Real.log o.d.thetaRef else o.entropy k * (1 / o.d.R)

/-- `getCp_R` (l. 365-369). -/
noncomputable def cpR (k : ℕ) : ℝ := o.heatCapacity k * (1 / o.d.R)

open Classical in
/-- `getGibbs_RT` (l. 371-381). -/
noncomputable def gibbsRT (k : ℕ) : ℝ :=
  if o.d.thetaRef ≠ 1 then o.chempot k * (1 / (o.d.R * o.T)) + -Real.log o.d.thetaRef else o.chempot k * (1 / (o.d.R * o.T))

/-- `getPureGibbs` (l. 383-389). -/
noncomputable def pureGibbs (k : ℕ) : ℝ := o.gibbsRT k * (o.d.R * o.T)

open Classical in
/-- `getStandardChemPotentials` (l. 391-401). -/
noncomputable def stdChemPot (k : ℕ) : ℝ :=
  if o.d.thetaRef ≠ 1 then o.chempot k + o.d.R * o.T * -Real.log o.d.thetaRef else o.chempot k

/-- `getPartialMolarEnthalpies` (l. 403-407). -/
noncomputable def pmEnthalpy (k : ℕ) : ℝ := o.enthalpy k

/-- `getPartialMolarEntropies` (l. 409-416). -/
noncomputable def pmEntropy (k : ℕ) : ℝ := o.entropy k - o.d.R * Real.log (max (o.cov k) small / o.d.thetaRef)

/-- `getPartialMolarCp` (l. 418-422). -/
noncomputable def pmCp (k : ℕ) : ℝ := o.heatCapacity k

/-- `getChemPotentials` (l. 424-431). -/
noncomputable def chemPot (k : ℕ) : ℝ := o.chempot k + o.d.R * o.T * Real.log (max (o.cov k) small / o.d.thetaRef)

/-- `enthalpy_mole` (l. 433-437). -/
noncomputable def enthalpyMole : ℝ := ∑ k ∈ range o.d.n, o.X k * o.enthalpy k

/-- `entropy_mole` (l. 439-448). -/
noncomputable def entropyMole : ℝ :=
  ∑ k ∈ range o.d.n, o.X k * (o.entropy k - o.d.R * Real.log (max (o.cov k) small / o.d.thetaRef))

/-- `cp_mole` (l. 450-454). -/
noncomputable def cpMole : ℝ := ∑ k ∈ range o.d.n, o.X k * o.heatCapacity k

/-- Activity: activity concentration (Phase.cpp: density `n0 W` gives `n0 X_k`) over the standard concentration `n0 / s_k`
(SurfPhase.cpp:113-121, 297-301). -/
noncomputable def activity (n0 : ℝ) (k : ℕ) : ℝ := n0 * o.X k / (n0 / o.d.size k)

end Obj

/-- Calls. -/
inductive Op where
  | setT (T : ℝ)
  | setX (X : ℕ → ℝ)
  | ref
  | query
  | invalidate
  | add (d : Interp)

open Classical in
/-- Effect of one call: `setTemperature` (Phase.h:624-631), change of composition (Phase.cpp:922-925), reference state
properties (l. 323-345), any other property (l. 347-454), `invalidateCache` (Phase.cpp:908-911, ThermoPhase.cpp:1162-1165),
`addInterpolativeDependency` (l. 133-155). -/
noncomputable def step (ndebug : Bool) (o : Obj) : Op → Outcome Obj
  | .setT T => if 0 < T then .ok { o with T := T } else .throw
  | .setX X => .ok { o with X := X, num := o.num + 1 }
  | .ref => .ok (updateRef o)
  | .query => update ndebug o
  | .invalidate => .ok { o with num := o.num + 1, tlast := o.tlast + 0.1234 }
  | .add d => if Accept d then .ok { o with d := { o.d with interps := o.d.interps ++ [d] } } else .throw

/-- Sequence of calls; a call that throws does not change the object. -/
noncomputable def run (ndebug : Bool) : Obj → List Op → Outcome Obj
  | o, [] => .ok o
  | o, op :: ops =>
    match step ndebug o op with
    | .ok o => run ndebug o ops
    | .throw => run ndebug o ops
    | .ub => .ub

/-- A new object with species at a state (l. 124-131, 215-230; ThermoPhase.h: `m_tlast = 0`). -/
noncomputable def fresh (d : Data) (T : ℝ) (X : ℕ → ℝ) (num : ℤ) : Obj where
  d := d
  T := T
  X := X
  num := num
  tlast := 0
  numLast := -2
  cov := fun _ => 0
  hCov := fun _ => 0
  sCov := fun _ => 0
  cpCov := fun _ => 0
  muCov := fun _ => 0
  h0 := fun _ => 0
  s0 := fun _ => 0
  cp0 := fun _ => 0
  mu0 := fun _ => 0

/-- `getSpeciesParameters` for one map of a piecewise-linear dependency (l. 272-290): change, low, high; reads three elements. -/
noncomputable def piecewiseParams (m : Map) : Outcome (ℝ × ℝ × ℝ) :=
  match m with
  | p0 :: p1 :: p2 :: _ => .ok (p1.1, (p1.2 - p0.2) / (p1.1 - p0.1), (p2.2 - p1.2) / (p2.1 - p1.1))
  | _ => .ub

end Verif.Thermo.CovSurf
