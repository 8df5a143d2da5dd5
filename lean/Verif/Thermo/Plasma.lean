import Verif.Basic
import Verif.Util.Funcs
import Mathlib.Analysis.SpecialFunctions.Gamma.Basic

/-!
# Electron energy distribution of a plasma and electron collision rates

Model of `src/thermo/PlasmaPhase.cpp` and `src/kinetics/ElectronCollisionPlasmaRate.cpp`.  The
quadrature and interpolation functions are those of `Verif.Util.Funcs`.  Arrays are lists.  A call
returns the object after the call together with its outcome, since several calls change the object
before they throw.  A division by a vanishing norm sets `nan`.  A non-positive mean electron energy
(NaN from `pow`) is not modelled; the theorems about the isotropic form assume it positive.
-/

namespace Verif.Plasma

open Verif Funcs

/-- `ElectronCharge`, `ct_defs.h:90`. -/
noncomputable def qe : ℝ := 1.602176634e-19
/-- `Boltzmann`, `ct_defs.h:84`. -/
noncomputable def kB : ℝ := 1.380649e-23
/-- `ElectronMass`, `ct_defs.h:111`. -/
noncomputable def me : ℝ := 9.1093837015e-31
/-- `Avogadro`, `ct_defs.h:81`. -/
noncomputable def NA : ℝ := 6.02214076e26
/-- `GasConstant`, `ct_defs.h:120`. -/
noncomputable def Rgas : ℝ := NA * kB

/-- `ElectronCollisionPlasmaRate`: tabulated levels and cross sections and the interpolated cross
sections, `ElectronCollisionPlasmaRate.h:150-158`. -/
structure Rate where
  energies : List ℝ
  cs : List ℝ
  interp : List ℝ

/-- The data members of `PlasmaPhase`, `PlasmaPhase.h` (from `m_isotropicShapeFactor` on), with
`m_collisionRates`, `m_targetSpeciesIndices`, `m_interp_cs_ready` and
`m_elasticElectronEnergyLossCoefficients` as functions of the index and `nColl = m_collisions.size()`. -/
structure P where
  kind : String
  quad : String
  doNorm : Bool
  shape : ℝ
  nPts : ℕ
  levels : List ℝ
  dist : List ℝ
  diff : List ℝ
  Te : ℝ
  distNum : ℤ
  levelNum : ℤ
  nan : Bool
  nColl : ℕ
  rates : ℕ → Rate
  ready : ℕ → Bool
  targets : ℕ → ℕ
  coef : ℕ → ℝ
  cache : Option (ℝ × ℤ)

/-- Result of a call. -/
abbrev Call := P × Outcome Unit

/-- Sequencing of calls: an exception ends the caller. -/
def andThen (r : Call) (f : P → Call) : Call :=
  match r.2 with
  | .ok _ => f r.1
  | _ => r

/-- `meanElectronEnergy`, `PlasmaPhase.h` (3/2 Te k/e). -/
noncomputable def meanEnergy (p : P) : ℝ := 3 / 2 * p.Te * kB / qe

/-! ## Isotropic distribution -/

/-- `c1`, `PlasmaPhase.cpp:86-88`. -/
noncomputable def isoC1 (x : ℝ) : ℝ :=
  x * Real.Gamma (5 / 2 * x) ^ (1.5 : ℝ) / Real.Gamma (3 / 2 * x) ^ (2.5 : ℝ)

/-- `c2`, `PlasmaPhase.cpp:89`. -/
noncomputable def isoC2 (x : ℝ) : ℝ :=
  x * (Real.Gamma (5 / 2 * x) / Real.Gamma (3 / 2 * x)) ^ x

/-- One element of the distribution, `PlasmaPhase.cpp:90-93`. -/
noncomputable def isoF (x em ε : ℝ) : ℝ :=
  isoC1 x / em ^ (1.5 : ℝ) * Real.exp (-isoC2 x * (ε / em) ^ x)

/-- `checkElectronEnergyDistribution`, `PlasmaPhase.cpp:146-161` (the warning is not modelled). -/
noncomputable def checkDist (p : P) : Call :=
  (p, if ∃ d ∈ p.dist, d < 0 then .throw
    else if p.nPts = 0 ∨ p.dist.length < p.nPts then .ub else .ok ())

/-- `checkElectronEnergyLevels`, `PlasmaPhase.cpp:135-144`. -/
noncomputable def checkLevels (p : P) : Call :=
  (p, match p.levels with
    | [] => .ub
    | l :: _ => if l < 0 ∨ ∃ d ∈ diffs p.levels, d ≤ 0 then .throw else .ok ())

/-- `setIsotropicElectronEnergyDistribution`, `PlasmaPhase.cpp:82-95`. -/
noncomputable def setIso (p : P) : Call :=
  checkDist { p with dist := p.levels.map (isoF p.shape (meanEnergy p)), nan := false }

/-! ## Difference quotient of the distribution -/

/-- One element, `PlasmaPhase.cpp:391-410`. -/
noncomputable def diffAt (f x : ℕ → ℝ) (n i : ℕ) : ℝ :=
  if i = n - 1 then (f (n - 1) - f (n - 2)) / (x (n - 1) - x (n - 2))
  else if i = 0 then (f 1 - f 0) / (x 1 - x 0)
  else
    let h1 := x (i + 1) - x i
    let h0 := x i - x (i - 1)
    (h0 * h0 * f (i + 1) + (h1 * h1 - h0 * h0) * f i - h1 * h1 * f (i - 1)) / (h1 * h0) / (h1 + h0)

/-- `updateElectronEnergyDistDifference`, `PlasmaPhase.cpp:387-411`: elements 1 and `nPts - 2` are
read without a check. -/
noncomputable def updateDiff (p : P) : Call :=
  if p.nPts < 2 ∨ p.dist.length < p.nPts ∨ p.levels.length < p.nPts then (p, .ub)
  else ({ p with
    diff := (List.range p.nPts).map (diffAt (p.dist.getD · 0) (p.levels.getD · 0) p.nPts) }, .ok ())

/-- `updateElectronEnergyDistribution`, `PlasmaPhase.cpp:47-57`. -/
noncomputable def updateDist (p : P) : Call :=
  if p.kind = "discretized" then (p, .throw)
  else andThen (if p.kind = "isotropic" then setIso p else (p, .ok ())) fun p1 =>
    andThen (updateDiff p1) fun p2 => ({ p2 with distNum := p2.distNum + 1 }, .ok ())

/-- `setElectronTemperature`, `PlasmaPhase.cpp:97-100`. -/
noncomputable def setTe (p : P) (T : ℝ) : Call := updateDist { p with Te := T }

/-- `setMeanElectronEnergy`, `PlasmaPhase.cpp:102-105`. -/
noncomputable def setMean (p : P) (e : ℝ) : Call :=
  updateDist { p with Te := 2 / 3 * e * qe / kB }

/-- `setIsotropicShapeFactor`, `PlasmaPhase.cpp:202-205`. -/
noncomputable def setShape (p : P) (x : ℝ) : Call := updateDist { p with shape := x }

/-- `setElectronEnergyDistributionType`, `PlasmaPhase.cpp:71-80`. -/
def setKind (p : P) (k : String) : Call :=
  if k = "discretized" ∨ k = "isotropic" then ({ p with kind := k }, .ok ()) else (p, .throw)

/-- `setQuadratureMethod`, `PlasmaPhase.h`. -/
def setQuad (p : P) (m : String) : P := { p with quad := m }

/-- `ElectronCollisionPlasmaRate::updateInterpolatedCrossSection`,
`ElectronCollisionPlasmaRate.cpp:73-81` (non-empty tables of equal length). -/
noncomputable def interpolate (r : Rate) (levels : List ℝ) : Rate :=
  { r with interp := levels.map (interpFn r.energies r.cs) }

/-- `setElectronEnergyLevels`, `PlasmaPhase.cpp:107-123`. -/
noncomputable def setLevels (p : P) (l : List ℝ) (upd : Bool) : Call :=
  andThen (checkLevels { p with nPts := l.length, levels := l }) fun p1 =>
    andThen ((fun p2 : P => if upd then updateDist p2 else (p2, .ok ()))
        { p1 with levelNum := p1.levelNum + 1 }) fun p2 =>
      ({ p2 with
        ready := fun i => if i < p2.nColl then true else p2.ready i
        rates := fun i => if i < p2.nColl then interpolate (p2.rates i) p2.levels else p2.rates i },
        .ok ())

/-! ## Discretized distribution -/

/-- `normalizeElectronEnergyDistribution`, `PlasmaPhase.cpp:59-69`. -/
noncomputable def normalize (p : P) : Call :=
  match numericalQuadrature p.quad p.dist (p.levels.map (· ^ (3 / 2 : ℝ))) with
  | .ok v =>
    if 2 / 3 * v < 0 then (p, .throw)
    else if 2 / 3 * v = 0 then ({ p with nan := true }, .ok ())
    else ({ p with dist := p.dist.map (· / (2 / 3 * v)) }, .ok ())
  | .throw => (p, .throw)
  | .ub => (p, .ub)

/-- `updateElectronTemperatureFromEnergyDist`, `PlasmaPhase.cpp:182-200`. -/
noncomputable def updateTe (p : P) : Call :=
  match numericalQuadrature p.quad p.dist (p.levels.map (· ^ (5 / 2 : ℝ))) with
  | .ok v =>
    if 2 / 5 * v < 0 ∧ p.quad = "simpson" then
      match numericalQuadrature "trapezoidal" p.dist (p.levels.map (· ^ (5 / 2 : ℝ))) with
      | .ok v' => if 2 / 5 * v' < 0 then (p, .throw)
          else ({ p with Te := 2 / 3 * (2 / 5 * v') * qe / kB }, .ok ())
      | .throw => (p, .throw)
      | .ub => (p, .ub)
    else if 2 / 5 * v < 0 then (p, .throw)
    else ({ p with Te := 2 / 3 * (2 / 5 * v) * qe / kB }, .ok ())
  | .throw => (p, .throw)
  | .ub => (p, .ub)

/-- `setDiscretizedElectronEnergyDist`, `PlasmaPhase.cpp:163-180`: `dist` is read through a pointer,
as many values as there are levels. -/
noncomputable def setDiscretized (p : P) (l d : List ℝ) : Call :=
  andThen (setLevels { p with kind := "discretized" } l false) fun p1 =>
    if d.length < l.length then (p1, .ub) else
    andThen (checkLevels { p1 with dist := d.take l.length, nan := false }) fun p2 =>
      andThen (if p2.doNorm then normalize p2 else (p2, .ok ())) fun p3 =>
        if p3.nan then
          ({ p3 with levelNum := p3.levelNum + 1, distNum := p3.distNum + 1 }, .ok ()) else
        andThen (checkDist p3) fun p4 =>
          andThen (updateDiff p4) fun p5 =>
            andThen (updateTe p5) fun p6 =>
              ({ p6 with levelNum := p6.levelNum + 1, distNum := p6.distNum + 1 }, .ok ())

/-! ## Input -/

/-- The keys of `electron-energy-distribution`. -/
structure Input where
  kind : String
  shape : Option ℝ
  levels : Option (List ℝ)
  mean : Option ℝ
  dist : Option (List ℝ)
  norm : Option Bool

/-- `setParameters`, `PlasmaPhase.cpp:227-271`. -/
noncomputable def setParameters (p : P) (i : Input) : Call :=
  (fun p0 : P =>
    if i.kind = "isotropic" then
      match i.shape with
      | none => (p0, .throw)
      | some x =>
        andThen (match i.levels with
          | some l => setLevels { p0 with shape := x } l false
          | none => ({ p0 with shape := x }, .ok ())) fun p1 =>
          match i.mean with
          | some e => setMean p1 e
          | none => (p1, .throw)
    else if i.kind = "discretized" then
      match i.levels, i.dist with
      | some l, some d => setDiscretized { p0 with doNorm := i.norm.getD p0.doNorm } l d
      | _, _ => (p0, .throw)
    else (p0, .ok ())) { p with kind := i.kind }

/-- `getParameters`, `PlasmaPhase.cpp:207-225`. -/
noncomputable def getParameters (p : P) : Input where
  kind := p.kind
  levels := some p.levels
  shape := if p.kind = "isotropic" then some p.shape else none
  mean := if p.kind = "isotropic" then some (meanEnergy p) else none
  dist := if p.kind = "discretized" then some p.dist else none
  norm := if p.kind = "discretized" then some p.doNorm else none

/-- The constructor, `PlasmaPhase.cpp:21-33`, with `fromFile` the effect of `initThermoFile` and `T`
the temperature of the phase. -/
noncomputable def construct (p0 : P) (fromFile : P → Call) (T : ℝ) : Call :=
  andThen (fromFile p0) fun p =>
    ({ p with
      levels := (List.range p.nPts).map fun (i : ℕ) => (i : ℝ) / ((p.nPts : ℝ) - 1)
      Te := T }, .ok ())

/-! ## Collisions -/

/-- `addCollision`, `PlasmaPhase.cpp:345-373`; `rdy` is `m_interp_cs_ready`, a list that is only ever
appended to. -/
structure Coll where
  rates : List Rate
  targets : List ℕ
  rdy : List Bool

def addCollision (c : Coll) (r : Rate) (t : ℕ) : Coll :=
  ⟨c.rates ++ [r], c.targets ++ [t], c.rdy ++ [false]⟩

/-- `setCollisions`, `PlasmaPhase.cpp:313-333`. -/
def setCollisions (c : Coll) (l : List (Rate × ℕ)) : Coll :=
  l.foldl (fun c x => addCollision c x.1 x.2) ⟨[], [], c.rdy⟩

/-- `PlasmaPhase::updateInterpolatedCrossSection`, `PlasmaPhase.cpp:375-385`: the rate, the flag and
the returned value. -/
noncomputable def updateInterp (p : P) (i : ℕ) : P × Bool :=
  if p.ready i then (p, false)
  else ({ p with
    rates := Function.update p.rates i (interpolate (p.rates i) p.levels)
    ready := Function.update p.ready i true }, true)

/-- Value of a quadrature that succeeds. -/
def val : Outcome ℝ → ℝ
  | .ok v => v
  | _ => 0

/-- `updateElasticElectronEnergyLossCoefficient`, `PlasmaPhase.cpp:444-465`, `M` the molecular weight
of the target. -/
noncomputable def elasticCoef (p : P) (T M : ℝ) (i : ℕ) : ℝ :=
  2 * (me / M * NA) * Real.sqrt (2 * qe / me) * val (numericalQuadrature p.quad
    (List.zipWith (fun f c => 1 / 3 * (f * c))
      (List.zipWith (fun f d => f + kB * T / qe * d) p.dist p.diff) (p.rates i).interp)
    (p.levels.map (· ^ 3)))

/-- First loop of `updateElasticElectronEnergyLossCoefficients`, `PlasmaPhase.cpp:422-425`. -/
noncomputable def interpAll (p : P) : P :=
  { p with
    rates := fun i => if i < p.nColl ∧ p.ready i = false then interpolate (p.rates i) p.levels
      else p.rates i
    ready := fun i => if i < p.nColl then true else p.ready i }

open Classical in
/-- `updateElasticElectronEnergyLossCoefficients`, `PlasmaPhase.cpp:413-442`. -/
noncomputable def updateElastic (p : P) (T : ℝ) (M : ℕ → ℝ) : P :=
  let q := interpAll p
  let hit := p.cache = some (T, p.distNum + p.levelNum)
  { q with
    cache := some (T, p.distNum + p.levelNum)
    coef := fun i => if i < p.nColl ∧ (¬ hit ∨ p.ready i = false) then elasticCoef q T (M i) i
      else p.coef i }

/-- `elasticPowerLoss`, `PlasmaPhase.cpp:467-480`, with the concentrations of the targets and of the
electrons. -/
noncomputable def powerLoss (p : P) (T : ℝ) (M c : ℕ → ℝ) (ce : ℝ) : ℝ :=
  let q := updateElastic p T M
  NA * NA * qe * ce * ∑ i ∈ Finset.range p.nColl, c i * q.coef i

/-! ## The rate coefficient -/

/-- `ElectronCollisionPlasmaData`, `ElectronCollisionPlasmaRate.h:22-48`. -/
structure Data where
  energyLevels : List ℝ
  distribution : List ℝ
  levelChanged : Bool
  distNo : ℤ
  levelNo : ℤ

/-- `invalidateCache`, `ElectronCollisionPlasmaRate.h:29-35`. -/
def Data.invalidate (d : Data) : Data := ⟨[], [], d.levelChanged, -1, -1⟩

/-- `ElectronCollisionPlasmaData::update`, `ElectronCollisionPlasmaRate.cpp:20-47`. -/
def Data.update (d : Data) (p : P) : Data × Bool :=
  if p.distNum = d.distNo then (d, false)
  else if p.levelNum ≠ d.levelNo then
    (⟨p.levels, p.dist, true, p.distNum, p.levelNum⟩, true)
  else (⟨d.energyLevels, p.dist, false, p.distNum, d.levelNo⟩, true)

/-- `evalFromStruct`, `ElectronCollisionPlasmaRate.cpp:83-110`: arrays of different length in an
element-wise product are undefined behaviour. -/
noncomputable def Rate.eval (r : Rate) (d : Data) : Rate × Outcome ℝ :=
  let r' := if d.levelChanged then interpolate r d.energyLevels else r
  (r', if d.distribution.length ≠ r'.interp.length then .ub
    else (simpson (List.zipWith (· * ·) d.distribution r'.interp)
        (d.energyLevels.map (· ^ 2))).bind fun v =>
      .ok (0.5 * (2 * qe / me) ^ (0.5 : ℝ) * NA * v))

/-- `setParameters`, `ElectronCollisionPlasmaRate.cpp:49-65`. -/
def Rate.setParameters (r : Rate) (e c : Option (List ℝ)) : Rate × Outcome Unit :=
  if e = none ∧ c = none then (r, .ok ())
  else
    let r' : Rate := { r with energies := e.getD r.energies, cs := c.getD r.cs }
    (r', if r'.energies.length ≠ r'.cs.length then .throw else .ok ())

/-- `setContext`, `ElectronCollisionPlasmaRate.cpp:112-143`; `reactants` in the order of the map,
`electron` = none if the phase is no plasma. -/
def setContext (reversible : Bool) (reactants : List (String × ℝ)) (electron : Option String)
    [DecidablePred fun x : ℝ => x = 1] : Outcome Unit :=
  if reversible then .throw
  else match electron with
    | none => .throw
    | some e =>
      if reactants.length ≠ 2 then .throw
      else match reactants.lookup e with
        | none => .throw
        | some n => if n = 1 then .ok () else .throw

/-- The target chosen by `addCollision`, `PlasmaPhase.cpp:358-364`: the first reactant that is not the
electron. -/
def target (reactants : List (String × ℝ)) (e : String) : Option String :=
  (reactants.find? fun x => x.1 ≠ e).map (·.1)

/-! ## Electron species -/

/-- The part of a phase used by `addSpecies`: species compositions and the electron index. -/
structure Sp where
  comps : List (List (String × ℝ))
  electron : Option ℕ

/-- `addSpecies`, `PlasmaPhase.cpp:273-290`; `added` is the result of the base class (false when the
species contains an unknown element and such species are ignored).  `m_kk - 1` wraps to `npos`. -/
noncomputable def addSpecies (s : Sp) (c : List (String × ℝ)) (added : Bool) : Sp × Outcome Bool :=
  let s1 : Sp := if added then { s with comps := s.comps ++ [c] } else s
  let k : Option ℕ := if s1.comps.length = 0 then none else some (s1.comps.length - 1)
  if c = [("E", 1)] then
    if s1.electron = none then ({ s1 with electron := k }, .ok added) else (s1, .throw)
  else (s1, .ok added)

/-! ## Thermodynamic functions with two temperatures -/

/-- State used by the thermodynamic functions: temperature, electron temperature, pressure, reference
pressure, mole fractions, electron index, and the reference functions of the species. -/
structure Th where
  n : ℕ
  T : ℝ
  Te : ℝ
  p : ℝ
  pref : ℝ
  X : ℕ → ℝ
  e : ℕ
  h : ℕ → ℝ → ℝ
  s : ℕ → ℝ → ℝ

/-- `m_h0_RT` and `m_s0_R` after `updateThermo`, `PlasmaPhase.cpp:482-500`. -/
noncomputable def hRT (t : Th) (k : ℕ) : ℝ := t.h k (if k = t.e then t.Te else t.T)
noncomputable def sR (t : Th) (k : ℕ) : ℝ := t.s k (if k = t.e then t.Te else t.T)
/-- `m_g0_RT`. -/
noncomputable def gRT (t : Th) (k : ℕ) : ℝ := hRT t k - sR t k

/-- `IdealGasPhase::enthalpy_mole`, `IdealGasPhase.h:294-296`, and the correction in
`PlasmaPhase.cpp:502-508`. -/
noncomputable def enthalpyMole (t : Th) : ℝ :=
  Rgas * t.T * (∑ k ∈ Finset.range t.n, t.X k * hRT t k)
    + Rgas * (t.Te - t.T) * t.X t.e * hRT t t.e

/-- `electronPressure`, `PlasmaPhase.h`, with `concentration(k) = X_k p/(RT)`. -/
noncomputable def pe (t : Th) : ℝ := Rgas * (t.X t.e * (t.p / (Rgas * t.T))) * t.Te

/-- `getGibbs_ref`, `PlasmaPhase.cpp:510-514`. -/
noncomputable def gibbsRef (t : Th) (k : ℕ) : ℝ :=
  Rgas * t.T * gRT t k * (if k = t.e then t.Te / t.T else 1)

/-- `getStandardVolumes_ref`, `PlasmaPhase.cpp:516-520`. -/
noncomputable def volRef (t : Th) (k : ℕ) : ℝ :=
  Rgas * t.T / t.pref * (if k = t.e then t.Te / t.T else 1)

/-- `getPartialMolarEnthalpies`, `PlasmaPhase.cpp:522-526`. -/
noncomputable def hbar (t : Th) (k : ℕ) : ℝ :=
  Rgas * t.T * hRT t k * (if k = t.e then t.Te / t.T else 1)

/-- `getPartialMolarEntropies`, `PlasmaPhase.cpp:528-534` with `IdealGasPhase.cpp:84-93`. -/
noncomputable def sbar (t : Th) (k : ℕ) : ℝ :=
  Rgas * sR t k + Rgas * (-Real.log (t.p / t.pref) - Real.log (max 1e-300 (t.X k)))
    + (if k = t.e then Rgas * (Real.log t.p - Real.log (pe t)) else 0)

/-- `getPartialMolarIntEnergies`, `PlasmaPhase.cpp:536-544`. -/
noncomputable def ubar (t : Th) (k : ℕ) : ℝ :=
  if k = t.e then Rgas * t.Te * (hRT t k - 1) else Rgas * t.T * (hRT t k - 1)

/-- `getStandardChemPotentials`, `PlasmaPhase.cpp:554-560` with `IdealGasPhase.cpp:58-65` (whose
`getGibbs_ref` is the virtual one). -/
noncomputable def muStar (t : Th) (k : ℕ) : ℝ :=
  gibbsRef t k + Real.log (t.p / t.pref) * (Rgas * t.T)
    + (if k = t.e then -(Real.log (t.p / t.pref) * (Rgas * t.T))
        + Real.log (pe t / t.pref) * (Rgas * t.Te) else 0)

/-- `getChemPotentials`, `PlasmaPhase.cpp:546-552` with `IdealGasPhase.cpp:69-76`. -/
noncomputable def mu (t : Th) (k : ℕ) : ℝ :=
  muStar t k + Rgas * t.T * Real.log (max 1e-300 (t.X k))
    + (if k = t.e then (Rgas * t.Te - Rgas * t.T) * Real.log (max 1e-300 (t.X k)) else 0)

/-- `getEntropy_R`, `PlasmaPhase.cpp:562-574`. -/
noncomputable def entropyR (t : Th) (k : ℕ) : ℝ :=
  sR t k - (if k ≠ t.e then Real.log (t.p / t.pref) else Real.log (pe t / t.pref))

/-- `getGibbs_RT`, `PlasmaPhase.cpp:576-588`. -/
noncomputable def gibbsRT (t : Th) (k : ℕ) : ℝ :=
  gRT t k + (if k ≠ t.e then Real.log (t.p / t.pref) else Real.log (pe t / t.pref))

/-- Caches of `IdealGasPhase::updateThermo` and `PlasmaPhase::updateThermo`: temperature of the base
cache, (T, Te) of the second, and the temperature at which the stored values of each species were
evaluated. -/
structure Caches where
  base : Option ℝ
  own : Option (ℝ × ℝ)
  at_ : ℕ → ℝ

open Classical in
/-- `updateThermo`, `IdealGasPhase.cpp:267-284` and `PlasmaPhase.cpp:482-500`. -/
noncomputable def updateThermo (c : Caches) (T Te : ℝ) (e : ℕ) : Caches :=
  let at1 := if c.base = some T then c.at_ else fun _ => T
  { base := some T
    own := if c.own = some (T, Te) then c.own else some (T, Te)
    at_ := if c.own = some (T, Te) then at1 else Function.update at1 e Te }

end Verif.Plasma
