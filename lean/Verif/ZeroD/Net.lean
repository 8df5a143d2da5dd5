import Mathlib.Data.Real.Basic
import Mathlib.Algebra.BigOperators.Group.Finset.Basic
import Mathlib.Tactic.Ring
import Mathlib.Tactic.Linarith

/-!
# Governing equations of zero-dimensional reactors

Model of `eval`, `evalWalls` and `evalSurfaces` of the lumped reactor types in `/repo/src/zeroD`,
of `FlowDevice::outletSpeciesMassFlowRate` and of the rates of `Wall`.

Simplifications, for the whole file:

* doubles are reals;
* every entry of the `RHS` vector is a field of its own (`dm`, `dV`, `dE`, `dY k`, `surf i`); the
  offsets at which the reactor types store them are not modelled. `ReactorNet::eval` sets `RHS`
  to zero before the reactors are evaluated (ReactorNet.cpp:361-362), which is the initial value
  of the fields that the code only adds to;
* thermodynamic properties, production rates and coverages of the current state are arbitrary
  real inputs; `m_pressure` and `m_thermo->pressure()` are one field, since
  `updateConnected(true)` (Reactor.cpp:185-190) makes them equal;
* reactors and reservoirs are numbered; a flow device (wall) holds the numbers of the two nodes
  passed to its constructor (FlowDevice.cpp:14-26, Wall.cpp:13-26), so that the inlets of a
  reactor are the devices whose downstream node it is, in order of construction.
-/

namespace Verif.ZeroD

/-- A reacting surface of a reactor: number of surface species, site density, area, sites occupied
by a molecule of each species, net production rates of its kinetics (surface species first,
ReactorSurface.cpp:45), position of the gas species in them. -/
structure Surf where
  nk : ℕ
  site : ℝ
  area : ℝ
  size : ℕ → ℝ
  work : ℕ → ℝ
  bulk : ℕ

/-- The eight lumped reactor types of `ReactorFactory.cpp`; `FlowReactor` is not modelled. -/
inductive Kind where
  | reactor | constP | ideal | idealConstP | mole | constPMole | idealMole | idealConstPMole
  deriving DecidableEq

/-- Types whose state holds the mass and mass fractions (the others hold moles). -/
def Kind.massBased : Kind → Bool
  | .reactor | .constP | .ideal | .idealConstP => true
  | _ => false

/-- Types with a volume equation and an internal energy balance (the others are at constant
pressure and have an enthalpy balance). -/
def Kind.constV : Kind → Bool
  | .reactor | .ideal | .mole | .idealMole => true
  | _ => false

/-- Types whose energy equation is written for the temperature. -/
def Kind.thermal : Kind → Bool
  | .ideal | .idealConstP | .idealMole | .idealConstPMole => true
  | _ => false

/-- A reactor or reservoir. `wdot` is the stored `m_wdot`, `rates` what
`m_kin->getNetProductionRates` returns; `uk`, `hk` are partial molar internal energies and
enthalpies, `cv`, `cp` specific heats per mass. -/
structure Node where
  kind : Kind
  names : List String
  mw : ℕ → ℝ
  Y : ℕ → ℝ
  h : ℝ
  p : ℝ
  T : ℝ
  vol : ℝ
  mass : ℝ
  energy : Bool
  chem : Bool
  wdot : ℕ → ℝ
  rates : ℕ → ℝ
  uk : ℕ → ℝ
  hk : ℕ → ℝ
  cv : ℝ
  cp : ℝ
  surfs : List Surf

/-- Number of species. -/
def Node.nsp (r : Node) : ℕ := r.names.length

/-- A flow device with its current mass flow rate. -/
structure Device where
  src : ℕ
  dst : ℕ
  mdot : ℝ

/-- A wall; `vf` and `qf` are the values of the velocity and heat flux functions at the current
time, if set. -/
structure Wall where
  left : ℕ
  right : ℕ
  k : ℝ
  area : ℝ
  vf : Option ℝ
  rrth : ℝ
  emiss : ℝ
  qf : Option ℝ

/-- A network: nodes, flow devices and walls. -/
structure Net where
  node : ℕ → Node
  devices : List Device
  walls : List Wall

/-- `Phase::speciesIndex` for case-sensitive names. -/
def speciesIndex (names : List String) (nm : String) : Option ℕ :=
  names.findIdx? (fun x => x == nm)

/-- `FlowDevice::outletSpeciesMassFlowRate` (FlowDevice.cpp:109-119) with the table `m_out2in` of
the constructor (FlowDevice.cpp:41-45): `k` counts species of the downstream node. -/
def specRate (N : Net) (d : Device) (k : ℕ) : ℝ :=
  match (N.node d.dst).names[k]? with
  | none => 0
  | some nm =>
    match speciesIndex (N.node d.src).names nm with
    | none => 0
    | some ki => d.mdot * (N.node d.src).Y ki

/-- Inlets and outlets of a node (ReactorBase.cpp:100-108, FlowDevice.cpp:25-26). -/
def inlets (N : Net) (r : ℕ) : List Device := N.devices.filter (fun d => d.dst == r)
def outlets (N : Net) (r : ℕ) : List Device := N.devices.filter (fun d => d.src == r)

/-- `StefanBoltz` (ct_defs.h:128); only its sign matters. -/
noncomputable def stefanBoltz : ℝ := 5670374419 / 10 ^ 17

/-- `Wall::expansionRate` (Wall.cpp:55-67). -/
def expansionRate (N : Net) (w : Wall) : ℝ :=
  let rate := w.k * w.area * ((N.node w.left).p - (N.node w.right).p)
  match w.vf with
  | none => rate
  | some v => rate + w.area * v

open Classical in
/-- `Wall::heatRate` (Wall.cpp:76-94). -/
noncomputable def heatRate (N : Net) (w : Wall) : ℝ :=
  let tl := (N.node w.left).T
  let tr := (N.node w.right).T
  let q1 := (w.area * w.rrth) * (tl - tr)
  let q2 := if w.emiss > 0 then
      q1 + w.emiss * w.area * stefanBoltz * (tl * tl * tl * tl - tr * tr * tr * tr)
    else q1
  match w.qf with
  | none => q2
  | some q => q2 + w.area * q

/-- The walls of a node with their side `m_lr` (Wall.cpp:22-25, ReactorBase.cpp:110-118): a wall
with the node on both sides is registered twice. -/
def sides (N : Net) (r : ℕ) : List (Wall × ℕ) :=
  N.walls.flatMap fun w =>
    (if w.left = r then [(w, 0)] else []) ++ (if w.right = r then [(w, 1)] else [])

/-- `Reactor::evalWalls` (Reactor.cpp:276-286): `m_vdot` and `m_Qdot`. -/
noncomputable def evalWalls (N : Net) (r : ℕ) : ℝ × ℝ :=
  (sides N r).foldl (fun a s =>
    let f : ℝ := 2 * (s.2 : ℝ) - 1
    (a.1 - f * expansionRate N s.1, a.2 + f * heatRate N s.1)) (0, 0)

/-- State of the loops over surfaces: `loc`, the surface part of `RHS`, `sdot`. -/
structure SurfAcc where
  loc : ℕ
  rhs : ℕ → ℝ
  sdot : ℕ → ℝ

/-- Body of the loop in `Reactor::evalSurfaces` (Reactor.cpp:293-314). The entry `RHS[loc]` is
written last, from the entries written before. -/
noncomputable def massSurfStep (nsp : ℕ) (a : SurfAcc) (s : Surf) : SurfAcc :=
  let rs0 := 1 / s.site
  let rhs1 : ℕ → ℝ := fun i =>
    if a.loc < i ∧ i < a.loc + s.nk then s.work (i - a.loc) * rs0 * s.size (i - a.loc) else a.rhs i
  let sum := (List.range s.nk).foldl
    (fun acc k => if k = 0 then acc else acc - rhs1 (a.loc + k)) 0
  { loc := a.loc + s.nk
    rhs := fun i => if i = a.loc then sum else rhs1 i
    sdot := fun k => if k < nsp then a.sdot k + s.work (s.bulk + k) * s.area else a.sdot k }

/-- Body of the loop in `MoleReactor::evalSurfaces` (MoleReactor.cpp:65-82). -/
noncomputable def moleSurfStep (nsp : ℕ) (a : SurfAcc) (s : Surf) : SurfAcc :=
  { loc := a.loc + s.nk
    rhs := fun i =>
      if a.loc ≤ i ∧ i < a.loc + s.nk then s.work (i - a.loc) * s.area / s.size (i - a.loc)
      else a.rhs i
    sdot := fun k => if k < nsp then a.sdot k + s.work (s.bulk + k) * s.area else a.sdot k }

/-- `Reactor::evalSurfaces` (Reactor.cpp:288-315). -/
noncomputable def massSurfaces (r : Node) : SurfAcc :=
  r.surfs.foldl (massSurfStep r.nsp) ⟨0, fun _ => 0, fun _ => 0⟩

/-- `MoleReactor::evalSurfaces` (MoleReactor.cpp:61-83). -/
noncomputable def moleSurfaces (r : Node) : SurfAcc :=
  r.surfs.foldl (moleSurfStep r.nsp) ⟨0, fun _ => 0, fun _ => 0⟩

/-- Results of `eval`: right-hand sides of the mass, volume, energy (or temperature), species
(mass fractions or moles) and surface equations, left-hand sides of the species and energy
equations, and the new `m_wdot`. Types without a mass or volume equation leave the field 0. -/
structure Rates where
  dm : ℝ
  dV : ℝ
  dE : ℝ
  dY : ℕ → ℝ
  lY : ℝ
  lE : ℝ
  surf : ℕ → ℝ
  wdot : ℕ → ℝ

/-- `if (m_chem) m_kin->getNetProductionRates(&m_wdot[0])` (Reactor.cpp:230-232). -/
def newWdot (r : Node) : ℕ → ℝ := if r.chem then r.rates else r.wdot

open Finset in
/-- `Reactor::eval` (Reactor.cpp:212-274). -/
noncomputable def evalReactor (N : Net) (i : ℕ) : Rates :=
  let r := N.node i
  let w := evalWalls N i
  let s := massSurfaces r
  let mdotSurf := ∑ k ∈ range r.nsp, s.sdot k * r.mw k
  let wdot := newWdot r
  let a0 : Rates :=
    { dm := mdotSurf
      dV := w.1
      dE := if r.energy then -r.p * w.1 + w.2 else 0
      dY := fun k => (wdot k * r.vol + s.sdot k) * r.mw k - r.Y k * mdotSurf
      lY := r.mass
      lE := 1
      surf := s.rhs
      wdot := wdot }
  let a1 := (outlets N i).foldl (fun (a : Rates) d =>
    { a with
      dm := a.dm - d.mdot
      dE := if r.energy then a.dE - d.mdot * r.h else a.dE }) a0
  (inlets N i).foldl (fun (a : Rates) d =>
    { a with
      dm := a.dm + d.mdot
      dY := fun n => a.dY n + (specRate N d n - d.mdot * r.Y n)
      dE := if r.energy then a.dE + d.mdot * (N.node d.src).h else a.dE }) a1

open Finset in
/-- `ConstPressureReactor::eval` (ConstPressureReactor.cpp:62-119). -/
noncomputable def evalConstP (N : Net) (i : ℕ) : Rates :=
  let r := N.node i
  let w := evalWalls N i
  let s := massSurfaces r
  let mdotSurf := ∑ k ∈ range r.nsp, s.sdot k * r.mw k
  let wdot := newWdot r
  let a0 : Rates :=
    { dm := 0 + mdotSurf
      dV := 0
      dE := w.2
      dY := fun k => (wdot k * r.vol + s.sdot k) * r.mw k - r.Y k * mdotSurf
      lY := r.mass
      lE := 1
      surf := s.rhs
      wdot := wdot }
  let a1 := (outlets N i).foldl (fun (a : Rates) d =>
    { a with
      dm := a.dm - d.mdot
      dE := a.dE - d.mdot * r.h }) a0
  let a2 := (inlets N i).foldl (fun (a : Rates) d =>
    { a with
      dm := a.dm + d.mdot
      dY := fun n => a.dY n + (specRate N d n - d.mdot * r.Y n)
      dE := a.dE + d.mdot * (N.node d.src).h }) a1
  { a2 with dE := if r.energy then a2.dE else 0 }

open Finset in
/-- `IdealGasReactor::eval` (IdealGasReactor.cpp:72-136). -/
noncomputable def evalIdeal (N : Net) (i : ℕ) : Rates :=
  let r := N.node i
  let w := evalWalls N i
  let s := massSurfaces r
  let mdotSurf := ∑ k ∈ range r.nsp, s.sdot k * r.mw k
  let wdot := newWdot r
  let a0 : Rates :=
    { dm := 0 + mdotSurf
      dV := w.1
      dE := 0 + (-r.p * w.1 + w.2)
        - ∑ n ∈ range r.nsp, (wdot n * r.uk n * r.vol + s.sdot n * r.uk n)
      dY := fun k => (wdot k * r.vol + s.sdot k) * r.mw k - r.Y k * mdotSurf
      lY := r.mass
      lE := 1
      surf := s.rhs
      wdot := wdot }
  let a1 := (outlets N i).foldl (fun (a : Rates) d =>
    { a with
      dm := a.dm - d.mdot
      dE := a.dE - d.mdot * r.p * r.vol / r.mass }) a0
  let a2 := (inlets N i).foldl (fun (a : Rates) d =>
    { a with
      dm := a.dm + d.mdot
      dY := fun n => a.dY n + (specRate N d n - d.mdot * r.Y n)
      dE := a.dE + (N.node d.src).h * d.mdot
        - ∑ n ∈ range r.nsp, r.uk n / r.mw n * specRate N d n }) a1
  { a2 with
    dE := if r.energy then a2.dE else 0
    lE := if r.energy then r.mass * r.cv else 1 }

open Finset in
/-- `IdealGasConstPressureReactor::eval` (IdealGasConstPressureReactor.cpp:68-131). -/
noncomputable def evalIdealConstP (N : Net) (i : ℕ) : Rates :=
  let r := N.node i
  let w := evalWalls N i
  let s := massSurfaces r
  let mdotSurf := ∑ k ∈ range r.nsp, s.sdot k * r.mw k
  let wdot := newWdot r
  let a0 : Rates :=
    { dm := 0 + mdotSurf
      dV := 0
      dE := 0 + w.2
        - ∑ n ∈ range r.nsp, (wdot n * r.hk n * r.vol + s.sdot n * r.hk n)
      dY := fun k => (wdot k * r.vol + s.sdot k) * r.mw k - r.Y k * mdotSurf
      lY := r.mass
      lE := 1
      surf := s.rhs
      wdot := wdot }
  let a1 := (outlets N i).foldl (fun (a : Rates) d => { a with dm := a.dm - d.mdot }) a0
  let a2 := (inlets N i).foldl (fun (a : Rates) d =>
    { a with
      dm := a.dm + d.mdot
      dY := fun n => a.dY n + (specRate N d n - d.mdot * r.Y n)
      dE := a.dE + (N.node d.src).h * d.mdot
        - ∑ n ∈ range r.nsp, r.hk n / r.mw n * specRate N d n }) a1
  { a2 with
    dE := if r.energy then a2.dE else 0
    lE := if r.energy then r.mass * r.cp else 1 }

/-- `MoleReactor::eval` (MoleReactor.cpp:225-281). `inverseMolecularWeights` is `1 / mw`
(Phase.cpp). -/
noncomputable def evalMole (N : Net) (i : ℕ) : Rates :=
  let r := N.node i
  let w := evalWalls N i
  let s := moleSurfaces r
  let wdot := newWdot r
  let a0 : Rates :=
    { dm := 0
      dV := w.1
      dE := if r.energy then -r.p * w.1 + w.2 else 0
      dY := fun k => wdot k * r.vol + s.sdot k
      lY := 1
      lE := 1
      surf := s.rhs
      wdot := wdot }
  let a1 := (outlets N i).foldl (fun (a : Rates) d =>
    { a with
      dY := fun n => a.dY n - specRate N d n * (1 / r.mw n)
      dE := if r.energy then a.dE - d.mdot * r.h else a.dE }) a0
  (inlets N i).foldl (fun (a : Rates) d =>
    { a with
      dY := fun n => a.dY n + specRate N d n * (1 / r.mw n)
      dE := if r.energy then a.dE + d.mdot * (N.node d.src).h else a.dE }) a1

/-- `ConstPressureMoleReactor::eval` (ConstPressureMoleReactor.cpp:58-108). -/
noncomputable def evalConstPMole (N : Net) (i : ℕ) : Rates :=
  let r := N.node i
  let w := evalWalls N i
  let s := moleSurfaces r
  let wdot := newWdot r
  let a0 : Rates :=
    { dm := 0
      dV := 0
      dE := w.2
      dY := fun k => wdot k * r.vol + s.sdot k
      lY := 1
      lE := 1
      surf := s.rhs
      wdot := wdot }
  let a1 := (outlets N i).foldl (fun (a : Rates) d =>
    { a with
      dY := fun n => a.dY n - specRate N d n * (1 / r.mw n)
      dE := a.dE - d.mdot * r.h }) a0
  let a2 := (inlets N i).foldl (fun (a : Rates) d =>
    { a with
      dY := fun n => a.dY n + specRate N d n * (1 / r.mw n)
      dE := a.dE + (N.node d.src).h * d.mdot }) a1
  { a2 with dE := if r.energy then a2.dE else 0 }

open Finset in
/-- `IdealGasMoleReactor::eval` (IdealGasMoleReactor.cpp:96-154). -/
noncomputable def evalIdealMole (N : Net) (i : ℕ) : Rates :=
  let r := N.node i
  let w := evalWalls N i
  let s := moleSurfaces r
  let wdot := newWdot r
  let a0 : Rates :=
    { dm := 0
      dV := w.1
      dE := 0 + (-r.p * w.1 + w.2)
        - ∑ n ∈ range r.nsp, (wdot n * r.uk n * r.vol + s.sdot n * r.uk n)
      dY := fun k => wdot k * r.vol + s.sdot k
      lY := 1
      lE := 1
      surf := s.rhs
      wdot := wdot }
  let a1 := (outlets N i).foldl (fun (a : Rates) d =>
    { a with
      dY := fun n => a.dY n - specRate N d n * (1 / r.mw n)
      dE := a.dE - d.mdot * r.p * r.vol / r.mass }) a0
  let a2 := (inlets N i).foldl (fun (a : Rates) d =>
    { a with
      dY := fun n => a.dY n + specRate N d n * (1 / r.mw n)
      dE := a.dE + (N.node d.src).h * d.mdot
        - ∑ n ∈ range r.nsp, r.uk n * (1 / r.mw n) * specRate N d n }) a1
  { a2 with
    dE := if r.energy then a2.dE else 0
    lE := if r.energy then r.mass * r.cv else 1 }

open Finset in
/-- `IdealGasConstPressureMoleReactor::eval` (IdealGasConstPressureMoleReactor.cpp:65-120). -/
noncomputable def evalIdealConstPMole (N : Net) (i : ℕ) : Rates :=
  let r := N.node i
  let w := evalWalls N i
  let s := moleSurfaces r
  let wdot := newWdot r
  let a0 : Rates :=
    { dm := 0
      dV := 0
      dE := 0 + w.2
        - ∑ n ∈ range r.nsp, (wdot n * r.hk n * r.vol + s.sdot n * r.hk n)
      dY := fun k => wdot k * r.vol + s.sdot k
      lY := 1
      lE := 1
      surf := s.rhs
      wdot := wdot }
  let a1 := (outlets N i).foldl (fun (a : Rates) d =>
    { a with dY := fun n => a.dY n - specRate N d n * (1 / r.mw n) }) a0
  let a2 := (inlets N i).foldl (fun (a : Rates) d =>
    { a with
      dY := fun n => a.dY n + specRate N d n * (1 / r.mw n)
      dE := a.dE + (N.node d.src).h * d.mdot
        - ∑ n ∈ range r.nsp, r.hk n * (1 / r.mw n) * specRate N d n }) a1
  { a2 with
    dE := if r.energy then a2.dE else 0
    lE := if r.energy then r.mass * r.cp else 1 }

/-- `eval` of a reactor, by type. -/
noncomputable def eval (N : Net) (i : ℕ) : Rates :=
  match (N.node i).kind with
  | .reactor => evalReactor N i
  | .constP => evalConstP N i
  | .ideal => evalIdeal N i
  | .idealConstP => evalIdealConstP N i
  | .mole => evalMole N i
  | .constPMole => evalConstPMole N i
  | .idealMole => evalIdealMole N i
  | .idealConstPMole => evalIdealConstPMole N i

end Verif.ZeroD
