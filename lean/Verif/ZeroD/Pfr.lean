import Verif.Basic
import Mathlib.Analysis.Real.Sqrt
import Mathlib.Analysis.Real.Pi.Bounds
import Mathlib.Algebra.BigOperators.Group.Finset.Basic

/-!
# Plug flow reactor

Model of `src/zeroD/FlowReactor.cpp`, of `Reactor::evalSurfaces` (`src/zeroD/Reactor.cpp:370-397`) and of
`ReactorNet::evalDae`.  The gas is ideal (`IdealGasReactor` accepts no other): its density, mean molecular
weight and heat capacity are written out, production rates and enthalpies are given functions of the state.
State and derivative vectors are functions of the index; the integrator is not modelled.
-/

namespace Verif.Pfr

open Verif

/-- `GasConstant`, `include/cantera/base/ct_defs.h`. -/
noncomputable def Rg : ℝ := 8314.46261815324

/-- The gas: number of species, molecular weights, partial molar enthalpies and heat capacities at a
temperature, net production rates at temperature, pressure and mass fractions. -/
structure Gas where
  nsp : ℕ
  mw : ℕ → ℝ
  h : ℕ → ℝ → ℝ
  cp : ℕ → ℝ → ℝ
  wdot : ℝ → ℝ → (ℕ → ℝ) → ℕ → ℝ

namespace Gas
/-- `meanMolecularWeight` after `setMassFractions_NoNorm`. -/
noncomputable def mmw (g : Gas) (Y : ℕ → ℝ) : ℝ := (∑ i ∈ Finset.range g.nsp, Y i / g.mw i)⁻¹
/-- `density` after `setState_TP` of an ideal gas. -/
noncomputable def density (g : Gas) (T P : ℝ) (Y : ℕ → ℝ) : ℝ := P * g.mmw Y / (Rg * T)
/-- `cp_mass`: the molar heat capacity over the mean molecular weight. -/
noncomputable def cpMass (g : Gas) (T : ℝ) (Y : ℕ → ℝ) : ℝ := ∑ i ∈ Finset.range g.nsp, Y i / g.mw i * g.cp i T
end Gas

/-- A surface: number of species, area, kinetics object, site density, sites occupied by each species,
index of the first gas species in the kinetics object, coverages `m_cov`. -/
structure Surf where
  nk : ℕ
  area : ℝ
  kin : ℕ
  site : ℝ
  size : ℕ → ℝ
  bulk : ℕ
  cov : ℕ → ℝ

/-- Rates of the kinetics objects at the coverages of their surface phase, for the present state of the gas. -/
abbrev Rates := ℕ → (ℕ → ℝ) → ℕ → ℝ

/-- Members of the reactor. -/
structure R where
  rho : ℝ
  u : ℝ
  P : ℝ
  T : ℝ
  Y : ℕ → ℝ
  area : ℝ
  saToVol : ℝ
  energy : Bool
  chem : Bool
  wdot : ℕ → ℝ
  surfs : List Surf

/-! ## Surfaces -/

/-- The entries written to `RHS`, `Reactor.cpp:384-389`: the first species takes the rest. -/
noncomputable def surfRhs (K : Rates) : List Surf → ℕ → (ℕ → ℝ) → ℕ → ℝ
  | [], _, v => v
  | S :: l, loc, v => surfRhs K l (loc + S.nk) fun j =>
      if j = loc then 0 - ∑ k ∈ Finset.Ico 1 S.nk, K S.kin S.cov k * (1 / S.site) * S.size k
      else if loc < j ∧ j < loc + S.nk then K S.kin S.cov (j - loc) * (1 / S.site) * S.size (j - loc)
      else v j

/-- The production of gas species, `Reactor.cpp:391-395`: each surface counts with its area. -/
noncomputable def sdot (K : Rates) (l : List Surf) (k : ℕ) : ℝ :=
  (l.map fun S => K S.kin S.cov (S.bulk + k) * S.area).sum

/-- Coverages in the surface phases after every surface has been synchronised in turn. -/
def phaseCov (l : List Surf) (c : ℕ → ℕ → ℝ) : ℕ → ℕ → ℝ :=
  l.foldl (fun c S => Function.update c S.kin S.cov) c

/-- `surfaceAreaToVolumeRatio`, `FlowReactor.cpp:222-231`. -/
noncomputable def ratio (r : R) : ℝ :=
  if 0 < r.saToVol then r.saToVol else 2 / Real.sqrt (r.area / Real.pi)

/-! ## Initial state and derivatives -/

/-- The vector `y` of `getStateDae`, lines 26-44 and 64 (`Reactor.cpp:76-83`). -/
def covVec : List Surf → ℕ → ℝ
  | [], _ => 0
  | S :: l, j => if j < S.nk then S.cov j else covVec l (j - S.nk)

def stateVec (g : Gas) (r : R) (j : ℕ) : ℝ :=
  if j = 0 then r.rho else if j = 1 then r.u else if j = 2 then r.P else if j = 3 then r.T
  else if j < 4 + g.nsp then r.Y (j - 4) else covVec r.surfs (j - 4 - g.nsp)

/-- The matrix, `FlowReactor.cpp:80-106`. -/
noncomputable def A (g : Gas) (r : R) (i j : ℕ) : ℝ :=
  if i = 0 then
    (if j = 0 then -Rg * r.T / g.mmw r.Y else if j = 2 then 1 else if j = 3 then -r.rho * Rg / g.mmw r.Y
     else if 4 ≤ j ∧ j < 4 + g.nsp then -r.rho * r.T / g.mw (j - 4) else 0)
  else if i = 1 then (if j = 0 then r.u else if j = 1 then r.rho else 0)
  else if i = 2 then (if j = 1 then r.rho * r.u else if j = 2 then 1 else 0)
  else if i = 3 then (if j = 3 then r.rho * r.u * g.cpMass r.T r.Y else 0)
  else (if j = i then r.rho * r.u else 0)

/-- `h_sk_wk`, lines 111-115. -/
noncomputable def hskwk (g : Gas) (r : R) (s : ℕ → ℝ) : ℝ :=
  ∑ i ∈ Finset.range g.nsp, ratio r * s i * g.mw i

/-- The right hand side, lines 117-149. -/
noncomputable def B (g : Gas) (r : R) (w s : ℕ → ℝ) (j : ℕ) : ℝ :=
  if j = 0 then 0 else if j = 1 then hskwk g r s else if j = 2 then -r.u * hskwk g r s
  else if j = 3 then
    (if r.energy then 0 - ∑ i ∈ Finset.range g.nsp, g.h i r.T * (w i + ratio r * s i) else 0)
  else -r.Y (j - 4) * hskwk g r s + g.mw (j - 4) * (w (j - 4) + ratio r * s (j - 4))

/-- The production rates in `m_wdot`: lines 46-48 and 258-260 renew them only with chemistry on. -/
def wdotNow (g : Gas) (r : R) : ℕ → ℝ := if r.chem then g.wdot r.T r.P r.Y else r.wdot

/-- `getStateDae`: `adv` stands for `advanceCoverages` and `K` for the rates of the surface kinetics; the
linear system has to have a solution, otherwise `solve` throws.  Result: vector `y` and reactor. -/
noncomputable def getState (g : Gas) (adv : Surf → ℕ → ℝ) (r : R) : R × Option (ℕ → ℝ) :=
  if r.u < 0 then (r, none)
  else
    let r' : R := { r with
      wdot := wdotNow g r
      surfs := r.surfs.map fun S => { S with cov := adv S } }
    (r', some (stateVec g r'))

/-- Solutions of the linear system of line 152. -/
def Solves (g : Gas) (r : R) (w s X : ℕ → ℝ) : Prop :=
  ∀ i < 4 + g.nsp, ∑ j ∈ Finset.range (4 + g.nsp), A g r i j * X j = B g r w s i

/-! ## Residual -/

/-- Coverages taken from the state vector, `updateSurfaceState`, lines 233-244. -/
def setCovs : List Surf → (ℕ → ℝ) → List Surf
  | [], _ => []
  | S :: l, y => { S with cov := y } :: setCovs l fun j => y (S.nk + j)

/-- `updateState`, lines 193-208. -/
def update (g : Gas) (r : R) (y : ℕ → ℝ) : R :=
  { r with
    rho := y 0
    u := y 1
    P := y 2
    T := y 3
    Y := fun i => y (4 + i)
    surfs := setCovs r.surfs fun j => y (4 + g.nsp + j) }

/-- The loop of lines 252-255: `sk_wk` is assigned, not incremented. -/
noncomputable def skwk (g : Gas) (s : ℕ → ℝ) : ℝ :=
  (List.range g.nsp).foldl (fun _ i => s i * g.mw i) 0

/-- The algebraic equations of the surfaces, lines 307-330: the rates are those of the kinetics object in its
present state `c`, no surface is synchronised here. -/
noncomputable def surfRes (K : Rates) (c : ℕ → ℕ → ℝ) (y : ℕ → ℝ) : List Surf → ℕ → (ℕ → ℝ) → ℕ → ℝ
  | [], _, v => v
  | S :: l, loc, v => surfRes K c y l (loc + S.nk) fun j =>
      if j = loc then (y loc + ∑ i ∈ Finset.Ico 1 S.nk, y (loc + i)) - 1
      else if loc < j ∧ j < loc + S.nk then K S.kin (c S.kin) (j - loc)
      else v j

/-- `evalDae`, lines 246-331, with `r` updated from `y`: derivative vector as left by the call, and residual. -/
noncomputable def evalDae (g : Gas) (K : Rates) (c : ℕ → ℕ → ℝ) (r : R) (y yd res : ℕ → ℝ) :
    (ℕ → ℝ) × (ℕ → ℝ) :=
  let yd' := fun j => if j < 4 + g.nsp then yd j
    else surfRhs K r.surfs 0 (fun i => yd (4 + g.nsp + i)) (j - (4 + g.nsp))
  let s := sdot K r.surfs
  let w := wdotNow g r
  let q := skwk g s
  let a := ratio r
  let gas := fun j =>
    if j = 0 then r.rho - g.density r.T r.P r.Y
    else if j = 1 then r.u * yd' 0 + r.rho * yd' 1 - q * a
    else if j = 2 then r.rho * r.u * yd' 1 + r.u * a * q + yd' 2
    else if j = 3 then
      (if r.energy then r.rho * r.u * g.cpMass r.T r.Y * yd' 3 +
          ∑ i ∈ Finset.range g.nsp, g.h i r.T * (w i + a * s i)
       else yd' 3)
    else if j < 4 + g.nsp then
      r.rho * r.u * yd' j + y j * a * q - g.mw (j - 4) * (w (j - 4) + a * s (j - 4))
    else res j
  (yd', surfRes K (phaseCov r.surfs c) y r.surfs (4 + g.nsp) gas)

/-- `ReactorNet::evalDae`, `ReactorNet.cpp:384-388`: every reactor gets the whole vectors. -/
def netEval {α : Type} (f : α → (ℕ → ℝ) → (ℕ → ℝ) → (ℕ → ℝ) → (ℕ → ℝ) × (ℕ → ℝ)) (l : List α)
    (y yd res : ℕ → ℝ) : (ℕ → ℝ) × (ℕ → ℝ) :=
  l.foldl (fun v a => f a y v.1 v.2) (yd, res)

/-- `getConstraints`, lines 333-338: one marks a differential equation. -/
def constraint (g : Gas) (j : ℕ) : ℝ := if j < 4 + g.nsp then 1 else 0

/-! ## Flow rate and area -/

/-- `setMassFlowRate`, lines 210-214; `d` is the density of the gas object. -/
noncomputable def setFlow (r : R) (d mdot : ℝ) : R := { r with
  rho := d
  u := mdot / (d * r.area) }

/-- `setArea`, lines 216-220. -/
noncomputable def setArea (r : R) (d area : ℝ) : R := setFlow { r with area := area } d (r.rho * r.u * r.area)

/-- `initialize` and `syncState`, lines 155-163 and 185-191: the members follow the gas object, the speed stays. -/
noncomputable def sync (g : Gas) (r : R) (T P : ℝ) (Y : ℕ → ℝ) : R := { r with
  rho := g.density T P Y
  P := P
  T := T
  Y := Y }

/-! ## Names -/

/-- `componentIndex`, lines 340-356, with `Reactor::speciesIndex` over all names (gas, then surfaces). -/
def componentIndex (names : List String) (nm : String) : Option ℕ :=
  match names.findIdx? (· = nm) with
  | some k => some (k + 4)
  | none =>
    if nm = "density" then some 0 else if nm = "speed" then some 1 else if nm = "pressure" then some 2
    else if nm = "temperature" then some 3 else none

/-- `componentName`, lines 358-385. -/
def componentName (names : List String) (k : ℕ) : Outcome String :=
  if k = 0 then .ok "density" else if k = 1 then .ok "speed" else if k = 2 then .ok "pressure"
  else if k = 3 then .ok "temperature"
  else match names[k - 4]? with
    | some s => .ok s
    | none => .throw

end Verif.Pfr
