import Verif.Basic
import Mathlib.Data.Real.Basic

/-!
# C71: caching of transport properties

Model of the members of `GasTransport`, `MixTransport` and `MultiTransport` that hold intermediate results and of the flags that
tell which of them are up to date (`/repo/src/transport/GasTransport.cpp`, `MixTransport.cpp`, `MultiTransport.cpp`).  The
formulas are arbitrary functions (they are the subject of C69 and C70); what is modelled is which values they are applied to.

Simplifications: composition, fit coefficients and results are abstract; quantities that are read from the phase at each call
(pressure, mean molecular weight, density, mass fractions) are one abstract value `rest`; `getMassFluxes`, which changes the
state of the phase, is left out; so are failures of the fits and of the linear solvers.
-/

namespace Verif.Transport.Cache

/-- The phase: temperature, mole fractions, other quantities, number of species. -/
structure Env (Comp Rest : Type) where
  T : ℝ
  X : Comp
  rest : Rest
  n : ℕ

/-! ## Mixture-averaged -/

namespace Mix

/-- Types of the intermediate results and the functions that compute them. -/
structure Sys where
  Comp : Type
  Rest : Type
  Coef : Type
  Vis : Type
  Phi : Type
  Bd : Type
  Cond : Type
  Val : Type
  /-- fits for a number of species, `init` (GasTransport.cpp:261-290) -/
  fit : ℕ → Coef
  /-- species viscosities (l. 105-121) -/
  visc : Coef → ℝ → Vis
  /-- weights of the mixture rule (l. 84-103) -/
  phi : Vis → Phi
  /-- binary diffusion coefficients (l. 123-147) -/
  bdiff : Coef → ℝ → Bd
  /-- species conductivities (MixTransport.cpp:110-123) -/
  cond : Coef → ℝ → Cond
  /-- offset of the mole fractions (MixTransport.cpp:104-107) -/
  clip : Comp → Comp
  mu : Vis → Phi → Comp → Val
  lam : Cond → Comp → Val
  binary : Bd → Rest → Val
  dmix : Bd → Comp → Rest → Val
  /-- `resize` of the arrays keeps their entries at other places (GasTransport.cpp:271-276) -/
  resizeVis : Vis → Vis
  resizePhi : Phi → Phi
  resizeBd : Bd → Bd
  resizeCond : Cond → Cond

variable (S : Sys)

/-- Members. `tv` is the temperature for which the powers of its logarithm are stored. -/
structure Obj where
  nsp : ℕ
  coef : S.Coef
  temp : ℝ
  tv : ℝ
  viscOk : Bool
  spviscOk : Bool
  viscwtOk : Bool
  bindiffOk : Bool
  spcondOk : Bool
  condmixOk : Bool
  visc : S.Vis
  phi : S.Phi
  bdiff : S.Bd
  cond : S.Cond
  x : S.Comp
  viscmix : S.Val
  lam : S.Val

variable {S}

/-- `init` (GasTransport.cpp:261-290, MixTransport.cpp:17-21): the flags are not changed. -/
def init (n : ℕ) (o : Obj S) : Obj S :=
  { o with nsp := n, coef := S.fit n, visc := S.resizeVis o.visc, phi := S.resizePhi o.phi, bdiff := S.resizeBd o.bdiff,
           cond := S.resizeCond o.cond }

open Classical in
/-- `GasTransport::update_T` (GasTransport.cpp:28-58). -/
noncomputable def gasUpdateT (e : Env S.Comp S.Rest) (o : Obj S) : Obj S :=
  let o := if e.n ≠ o.nsp then init e.n o else o
  if e.T = o.temp then o
  else { o with temp := e.T, tv := e.T, viscOk := false, spviscOk := false, viscwtOk := false, bindiffOk := false }

open Classical in
/-- `MixTransport::update_T` (MixTransport.cpp:83-94). -/
noncomputable def updateT (e : Env S.Comp S.Rest) (o : Obj S) : Obj S :=
  if e.T = o.temp ∧ o.nsp = e.n then o
  else { gasUpdateT e o with spcondOk := false, bindiffOk := false, condmixOk := false }

/-- `MixTransport::update_C` (MixTransport.cpp:96-108). -/
def updateC (e : Env S.Comp S.Rest) (o : Obj S) : Obj S := { o with viscOk := false, condmixOk := false, x := S.clip e.X }

/-- `updateSpeciesViscosities` (GasTransport.cpp:105-121). -/
noncomputable def updateSpeciesViscosities (e : Env S.Comp S.Rest) (o : Obj S) : Obj S :=
  let o := updateT e o
  { o with visc := S.visc o.coef o.tv, spviscOk := true }

/-- `updateViscosity_T` (l. 84-103). -/
noncomputable def updateViscosityT (e : Env S.Comp S.Rest) (o : Obj S) : Obj S :=
  let o := if o.spviscOk then o else updateSpeciesViscosities e o
  { o with phi := S.phi o.visc, viscwtOk := true }

/-- `updateDiff_T` (l. 123-147). -/
noncomputable def updateDiffT (e : Env S.Comp S.Rest) (o : Obj S) : Obj S :=
  let o := updateT e o
  { o with bdiff := S.bdiff o.coef o.tv, bindiffOk := true }

/-- `viscosity` (l. 60-82). -/
noncomputable def viscosity (e : Env S.Comp S.Rest) (o : Obj S) : Obj S × S.Val :=
  let o := updateC e (updateT e o)
  if o.viscOk then (o, o.viscmix)
  else
    let o := if o.viscwtOk then o else updateViscosityT e o
    let v := S.mu o.visc o.phi o.x
    ({ o with viscmix := v }, v)

/-- `thermalConductivity` (MixTransport.cpp:32-49) with `updateCond_T` (l. 110-123). -/
def conductivityAfter (o : Obj S) : Obj S × S.Val :=
  let o := if o.spcondOk then o else { o with cond := S.cond o.coef o.tv, spcondOk := true, condmixOk := false }
  let o := if o.condmixOk then o else { o with lam := S.lam o.cond o.x, condmixOk := true }
  (o, o.lam)

/-- `thermalConductivity`. -/
noncomputable def conductivity (e : Env S.Comp S.Rest) (o : Obj S) : Obj S × S.Val :=
  conductivityAfter (updateC e (updateT e o))

/-- `getBinaryDiffCoeffs` (GasTransport.cpp:149-165). -/
noncomputable def binary (e : Env S.Comp S.Rest) (o : Obj S) : Obj S × S.Val :=
  let o := updateT e o
  let o := if o.bindiffOk then o else updateDiffT e o
  (o, S.binary o.bdiff e.rest)

/-- `getMixDiffCoeffs` and its variants (l. 167-259), also used by `getMobilities` and `getSpeciesFluxes`. -/
noncomputable def mixDiff (e : Env S.Comp S.Rest) (o : Obj S) : Obj S × S.Val :=
  let o := updateC e (updateT e o)
  let o := if o.bindiffOk then o else updateDiffT e o
  (o, S.dmix o.bdiff o.x e.rest)

/-- `invalidateCache` (l. 353-361), with the value of `Undef`. -/
noncomputable def invalidate (o : Obj S) : Obj S :=
  { o with temp := -999.1234, viscOk := false, spviscOk := false, viscwtOk := false, bindiffOk := false }

variable (S) in
/-- Calls: change of state, addition of a species (with the new composition), `set…Polynomial`, and queries. -/
inductive Op where
  | state (T : ℝ) (X : S.Comp) (r : S.Rest)
  | species (X : S.Comp) (r : S.Rest)
  | poly (f : S.Coef → S.Coef)
  | viscosity
  | conductivity
  | binary
  | mixDiff

/-- Effect of one call. -/
noncomputable def step : Env S.Comp S.Rest × Obj S → Op S → Env S.Comp S.Rest × Obj S
  | (e, o), .state T X r => ({ e with T := T, X := X, rest := r }, o)
  | (e, o), .species X r => ({ e with X := X, rest := r, n := e.n + 1 }, o)
  | (e, o), .poly f => (e, invalidate { o with coef := f o.coef })
  | (e, o), .viscosity => (e, (viscosity e o).1)
  | (e, o), .conductivity => (e, (conductivity e o).1)
  | (e, o), .binary => (e, (binary e o).1)
  | (e, o), .mixDiff => (e, (mixDiff e o).1)

/-- A new object: default member initializers (GasTransport.h:313-322, 371, MixTransport.h:175-178). -/
def fresh (n : ℕ) (visc : S.Vis) (phi : S.Phi) (bdiff : S.Bd) (cond : S.Cond) (x : S.Comp) (v : S.Val) : Obj S where
  nsp := n
  coef := S.fit n
  temp := -1
  tv := 0
  viscOk := false
  spviscOk := false
  viscwtOk := false
  bindiffOk := false
  spcondOk := false
  condmixOk := false
  visc := visc
  phi := phi
  bdiff := bdiff
  cond := cond
  x := x
  viscmix := v
  lam := v

end Mix

/-! ## Multicomponent -/

namespace Multi

/-- Types of the intermediate results and the functions that compute them. -/
structure Sys where
  Comp : Type
  Rest : Type
  Coef : Type
  Vis : Type
  Phi : Type
  Off : Type
  Dg : Type
  Star : Type
  Sol : Type
  Val : Type
  fit : ℕ → Coef
  visc : Coef → ℝ → Vis
  phi : Vis → Phi
  /-- binary diffusion coefficients of different species, and the self-diffusion coefficients of the fits -/
  off : Coef → ℝ → Off
  diagFit : Coef → ℝ → Dg
  /-- `A*`, `B*`, `C*`, relaxation and internal heat capacities (MultiTransport.cpp:431-456, 463-476) -/
  star : Coef → ℝ → ℝ → Star
  /-- self-diffusion coefficients from the viscosities (l. 458-461) -/
  diagTherm : ℝ → Vis → Star → Dg
  clip : Comp → Comp
  perturb : Comp → Comp
  /-- solution of the L matrix equation (l. 126-167) -/
  sol : ℝ → Vis → Off → Dg → Star → Comp → Sol
  mu : Vis → Phi → Comp → Val
  binary : Off → Dg → Rest → Val
  lam : Sol → Comp → Val
  dtherm : Sol → Comp → Val
  multi : ℝ → Off → Dg → Comp → Rest → Val
  flux : Off → Comp → ℝ → Option Val → Rest → Val
  resizeVis : Vis → Vis
  resizePhi : Phi → Phi
  resizeOff : Off → Off
  resizeDg : Dg → Dg
  resizeStar : Star → Star

variable (S : Sys)

/-- Members. `bx` are the mole fractions in the right-hand side. `m_visc_ok` and `m_l0000_ok` are left out: nothing sets them. -/
structure Obj where
  nsp : ℕ
  coef : S.Coef
  temp : ℝ
  tv : ℝ
  tlast : ℝ
  spviscOk : Bool
  viscwtOk : Bool
  bindiffOk : Bool
  solnOk : Bool
  visc : S.Vis
  phi : S.Phi
  off : S.Off
  diag : S.Dg
  star : S.Star
  x : S.Comp
  xlast : S.Comp
  bx : S.Comp
  sol : S.Sol

variable {S}

/-- `init` (MultiTransport.cpp:37-82). -/
noncomputable def init (n : ℕ) (o : Obj S) : Obj S :=
  { o with nsp := n, coef := S.fit n, visc := S.resizeVis o.visc, phi := S.resizePhi o.phi, off := S.resizeOff o.off,
           diag := S.resizeDg o.diag, star := S.resizeStar o.star, solnOk := false, tlast := -999.1234 }

open Classical in
/-- `GasTransport::update_T` (GasTransport.cpp:28-58). -/
noncomputable def gasUpdateT (e : Env S.Comp S.Rest) (o : Obj S) : Obj S :=
  let o := if e.n ≠ o.nsp then init e.n o else o
  if e.T = o.temp then o
  else { o with temp := e.T, tv := e.T, spviscOk := false, viscwtOk := false, bindiffOk := false }

open Classical in
/-- `MultiTransport::update_T` (MultiTransport.cpp:393-403). -/
noncomputable def updateT (e : Env S.Comp S.Rest) (o : Obj S) : Obj S :=
  if o.temp = e.T ∧ o.nsp = e.n then o else { gasUpdateT e o with solnOk := false }

open Classical in
/-- `MultiTransport::update_C` (l. 405-420): writes as many mole fractions as the phase has species. -/
noncomputable def updateC (e : Env S.Comp S.Rest) (o : Obj S) : Outcome (Obj S) :=
  if o.nsp < e.n then .ub
  else .ok { o with x := S.clip e.X, solnOk := if S.clip e.X ≠ o.xlast then false else o.solnOk }

/-- `updateSpeciesViscosities` (GasTransport.cpp:105-121). -/
noncomputable def updateSpeciesViscosities (e : Env S.Comp S.Rest) (o : Obj S) : Obj S :=
  let o := updateT e o
  { o with visc := S.visc o.coef o.tv, spviscOk := true }

/-- `updateViscosity_T` (GasTransport.cpp:84-103). -/
noncomputable def updateViscosityT (e : Env S.Comp S.Rest) (o : Obj S) : Obj S :=
  let o := if o.spviscOk then o else updateSpeciesViscosities e o
  { o with phi := S.phi o.visc, viscwtOk := true }

/-- `updateDiff_T` (GasTransport.cpp:123-147). -/
noncomputable def updateDiffT (e : Env S.Comp S.Rest) (o : Obj S) : Obj S :=
  let o := updateT e o
  { o with off := S.off o.coef o.tv, diag := S.diagFit o.coef o.tv, bindiffOk := true }

open Classical in
/-- `updateThermal_T` (MultiTransport.cpp:422-478). -/
noncomputable def updateThermalT (e : Env S.Comp S.Rest) (o : Obj S) : Obj S :=
  if o.tlast = e.T then o
  else
    let o := updateDiffT e (updateSpeciesViscosities e o)
    let o := { o with star := S.star o.coef o.tv e.T }
    { o with diag := S.diagTherm o.temp o.visc o.star, tlast := e.T }

/-- `solveLMatrixEquation` (l. 117-172). -/
noncomputable def solveL (e : Env S.Comp S.Rest) (o : Obj S) : Outcome (Obj S) :=
  (updateC e (updateThermalT e o)).bind fun o =>
    if o.solnOk then .ok o
    else .ok { o with bx := o.x, sol := S.sol o.temp o.visc o.off o.diag o.star o.x, solnOk := true, xlast := o.x }

/-- `viscosity` (GasTransport.cpp:60-82). -/
noncomputable def viscosity (e : Env S.Comp S.Rest) (o : Obj S) : Outcome (Obj S × S.Val) :=
  (updateC e (updateT e o)).bind fun o =>
    let o := if o.viscwtOk then o else updateViscosityT e o
    .ok (o, S.mu o.visc o.phi o.x)

/-- `thermalConductivity` (MultiTransport.cpp:93-101). -/
noncomputable def conductivity (e : Env S.Comp S.Rest) (o : Obj S) : Outcome (Obj S × S.Val) :=
  (solveL e o).bind fun o => .ok (o, S.lam o.sol o.bx)

/-- `getThermalDiffCoeffs` (l. 103-110). -/
noncomputable def thermalDiff (e : Env S.Comp S.Rest) (o : Obj S) : Outcome (Obj S × S.Val) :=
  (solveL e o).bind fun o => .ok (o, S.dtherm o.sol o.x)

/-- `getBinaryDiffCoeffs` (GasTransport.cpp:149-165). -/
noncomputable def binary (e : Env S.Comp S.Rest) (o : Obj S) : Outcome (Obj S × S.Val) :=
  let o := updateT e o
  let o := if o.bindiffOk then o else updateDiffT e o
  .ok (o, S.binary o.off o.diag e.rest)

/-- `getMultiDiffCoeffs` (MultiTransport.cpp:359-391). -/
noncomputable def multiDiff (e : Env S.Comp S.Rest) (o : Obj S) : Outcome (Obj S × S.Val) :=
  (updateC e o).bind fun o =>
    let o := updateThermalT e (updateT e o)
    .ok ({ o with solnOk := false }, S.multi o.temp o.off o.diag o.x e.rest)

/-- `getSpeciesFluxes` (l. 174-258); `th` tells whether there is a temperature gradient. -/
noncomputable def fluxes (th : Bool) (e : Env S.Comp S.Rest) (o : Obj S) : Outcome (Obj S × S.Val) :=
  let o := updateDiffT e (updateT e o)
  if th then (thermalDiff e o).bind fun r => .ok (r.1, S.flux r.1.off r.1.x r.1.temp (some r.2) e.rest)
  else .ok (o, S.flux o.off o.x o.temp none e.rest)

/-- `invalidateCache` (l. 84-91). -/
noncomputable def invalidate (o : Obj S) : Obj S :=
  { o with temp := -999.1234, spviscOk := false, viscwtOk := false, bindiffOk := false, tlast := -999.1234, solnOk := false,
           xlast := S.perturb o.xlast }

variable (S) in
/-- Calls. -/
inductive Op where
  | state (T : ℝ) (X : S.Comp) (r : S.Rest)
  | species (X : S.Comp) (r : S.Rest)
  | poly (f : S.Coef → S.Coef)
  | viscosity
  | conductivity
  | thermalDiff
  | binary
  | multiDiff
  | fluxes (th : Bool)

/-- Effect of one call. -/
noncomputable def step : Env S.Comp S.Rest × Obj S → Op S → Outcome (Env S.Comp S.Rest × Obj S)
  | (e, o), .state T X r => .ok ({ e with T := T, X := X, rest := r }, o)
  | (e, o), .species X r => .ok ({ e with X := X, rest := r, n := e.n + 1 }, o)
  | (e, o), .poly f => .ok (e, invalidate { o with coef := f o.coef })
  | (e, o), .viscosity => (viscosity e o).bind fun r => .ok (e, r.1)
  | (e, o), .conductivity => (conductivity e o).bind fun r => .ok (e, r.1)
  | (e, o), .thermalDiff => (thermalDiff e o).bind fun r => .ok (e, r.1)
  | (e, o), .binary => (binary e o).bind fun r => .ok (e, r.1)
  | (e, o), .multiDiff => (multiDiff e o).bind fun r => .ok (e, r.1)
  | (e, o), .fluxes th => (fluxes th e o).bind fun r => .ok (e, r.1)

/-- A sequence of calls. -/
noncomputable def run : Env S.Comp S.Rest × Obj S → List (Op S) → Outcome (Env S.Comp S.Rest × Obj S)
  | s, [] => .ok s
  | s, op :: h => (step s op).bind fun s => run s h

/-- A new object (MultiTransport.cpp:37-82; `m_temp` is -1, GasTransport.h:371). -/
noncomputable def fresh (n : ℕ) (visc : S.Vis) (phi : S.Phi) (off : S.Off) (diag : S.Dg) (star : S.Star) (x : S.Comp) (sol : S.Sol) :
    Obj S where
  nsp := n
  coef := S.fit n
  temp := -1
  tv := 0
  tlast := -999.1234
  spviscOk := false
  viscwtOk := false
  bindiffOk := false
  solnOk := false
  visc := visc
  phi := phi
  off := off
  diag := diag
  star := star
  x := x
  xlast := x
  bx := x
  sol := sol

end Multi

end Verif.Transport.Cache
