import Mathlib.Analysis.SpecialFunctions.Pow.Real
import Mathlib.Analysis.Real.Pi.Bounds

/-!
# C72: dusty gas model

Model of `/repo/src/transport/DustyGasTransport.cpp` and the members declared in
`/repo/include/cantera/transport/DustyGasTransport.h`.

Simplifications: the binary diffusion coefficients and the viscosity of the gas are arbitrary functions of the state of the
phase (C69 to C71 treat them); the inverse of the matrix is an oracle `inv`; `setState_TPX` stores temperature, pressure and
normalized mole fractions; vectors and matrices are functions of the index, of which the first `n` values are used.
-/

namespace Verif.Transport.Dusty

open Finset

/-- Properties of the medium (DustyGasTransport.h:249-286). -/
structure Medium where
  porosity : ℝ
  tortuosity : ℝ
  poreRadius : ℝ
  diam : ℝ
  perm : ℝ

/-- State of the gas phase. -/
structure Env where
  T : ℝ
  p : ℝ
  X : ℕ → ℝ

/-- The gas: number of species, molecular weights, gas constant, binary diffusion coefficients, viscosity. -/
structure Gas where
  n : ℕ
  mw : ℕ → ℝ
  R : ℝ
  dgas : Env → ℕ → ℕ → ℝ
  visc : Env → ℝ

/-- Members. -/
structure Obj where
  med : Medium
  temp : ℝ
  knudsenOk : Bool
  bulkOk : Bool
  dk : ℕ → ℝ
  d : ℕ → ℕ → ℝ
  x : ℕ → ℝ

variable (g : Gas)

/-- Offset of the mole fractions, `Tiny`. -/
noncomputable def tiny : ℝ := 1e-20

/-- A new object (l. 17-43; DustyGasTransport.h:229-286). -/
noncomputable def fresh (e : Env) : Obj where
  med := ⟨0, 1, 0, 0, -1⟩
  temp := -1
  knudsenOk := false
  bulkOk := false
  dk := fun _ => 0
  d := fun _ _ => 0
  x := e.X

open Classical in
/-- `updateTransport_T` (l. 178-186). -/
noncomputable def updateT (e : Env) (o : Obj) : Obj :=
  if o.temp = e.T then o else { o with temp := e.T, knudsenOk := false, bulkOk := false }

/-- `updateTransport_C` (l. 188-199). -/
noncomputable def updateC (e : Env) (o : Obj) : Obj := { o with x := fun k => max tiny (e.X k), bulkOk := false }

/-- `updateBinaryDiffCoeffs` (l. 45-60). -/
noncomputable def updateBinary (e : Env) (o : Obj) : Obj :=
  if o.bulkOk then o
  else { o with d := fun n m => g.dgas e n m * (o.med.porosity / o.med.tortuosity), bulkOk := true }

/-- `updateKnudsenDiffCoeffs` (l. 62-73). -/
noncomputable def updateKnudsen (o : Obj) : Obj :=
  if o.knudsenOk then o
  else
    let kg := o.med.poreRadius * o.med.porosity / o.med.tortuosity
    { o with dk := fun k => 2 / 3 * kg * Real.sqrt (8 * g.R * o.temp / (Real.pi * g.mw k)), knudsenOk := true }

/-- The matrix of `eval_H_matrix` (l. 79-93). -/
noncomputable def H (o : Obj) (k j : ℕ) : ℝ :=
  if j = k then 1 / o.dk k + ∑ j ∈ range g.n, (if j ≠ k then o.x j / o.d k j else 0)
  else -o.x k / o.d k j

/-- `updateMultiDiffCoeffs` (l. 155-166) up to the inversion. -/
noncomputable def updateMulti (e : Env) (o : Obj) : Obj := updateKnudsen g (updateBinary g e (updateC e (updateT e o)))

/-- `getMultiDiffCoeffs` (l. 168-176). -/
noncomputable def multiDiff (inv : (ℕ → ℕ → ℝ) → ℕ → ℕ → ℝ) (e : Env) (o : Obj) : Obj × (ℕ → ℕ → ℝ) :=
  let o := updateMulti g e o
  (o, inv (H g o))

/-- A point: temperature, density, mass fractions (l. 104-109). -/
structure Point where
  T : ℝ
  rho : ℝ
  Y : ℕ → ℝ

/-- Concentration at a point (l. 113-114). -/
noncomputable def conc (s : Point) (k : ℕ) : ℝ := s.rho * s.Y k / g.mw k

/-- Pressure at a point (l. 122-123). -/
noncomputable def press (s : Point) : ℝ := (∑ k ∈ range g.n, conc g s k) * g.R * s.T

/-- State of the phase set by `getMolarFluxes` (l. 115, 124, 126-127). -/
noncomputable def mean (s1 s2 : Point) : Env where
  T := 0.5 * (s1.T + s2.T)
  p := 0.5 * (press g s1 + press g s2)
  X := fun k => 0.5 * (conc g s1 k + conc g s2 k) / ∑ k ∈ range g.n, 0.5 * (conc g s1 k + conc g s2 k)

/-- Permeability (l. 138-146). -/
noncomputable def permeability (m : Medium) : ℝ :=
  if m.perm < 0 then
    m.porosity * m.porosity * m.porosity * m.diam * m.diam / (72 * m.tortuosity * (1 - m.porosity) * (1 - m.porosity))
  else m.perm

/-- `getMolarFluxes` (l. 96-153). -/
noncomputable def fluxes (inv : (ℕ → ℕ → ℝ) → ℕ → ℕ → ℝ) (s1 s2 : Point) (delta : ℝ) (o : Obj) : Env × Obj × (ℕ → ℝ) :=
  let e := mean g s1 s2
  let gradc := fun k => (conc g s2 k - conc g s1 k) / delta
  let gradp := (press g s2 - press g s1) / delta
  let o := updateMulti g e o
  let P := inv (H g o)
  let b := permeability o.med * (gradp / g.visc e)
  let cbar := fun k => b * (0.5 * (conc g s1 k + conc g s2 k) / o.dk k)
  (e, o, fun k => -1 * (∑ j ∈ range g.n, P k j * gradc j + ∑ j ∈ range g.n, P k j * cbar j))

/-- Calls. -/
inductive Op where
  | state (e : Env)
  | setPorosity (v : ℝ)
  | setTortuosity (v : ℝ)
  | setMeanPoreRadius (v : ℝ)
  | setMeanParticleDiameter (v : ℝ)
  | setPermeability (v : ℝ)
  | multiDiff
  | fluxes (s1 s2 : Point) (delta : ℝ)

/-- Effect of one call (l. 201-229 for the setters). -/
noncomputable def step (inv : (ℕ → ℕ → ℝ) → ℕ → ℕ → ℝ) : Env × Obj → Op → Env × Obj
  | (_, o), .state e => (e, o)
  | (e, o), .setPorosity v => (e, { o with med := { o.med with porosity := v }, knudsenOk := false, bulkOk := false })
  | (e, o), .setTortuosity v => (e, { o with med := { o.med with tortuosity := v }, knudsenOk := false, bulkOk := false })
  | (e, o), .setMeanPoreRadius v => (e, { o with med := { o.med with poreRadius := v }, knudsenOk := false })
  | (e, o), .setMeanParticleDiameter v => (e, { o with med := { o.med with diam := v } })
  | (e, o), .setPermeability v => (e, { o with med := { o.med with perm := v } })
  | (e, o), .multiDiff => (e, (multiDiff g inv e o).1)
  | (_, o), .fluxes s1 s2 delta => ((fluxes g inv s1 s2 delta o).1, (fluxes g inv s1 s2 delta o).2.1)

end Verif.Transport.Dusty
