import Mathlib.Analysis.SpecialFunctions.Trigonometric.Basic
import Mathlib.Algebra.BigOperators.Group.Finset.Basic

/-!
# C70: multicomponent transport

Source: src/transport/MultiTransport.cpp.

Inputs: binary diffusion coefficients times pressure, collision integral ratios, species viscosities, rotational data and
internal heat capacities at the current temperature. The linear solver is not modelled: a result is any vector that solves
the equations. Entries of the large matrix that are never written are zero.
-/

namespace Verif.Transport.Multi

open Finset

/-- Data of the equations: number of species, molecular weights, temperature, mole fractions `m_molefracs`, `m_bdiff`,
`m_astar`, `m_bstar`, `m_cstar`, `m_crot`, `m_rotrelax`, `m_cinternal`, `m_visc`, gas constant. -/
structure Data where
  n : ℕ
  mw : ℕ → ℝ
  T : ℝ
  x : ℕ → ℝ
  D : ℕ → ℕ → ℝ
  A : ℕ → ℕ → ℝ
  B : ℕ → ℕ → ℝ
  C : ℕ → ℕ → ℝ
  crot : ℕ → ℝ
  relax : ℕ → ℝ
  cint : ℕ → ℝ
  visc : ℕ → ℝ
  R : ℝ

namespace Data

variable (m : Data)

/-- `hasInternalModes` (l. 481-486). -/
noncomputable def modes (j : ℕ) : Bool := decide (m.cint j > 0.001)

/-- `eval_L0000` (l. 488-508). -/
noncomputable def L0000 (i j : ℕ) : ℝ :=
  if i = j then 0
  else
    let sum := (-m.x i / m.D i i + ∑ k ∈ range m.n, m.x k / m.D i k) / m.mw i
    16 * m.T / 25 * m.x j * (m.mw j * sum + m.x i / m.D i j)

/-- First assignment in `eval_L0010` (l. 518-520). -/
noncomputable def q0010 (i j : ℕ) : ℝ :=
  -(1.6 * m.T) * m.x i * m.x j * m.mw i * (1.2 * m.C j i - 1) / ((m.mw j + m.mw i) * m.D j i)

/-- `eval_L0010` (l. 510-528). -/
noncomputable def L0010 (i j : ℕ) : ℝ :=
  if i = j then m.q0010 i j + -(∑ k ∈ range m.n, m.q0010 k j) else m.q0010 i j

/-- `eval_L1000` (l. 530-537). -/
noncomputable def L1000 (i j : ℕ) : ℝ := m.L0010 j i

/-- `term2` in `eval_L1010` (l. 557-558). -/
noncomputable def term2 (i j : ℕ) : ℝ :=
  4 * m.mw j * m.A i j * (1 + 5 / (3 * Real.pi) * (m.crot j / m.relax j + m.crot i / m.relax i))

/-- `term1` (l. 555-556). -/
noncomputable def term1 (i j : ℕ) : ℝ := m.D i j * (m.mw i + m.mw j) * (m.mw i + m.mw j)

/-- `eval_L1010` (l. 539-571). -/
noncomputable def L1010 (i j : ℕ) : ℝ :=
  let constant1 := 16 * m.T / 25 * m.x j
  let e := constant1 * m.x i * m.mw i / (m.mw j * m.term1 i j) *
    (13.75 * (m.mw j * m.mw j) - 3 * m.mw j * m.mw j * m.B i j - m.term2 i j * m.mw j)
  let sum := ∑ k ∈ range m.n, m.x k / m.term1 k j *
    (7.5 * (m.mw j * m.mw j) + m.mw k * m.mw k * (6.25 - 3 * m.B k j) + m.term2 k j * m.mw k)
  if i = j then e - sum * constant1 else e

/-- First assignment in `eval_L1001` (l. 579-584). -/
noncomputable def q1001 (i j : ℕ) : ℝ :=
  32 * m.T / (5 * Real.pi) * m.mw j * m.x j * m.crot j / (m.cint j * m.relax j) * m.A j i * m.x i /
    ((m.mw j + m.mw i) * m.D j i)

/-- `eval_L1001` (l. 573-594). -/
noncomputable def L1001 (i j : ℕ) : ℝ :=
  if m.modes j then
    if i = j then m.q1001 i j + ∑ k ∈ range m.n, m.q1001 k j else m.q1001 i j
  else 0

/-- `eval_L0110` (l. 614-621). -/
noncomputable def L0110 (i j : ℕ) : ℝ := m.L1001 j i

/-- `eval_L0101` (l. 623-652). -/
noncomputable def L0101 (k i : ℕ) : ℝ :=
  if m.modes i then
    if k = i then
      let constant1 := 4 * m.T * m.x i / m.cint i
      let constant2 := 12 * m.mw i * m.crot i / (5 * Real.pi * m.cint i * m.relax i)
      let sum := ∑ k ∈ range m.n, (m.x k / m.D i k + (if k ≠ i then m.x k * m.A i k * constant2 / (m.mw k * m.D i k) else 0))
      0 - 8 / Real.pi * m.mw i * m.x i * m.x i * m.crot i / (m.cint i * m.cint i * m.R * m.visc i * m.relax i) - constant1 * sum
    else 0
  else if k = i then 1 else 0

/-- The matrix (l. 151-162); blocks `L0001` and `L0100` are zero (l. 596-612). -/
noncomputable def L (r c : ℕ) : ℝ :=
  if r < m.n then
    if c < m.n then m.L0000 r c else if c < 2 * m.n then m.L0010 r (c - m.n) else 0
  else if r < 2 * m.n then
    if c < m.n then m.L1000 (r - m.n) c else if c < 2 * m.n then m.L1010 (r - m.n) (c - m.n)
    else m.L1001 (r - m.n) (c - 2 * m.n)
  else
    if c < m.n then 0 else if c < 2 * m.n then m.L0110 (r - 2 * m.n) (c - m.n)
    else m.L0101 (r - 2 * m.n) (c - 2 * m.n)

/-- The right-hand side `m_b` (l. 129-148). -/
noncomputable def b (r : ℕ) : ℝ :=
  if r < m.n then 0
  else if r < 2 * m.n then m.x (r - m.n)
  else if m.modes (r - 2 * m.n) then m.x (r - 2 * m.n) else 0

/-- The result of `solve(m_Lmatrix, m_a)` (l. 166-167). -/
def Solves (a : ℕ → ℝ) : Prop := ∀ r < 3 * m.n, ∑ c ∈ range (3 * m.n), m.L r c * a c = m.b r

/-- `thermalConductivity` (l. 93-101). -/
noncomputable def conductivity (a : ℕ → ℝ) : ℝ := -4 * ∑ k ∈ range (2 * m.n), m.b (k + m.n) * a (k + m.n)

/-- `getThermalDiffCoeffs` (l. 103-110). -/
noncomputable def thermalDiff (a : ℕ → ℝ) (k : ℕ) : ℝ := 1.6 / m.R * m.mw k * m.x k * a k

/-- `m_aa` in `getSpeciesFluxes` and `getMassFluxes` before the row `jmax` is replaced (l. 197-204, 300-307). -/
noncomputable def aa (i j : ℕ) : ℝ :=
  if i = j then m.x j * m.x i / m.D i j - ∑ k ∈ range m.n, m.x k * m.x i / m.D i k else m.x j * m.x i / m.D i j

/-- The equations for the diffusion velocities times pressure (l. 218-236, 321-330): gradient `gx`, mass fractions `y`. -/
def SolvesV (y gx : ℕ → ℝ) (jmax : ℕ) (V : ℕ → ℝ) : Prop :=
  ∀ i < m.n, ∑ j ∈ range m.n, (if i = jmax then y j else m.aa i j) * V j = if i = jmax then 0 else gx i

/-- The fluxes (l. 241-257, 335-345): density `rho`, ideal gas pressure `pp`, thermal diffusion coefficients `dt` (zero if
there is no temperature gradient), gradient `glt` of the logarithm of the temperature. -/
noncomputable def flux (y : ℕ → ℝ) (rho pp : ℝ) (V dt : ℕ → ℝ) (glt : ℝ) (i : ℕ) : ℝ := V i * (rho * y i / pp) - dt i * glt

/-- `jmax` in `getSpeciesFluxes` (l. 209-216). -/
noncomputable def jmax (gx : ℕ → ℝ) : ℕ :=
  ((List.range m.n).foldl (fun s j => if |gx j| > s.2 then (j, |gx j|) else s) (0, (-1 : ℝ))).1

/-- `jmax` in `getMassFluxes` (l. 312-319): differences are compared with gradients. -/
noncomputable def jmaxMass (dx : ℕ → ℝ) (delta : ℝ) : ℕ :=
  ((List.range m.n).foldl (fun s j => if |dx j| > s.2 then (j, |dx j| / delta) else s) (0, (-1 : ℝ))).1

/-- `getMultiDiffCoeffs` (l. 359-391); `P` is the inverse of the first block, `mmw` the mean molecular weight. -/
noncomputable def multiDiff (P : ℕ → ℕ → ℝ) (mmw p : ℝ) (i j : ℕ) : ℝ :=
  16 * m.T * mmw / (25 * p) / m.mw j * m.x i * (P i j - P i i)

/-- `P` is the inverse of the first block. -/
structure IsInv (P : ℕ → ℕ → ℝ) : Prop where
  left : ∀ i < m.n, ∀ j < m.n, ∑ k ∈ range m.n, P i k * m.L0000 k j = if i = j then 1 else 0
  right : ∀ i < m.n, ∀ j < m.n, ∑ k ∈ range m.n, m.L0000 i k * P k j = if i = j then 1 else 0

end Data

end Verif.Transport.Multi
