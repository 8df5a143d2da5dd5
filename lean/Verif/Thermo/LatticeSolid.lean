import Mathlib.Data.Real.Basic
import Mathlib.Algebra.BigOperators.Group.Finset.Basic
import Mathlib.Algebra.BigOperators.Fin
import Verif.Basic

/-!
# LatticeSolidPhase: a phase made of sublattices

Species `k` of lattice `n` is addressed by the pair `(n, k)`; its place in the vectors of the phase
is `lkstart_[n] + k`.  The sublattices are ThermoPhase objects; the model keeps their mole fractions
and takes their molar properties, densities and weights as given functions of the mole fractions.
-/

namespace Verif.LatticeSolid

/-- Data: number of lattices, number of species of each, stoichiometry `theta_`. -/
structure Mech where
  N : ℕ
  nsp : ℕ → ℕ
  θ : ℕ → ℝ

/-- `lkstart_`, LatticeSolidPhase.cpp:351-355. -/
def lkstart (M : Mech) (n : ℕ) : ℕ := ∑ i ∈ Finset.range n, M.nsp i

/-! ## Finding a species -/

/-- LatticeSolidPhase.cpp:28-34 (and 44-50): the lattice and the index in it for which `minTemp`
asks; `none` is the fall through to the limits of the whole phase. -/
def lookup (M : Mech) (k : ℕ) : Option (ℕ × ℕ) :=
  ((List.range M.N).find? (fun n => decide (lkstart M (n + 1) < k))).map
    (fun n => (n, k - lkstart M n))

/-- LatticeSolidPhase.cpp:26-40; `tmin n k` is the limit of species `k` of lattice `n`, `tlow n` the
limit of lattice `n`, which MultiSpeciesThermo.cpp:130-139, 167-175 returns also for an index which
does not exist. -/
noncomputable def minTemp (M : Mech) (tmin : ℕ → ℕ → ℝ) (tlow : ℕ → ℝ) (k : ℕ) : ℝ :=
  match lookup M k with
  | some (n, j) => if j < M.nsp n then tmin n j else tlow n
  | none => ((List.range M.N).map tlow).foldl max 0

/-- LatticeSolidPhase.cpp:427-435 and MultiSpeciesThermo.cpp:187-193: heats of formation after
`modifyOneHf298SS`; an index which does not exist changes nothing. -/
noncomputable def modifyHf (M : Mech) (k : ℕ) (H : ℝ) (hf : ℕ → ℕ → ℝ) : ℕ → ℕ → ℝ :=
  (List.range M.N).foldl (fun f n =>
    if lkstart M (n + 1) < k then
      let kk := k - lkstart M n
      if kk < M.nsp n then Function.update f n (Function.update (f n) kk H) else f
    else f) hf

/-! ## Composition -/

/-- Composition: that of the phase (Phase), those of the lattices. -/
structure St where
  ph : ℕ → ℕ → ℝ
  lat : ℕ → ℕ → ℝ

/-- Sum over all species. -/
noncomputable def total (M : Mech) (x : ℕ → ℕ → ℝ) : ℝ :=
  ∑ n ∈ Finset.range M.N, ∑ k ∈ Finset.range (M.nsp n), x n k

/-- Sum over the species of one lattice. -/
noncomputable def latSum (M : Mech) (x : ℕ → ℕ → ℝ) (n : ℕ) : ℝ :=
  ∑ k ∈ Finset.range (M.nsp n), x n k

/-- Phase.cpp:289-319: negative mole fractions are ignored, the others divided by their sum. -/
noncomputable def clip (x : ℕ → ℕ → ℝ) : ℕ → ℕ → ℝ := fun n k => max (x n k) 0

/-- LatticeSolidPhase.cpp:164-177. -/
noncomputable def setX (M : Mech) (x : ℕ → ℕ → ℝ) : St :=
  let y := clip (fun n k => x n k / M.N)
  ⟨fun n k => y n k / total M y, fun n k => clip x n k / latSum M (clip x) n⟩

/-- LatticeSolidPhase.cpp:179-205, called by the user with an array of its own.  `none` is the
exception. -/
noncomputable def getX (M : Mech) (s : St) : Option (ℕ → ℕ → ℝ) :=
  let x := fun n k => s.ph n k / latSum M s.ph n
  open Classical in
  if ∀ n < M.N, ∀ k < M.nsp n, ¬ (|x n k - s.lat n k| > 1 / 10 ^ 14) then some x else none

/-- LatticeSolidPhase.cpp:396-410: `getMoleFractions(m_x.data())` writes into `m_x`, then reads the
fractions of the lattice into the same array (196), so the comparison (198) is of each value with
itself and the lattice gets its own fractions, which LatticePhase normalizes. -/
noncomputable def updateThermo (M : Mech) (s : St) : St :=
  let x := fun n k => s.ph n k / latSum M s.ph n
  let mx := fun n k => if n < M.N ∧ k < M.nsp n then s.lat n k else x n k
  { s with lat := fun n k => clip mx n k / latSum M (clip mx) n }

/-- Phase.cpp:265-287 and 321-328: `restoreState` sets the fractions of the phase only. -/
def restore (s : St) (x : ℕ → ℕ → ℝ) : St := { s with ph := x }

/-! ## Molar properties -/

/-- LatticeSolidPhase.cpp:63-111: the sum over the lattices of a molar property `q n` of lattice
`n`. -/
noncomputable def molar (M : Mech) (q : ℕ → ℝ) : ℝ := ∑ n ∈ Finset.range M.N, M.θ n * q n

/-- LatticeSolidPhase.cpp:154-162. -/
noncomputable def density (M : Mech) (ρ : ℕ → ℝ) : ℝ := ∑ n ∈ Finset.range M.N, M.θ n * ρ n

/-- Phase.cpp:616-624, with the mole fractions of the phase. -/
noncomputable def meanX (M : Mech) (s : St) (q : ℕ → ℕ → ℝ) : ℝ :=
  total M (fun n k => s.ph n k * q n k)

/-- LatticeSolidPhase.cpp:381-393: entry of species `(n, k)` for the constraint of lattice `i`. -/
noncomputable def constraintEntry (M : Mech) (i n : ℕ) : ℝ :=
  if n = 0 then -M.θ 0 else if n = i then M.θ i else 0

/-- Amount of the constraint element of lattice `i` in moles `m n k` of the species. -/
noncomputable def constraint (M : Mech) (i : ℕ) (m : ℕ → ℕ → ℝ) : ℝ :=
  total M (fun n k => constraintEntry M i n * m n k)

end Verif.LatticeSolid
