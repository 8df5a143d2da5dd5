import Mathlib.Data.Real.Basic
import Mathlib.Algebra.BigOperators.Group.List.Basic
import Mathlib.Tactic.NormNum

/-!
# Data of a species (claim C102)

Model of src/thermo/Species.cpp, src/transport/TransportData.cpp and NasaPoly2::validate.  Maps are lists of pairs
or records of optional entries; a warning is a Boolean.
-/

namespace Verif.SpeciesData

/-! ## Molecular weight -/

/-- Undef (ct_defs.h:164) -/
noncomputable def undef : ℝ := -999.1234

/-- The loop of Species::molecularWeight (Species.cpp:33-44); `el` is the table of atomic weights, with negative
entries for elements without stable isotopes.  Unknown names are skipped. -/
noncomputable def weightLoop (el : String → Option ℝ) : List (String × ℝ) → ℝ → Option ℝ
  | [], w => some w
  | (e, m) :: r, w =>
    match el e with
    | some a => if a < 0 then none else weightLoop el r (w + a * m)
    | none => weightLoop el r w

/-- Species::setMolecularWeight (Species.cpp:50-66): new value and warning; the quotient of zero by zero is not a
number and does not warn. -/
noncomputable def setWeight (old w : ℝ) : ℝ × Bool :=
  (w, decide (old ≠ undef ∧ max w old ≠ 0 ∧ 1e-9 < |w - old| / max w old))

/-- Species::molecularWeight (Species.cpp:31-48): stored value after the call, none if it throws -/
noncomputable def molecularWeight (el : String → Option ℝ) (comp : List (String × ℝ)) (stored : ℝ) : Option ℝ :=
  if stored = undef then (weightLoop el comp 0).map fun w => (setWeight stored w).1 else some stored

/-! ## Reading and writing -/

/-- The entries of a species node that matter here: composition, and the keys "charge", "size" and "sites" -/
structure Node where
  comp : List (String × ℝ)
  charge : Option ℝ
  size : Option ℝ
  sites : Option ℝ

/-- A species: composition, charge, size and the stored input (Species.h) -/
structure Sp where
  comp : List (String × ℝ)
  charge : ℝ
  size : ℝ
  input : Node

/-- newSpecies (Species.cpp:113-149) -/
noncomputable def newSpecies (nd : Node) : Sp where
  comp := nd.comp
  charge := match nd.comp.lookup "E" with
    | some e => -e
    | none => 0
  size := nd.sites.getD 1
  input := nd

/-- Species::parameters (Species.cpp:68-111); update keeps existing keys and does not add excluded ones. -/
noncomputable def parameters (s : Sp) (withInput : Bool) : Node where
  comp := s.comp
  charge := if s.charge ≠ 0 then some s.charge else none
  size := if s.size ≠ 1 then some s.size else none
  sites := if withInput then s.input.sites else none

/-! ## Gas transport data -/

/-- Boltzmann, lightSpeed (ct_defs.h:84, 93) -/
noncomputable def boltzmann : ℝ := 1.380649 / 10 ^ 23
noncomputable def lightSpeed : ℝ := 299792458

/-- GasTransportData (TransportData.h) -/
structure Gas where
  geometry : String
  diameter : ℝ
  wellDepth : ℝ
  dipole : ℝ
  polar : ℝ
  rot : ℝ
  acentric : ℝ
  disp : ℝ
  quad : ℝ

/-- The transport node: geometry, diameter and well depth are required -/
structure TNode where
  geometry : String
  diameter : ℝ
  wellDepth : ℝ
  dipole : Option ℝ
  polar : Option ℝ
  rot : Option ℝ
  acentric : Option ℝ
  disp : Option ℝ
  quad : Option ℝ

/-- setupGasTransportData with setCustomaryUnits (TransportData.cpp:161-177, 45-60) -/
noncomputable def setup (t : TNode) : Gas where
  geometry := t.geometry
  diameter := 1 / 10 ^ 10 * t.diameter
  wellDepth := boltzmann * t.wellDepth
  dipole := 1 / 10 ^ 21 / lightSpeed * t.dipole.getD 0
  polar := 1 / 10 ^ 30 * t.polar.getD 0
  rot := t.rot.getD 0
  acentric := t.acentric.getD 0
  disp := 1 / 10 ^ 50 * t.disp.getD 0
  quad := 1 / 10 ^ 50 * t.quad.getD 0

/-- GasTransportData::getParameters (TransportData.cpp:130-159) -/
noncomputable def params (g : Gas) : TNode where
  geometry := g.geometry
  diameter := g.diameter * 10 ^ 10
  wellDepth := g.wellDepth / boltzmann
  dipole := if g.dipole ≠ 0 then some (g.dipole * 10 ^ 21 * lightSpeed) else none
  polar := if g.polar ≠ 0 then some (10 ^ 30 * g.polar) else none
  rot := if g.rot ≠ 0 then some g.rot else none
  acentric := if g.acentric ≠ 0 then some g.acentric else none
  disp := if g.disp ≠ 0 then some (g.disp * 10 ^ 50) else none
  quad := if g.quad ≠ 0 then some (g.quad * 10 ^ 50) else none

/-- Number of atoms (TransportData.cpp:64-69); `isE` is the comparison with "E" without case -/
noncomputable def nAtoms (isE : String → Bool) : List (String × ℝ) → ℝ
  | [] => 0
  | (e, m) :: r => (if isE e then 0 else m) + nAtoms isE r

/-- GasTransportData::validate (TransportData.cpp:62-128): true if it returns -/
noncomputable def validate (isE : String → Bool) (comp : List (String × ℝ)) (g : Gas) : Bool :=
  let n := nAtoms isE comp
  let geo := if g.geometry = "atom" then !decide (1 < n)
    else if g.geometry = "linear" then !decide (n < 2)
    else if g.geometry = "nonlinear" then !decide (n < 3)
    else false
  geo && !decide (g.wellDepth < 0) && !decide (g.diameter ≤ 0) && !decide (g.dipole < 0) &&
    !decide (g.polar < 0) && !decide (g.rot < 0) && !decide (g.disp < 0) && !decide (g.quad < 0)

/-! ## Continuity of two-region polynomials -/

/-- `fabs(d / q) > tol` for real numbers: for q = 0 the quotient is infinite unless d = 0 as well -/
noncomputable def exceeds (d q tol : ℝ) : Bool := if q = 0 then decide (d ≠ 0) else decide (tol < |d / q|)

/-- The three warnings of NasaPoly2::validate (NasaPoly2.cpp:33-72) for the values of the low and the high
polynomial at the middle temperature: heat capacity, enthalpy, entropy -/
noncomputable def nasaWarn (cl hl sl ch hh sh : ℝ) : Bool × Bool × Bool :=
  (exceeds (cl - ch) (|cl| + 1e-4) 0.01, exceeds (hl - hh) cl 0.001, exceeds (sl - sh) (|sl| + cl) 0.001)

end Verif.SpeciesData
