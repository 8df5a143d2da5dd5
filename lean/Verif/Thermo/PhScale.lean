import Verif.Basic
import Mathlib.Analysis.SpecialFunctions.Log.Basic
import Mathlib.Analysis.Real.Sqrt
import Mathlib.Algebra.BigOperators.Group.Finset.Basic
import Mathlib.Data.Finset.Range

/-!
# Scales of single ion activity coefficients (C109)

Model of the pH scales in `src/thermo/MolalityVPSSTP.cpp` and `src/thermo/HMWSoln.cpp`.  The unscaled coefficients, the
Debye-Hueckel parameter and the ionic strength are parameters.  `AssertTrace` is compiled out in release builds and
not modelled.
-/

namespace Verif.PhScale

open Finset

/-- `PHSCALE_PITZER` (MolalityVPSSTP.h:44) -/
abbrev PITZER : ℤ := 0
/-- `PHSCALE_NBS` (MolalityVPSSTP.h:69) -/
abbrev NBS : ℤ := 1

/-- `m_pHScalingType`, the cached scaled coefficients and whether the cache is valid for the current state. -/
structure St where
  typ : ℤ
  scaled : ℕ → ℝ
  valid : Bool

/-- `setpHScale` (MolalityVPSSTP.cpp:31-38); `true` if no exception is thrown. -/
def setScale (t : ℤ) (s : St) : St × Bool := ({ s with typ := t }, decide (t = PITZER ∨ t = NBS))

/-- What `findCLMIndex` reads: elements and species in order of their index. -/
structure Names where
  ne : ℕ
  kk : ℕ
  ename : ℕ → String
  sname : ℕ → String
  atoms : ℕ → ℕ → ℝ

/-- The element with one of two names (MolalityVPSSTP.cpp:293-299, 304-310) -/
def findElem (a : Names) (x y : String) : Option ℕ :=
  (List.range a.ne).find? fun e => decide (a.ename e = x ∨ a.ename e = y)

open Classical in
/-- `findCLMIndex` (MolalityVPSSTP.cpp:287-341).  The `continue` at line 328 belongs to the inner loop, which has no
effect. -/
noncomputable def findCl (a : Names) : Option ℕ :=
  match findElem a "Cl" "CL", findElem a "E" "e" with
  | some c, some e => (List.range a.kk).find? fun k =>
      decide (1 ≤ k ∧ a.atoms k c = 1 ∧ a.atoms k e = 1 ∧ (a.sname k = "Cl-" ∨ a.sname k = "CL-"))
  | _, _ => none

/-- `s_NBS_CLM_lnMolalityActCoeff` and its derivatives (HMWSoln.cpp:4054-4081), with `A` or its derivative and the
ionic strength. -/
noncomputable def nbs (A I : ℝ) : ℝ := -A * Real.sqrt I / (1 + 1.5 * Real.sqrt I)

/-- `s_updateScaling_pHScaling` and the functions for derivatives (HMWSoln.cpp:3994-4052); `cl` is `m_indexCLM`. -/
noncomputable def scale (typ : ℤ) (kk : ℕ) (cl : Option ℕ) (z un : ℕ → ℝ) (A I : ℝ) : Outcome (ℕ → ℝ) :=
  if typ = PITZER then .ok un
  else match cl with
    | none => .ub
    | some c => .ok fun k => if k < kk then un k + z k * (-1 * (nbs A I - un c)) else un k

/-- `applyphScale` (HMWSoln.cpp:3980-3992) on the coefficients `ac`. -/
noncomputable def apply (typ : ℤ) (kk : ℕ) (cl : Option ℕ) (z un ac : ℕ → ℝ) (A I : ℝ) : Outcome (ℕ → ℝ) :=
  if typ = PITZER then .ok ac
  else match cl with
    | none => .ub
    | some c => .ok fun k => if k < kk then ac k * Real.exp (z k * (-1 * (nbs A I - un c))) else ac k

/-- `s_update_lnMolalityActCoeff` (HMWSoln.cpp:1218-1280): the cache depends on temperature, pressure and composition. -/
noncomputable def refresh (kk : ℕ) (cl : Option ℕ) (z un : ℕ → ℝ) (A I : ℝ) (s : St) : Outcome St :=
  if s.valid then .ok s
  else (scale s.typ kk cl z un A I).bind fun v => .ok { s with scaled := v, valid := true }

end Verif.PhScale
