import Verif.Basic
import Mathlib.Data.Real.Basic
import Mathlib.Data.List.Basic
import Mathlib.Logic.Function.Basic

/-!
# Setting up species thermo (C110)

Model of `src/thermo/SpeciesThermoFactory.cpp` and of `Nasa9PolyMultiTempRegion::setParameters`.  Values of the input
are taken after conversion of units; missing keys and wrong types of values are not modelled.
-/

namespace Verif.ThermoFactory

/-- `newSpeciesThermoInterpType` by name (lines 52-78), for a name in lower case; constants of
speciesThermoTypes.h:13-58. -/
def typeOf (s : String) : Option ℤ :=
  if s = "nasa2" ∨ s = "nasa" then some 4
  else if s = "const_cp" ∨ s = "simple" then some 1
  else if s = "shomate" ∨ s = "shomate1" then some 128
  else if s = "shomate2" then some 8
  else if s = "nasa1" then some 256
  else if s = "nasa9" then some 512
  else if s = "nasa9multi" then some 513
  else if s = "mu0" then some 64
  else none

/-- The classes created. -/
inductive Cls | nasa1 | shomate | constCp | mu0 | shomate2 | nasa2 | nasa9multi
  deriving DecidableEq

/-- `newSpeciesThermoInterpType` by number (lines 27-50); `none` is an exception. -/
def classOf (t : ℤ) : Option Cls :=
  if t = 256 then some .nasa1 else if t = 128 then some .shomate
  else if t = 1 ∨ t = 32 then some .constCp else if t = 64 then some .mu0
  else if t = 8 then some .shomate2 else if t = 4 then some .nasa2
  else if t = 513 then some .nasa9multi else none

/-- The models of `newSpeciesThermo` (lines 186-213) -/
def modelOf (s : String) : Option Cls :=
  if s = "NASA7" then some .nasa2 else if s = "Shomate" then some .shomate2
  else if s = "NASA9" then some .nasa9multi else if s = "constant-cp" then some .constCp
  else if s = "piecewise-Gibbs" then some .mu0 else none

/-- Parametrisation with two ranges: limits, temperature in between, coefficients. -/
structure Two where
  lo : ℝ
  hi : ℝ
  mid : ℝ
  low : List ℝ
  high : List ℝ

/-- `setupNasaPoly` and `setupShomatePoly` (lines 88-126); sizes are checked by `AnyValue::checkSize`
(AnyMap.inl.h:172-184). -/
noncomputable def setup7 (Tr : List ℝ) (data : List (List ℝ)) : Outcome Two :=
  if Tr.length < 2 ∨ Tr.length > 3 then .throw
  else if data.length ≠ Tr.length - 1 then .throw
  else if data.any (fun d => decide (d.length ≠ 7)) then .throw
  else .ok {
    lo := Tr.headD 0
    hi := Tr.getLastD 0
    mid := Tr.getD 1 0
    low := data.getD 0 []
    high := if Tr.length = 3 then data.getD 1 [] else data.getD 0 [] }

open Classical in
/-- The map of regions (lines 149-156): a later entry with the same temperature replaces an earlier one. -/
noncomputable def regions (l : List (ℝ × List ℝ)) : ℝ → Option (List ℝ) :=
  l.foldl (fun f p => Function.update f p.1 (some p.2)) fun _ => none

/-- `setupNasa9Poly` (lines 144-160): the limits and the regions. -/
noncomputable def setup9 (Tr : List ℝ) (data : List (List ℝ)) : Outcome (ℝ × ℝ × (ℝ → Option (List ℝ))) :=
  if Tr.length < 2 ∨ Tr.length > 999 then .throw
  else if data.length ≠ Tr.length - 1 then .throw
  else if data.any (fun d => decide (d.length ≠ 9)) then .throw
  else .ok (Tr.headD 0, Tr.getLastD 0, regions (Tr.zip data))

open Classical in
/-- The upper limit of the region that starts at `T` (Nasa9PolyMultiTempRegion.cpp:82-98): the next key of the map, or
the upper limit of the species for the last region. -/
noncomputable def upper (keys : List ℝ) (hi T : ℝ) : ℝ :=
  match keys.filter (fun u => decide (T < u)) with
  | [] => hi
  | u :: us => us.foldl min u

/-- `setupConstCp` (lines 128-142): temperature, enthalpy, entropy and heat capacity with their defaults. -/
noncomputable def setupCp (T0 h0 s0 cp0 : Option ℝ) : ℝ × ℝ × ℝ × ℝ :=
  (T0.getD 298.15, h0.getD 0, s0.getD 0, cp0.getD 0)

/-- One entry of `setupMu0` (lines 175-182); `R` is the gas constant. -/
noncomputable def mu0 (R : ℝ) (dimensionless : Bool) (T mu : ℝ) : ℝ := if dimensionless then mu * R * T else mu

end Verif.ThermoFactory
