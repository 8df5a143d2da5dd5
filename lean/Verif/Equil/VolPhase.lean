import Verif.Basic
import Mathlib.Data.Real.Basic
import Mathlib.Algebra.BigOperators.Group.Finset.Basic
import Mathlib.Data.Finset.Range

/-!
# Phases of the multiphase equilibrium solver (C107)

Model of `src/equil/vcs_VolPhase.cpp`, and of `vcs_doubleEqual` in `src/equil/vcs_util.cpp`.  The phase `TP_ptr` is
present; its functions are parameters that take temperature, pressure and the mole fractions handed over.  Names, the
list of species objects and `resize` are not modelled.  Mole numbers of the solver are handed over explicitly.
-/

namespace Verif.VolPhase

open Finset

/-- The functions of the phase (`ThermoPhase`). -/
structure TP where
  pmVol : ℝ → ℝ → (ℕ → ℝ) → ℕ → ℝ
  ac : ℝ → ℝ → (ℕ → ℝ) → ℕ → ℝ
  gstar : ℝ → ℝ → ℕ → ℝ
  dln : ℝ → ℝ → (ℕ → ℝ) → ℕ → ℕ → ℝ

/-- Members (vcs_VolPhase.h:537-816): `ex` is `m_existence`, `tpX` the mole fractions last handed to the phase, `up` to
`uGS` the flags `m_UpToDate` to `m_UpToDate_GStar`. -/
structure VP where
  n : ℕ
  X : ℕ → ℝ
  total : ℝ
  inert : ℝ
  ex : ℤ
  single : Bool
  phiIdx : Option ℕ
  phi : ℝ
  ind : ℕ → ℕ
  volt : ℕ → Bool
  ideal : Bool
  gas : Bool
  T : ℝ
  P : ℝ
  tpX : ℕ → ℝ
  creation : ℕ → ℝ
  up : Bool
  status : ℤ
  uAC : Bool
  uPM : Bool
  uGS : Bool
  ac : ℕ → ℝ
  pm : ℕ → ℝ
  gs : ℕ → ℝ
  vol : ℝ

/-- `VCS_PHASE_EXIST_ALWAYS` (vcs_defs.h:187) -/
abbrev ALWAYS : ℤ := 3
/-- `VCS_PHASE_EXIST_YES` (vcs_defs.h:190) -/
abbrev YES : ℤ := 2
/-- `VCS_PHASE_EXIST_NO` (vcs_defs.h:200) -/
abbrev NO : ℤ := 0
/-- `VCS_PHASE_EXIST_ZEROEDPHASE` (vcs_defs.h:206) -/
abbrev ZEROED : ℤ := -6
/-- `VCS_STATECALC_OLD` (vcs_defs.h:297) -/
abbrev OLD : ℤ := 0
/-- `VCS_STATECALC_TMP` (vcs_defs.h:308) -/
abbrev TMP : ℤ := 3

/-- `_updateMoleFractionDependencies`, lines 183-193. -/
def deps (s : VP) : VP := { s with tpX := s.X, uAC := s.uAC && s.ideal, uPM := s.uPM && s.ideal }

open Classical in
/-- `setMoleFractions`, lines 166-181. -/
noncomputable def setX (x : ℕ → ℝ) (s : VP) : VP :=
  let sum := -1 + ∑ k ∈ range s.n, x k
  { deps { s with X := if |sum| > 1 / 10 ^ 13 then fun k => x k / sum else x } with up := false, status := TMP }

open Classical in
/-- `setMoleFractionsState`, lines 205-253; `true` if no exception is thrown. -/
noncomputable def setFrac (tot : ℝ) (x : ℕ → ℝ) (st : ℤ) (s : VP) : VP × Bool :=
  if tot ≠ 0 ∧ st ≠ TMP then (s, false)
  else if tot ≠ 0 ∧ s.ex = ZEROED then ({ s with up := false, status := TMP }, false)
  else
    let s1 := if tot ≠ 0 then { s with up := false, status := TMP, ex := YES }
      else { s with up := true, status := st, ex := min s.ex NO }
    let s2 := { s1 with total := tot }
    if s.inert > 0 ∧ s.inert > tot then (s2, false)
    else
      let f := if s.inert > 0 then 1 - s.inert / tot else 1
      let sum := ∑ k ∈ range s.n, x k
      if sum = 0 then ({ s2 with X := x }, false)
      else (deps { s2 with X := if sum ≠ f then fun k => x k * (f / sum) else x }, true)

/-- `setElectricPotential`, lines 398-407. -/
def setPhi (phi : ℝ) (s : VP) : VP := { s with phi := phi, uAC := false, uPM := false, uGS := false }

/-- The moles of the species (lines 282-287). -/
noncomputable def molesOf (mol : ℕ → ℝ) (s : VP) : ℝ :=
  ∑ k ∈ range s.n, if s.volt k then 0 else max 0 (mol (s.ind k))

open Classical in
/-- The mole fractions set by `setMolesFromVCS` (lines 288-312). -/
noncomputable def molesX (mol : ℕ → ℝ) (s : VP) : ℕ → ℝ :=
  let tot := s.inert + molesOf mol s
  let x := if tot > 0 then
      fun k => if k < s.n ∧ s.volt k = false then max 0 (mol (s.ind k)) / tot else s.X k
    else s.X
  match s.phiIdx with
  | none => x
  | some q => Function.update x q (if s.n = 1 then 1 else 0)

open Classical in
/-- `setMolesFromVCS`, lines 255-334, with the mole numbers `mol` of the solver; the final values of the members. -/
noncomputable def setMoles (st : ℤ) (mol : ℕ → ℝ) (s : VP) : VP :=
  { s with
    total := s.inert + molesOf mol s
    X := molesX mol s
    tpX := molesX mol s
    ex := if s.inert > 0 then ALWAYS
      else if s.phiIdx.isSome = true ∧ s.n = 1 then YES
      else if s.inert + molesOf mol s > 0 then YES else NO
    phi := match s.phiIdx with
      | none => s.phi
      | some q => mol (s.ind q)
    uAC := s.uAC && s.phiIdx.isNone && s.ideal
    uPM := s.uPM && s.phiIdx.isNone && s.ideal
    uGS := s.uGS && s.phiIdx.isNone
    creation := if st = OLD ∧ s.inert + molesOf mol s > 0 then molesX mol s else s.creation
    up := true
    status := st }

open Classical in
/-- `vcs_doubleEqual` (vcs_util.cpp:89-97) -/
noncomputable def doubleEqual (a b : ℝ) : Bool := if |a - b| / (|a| + |b| + 1) > 1 / 10 ^ 10 then false else true

open Classical in
/-- `setMolesFromVCSCheck`, lines 336-352, with the moles of the phase known to the solver. -/
noncomputable def setMolesCheck (st : ℤ) (mol : ℕ → ℝ) (tp : ℝ) (s : VP) : VP × Bool :=
  (setMoles st mol s, if tp ≠ (setMoles st mol s).total then doubleEqual tp (setMoles st mol s).total else true)

/-- `_updateActCoeff`, lines 128-136. -/
def updAC (tp : TP) (s : VP) : VP := { s with ac := if s.ideal then s.ac else tp.ac s.T s.P s.tpX, uAC := true }

open Classical in
/-- `_updateVolPM`, lines 449-468; `R` is the gas constant. -/
noncomputable def updPM (R : ℝ) (tp : TP) (s : VP) : VP × Bool :=
  let v := (∑ k ∈ range s.n, tp.pmVol s.T s.P s.tpX k * s.X k) * s.total
  let s1 := { s with pm := tp.pmVol s.T s.P s.tpX, vol := v }
  if s.inert > 0 then
    if s.gas then ({ s1 with vol := v + s.inert * R * s.T / s.P, uPM := true }, true) else (s1, false)
  else ({ s1 with uPM := true }, true)

/-- `sendToVCS_VolPM`, lines 375-385: the volume returned. -/
noncomputable def sendVol (R : ℝ) (tp : TP) (s : VP) : VP × Option ℝ :=
  if s.uPM then (s, some s.vol)
  else if (updPM R tp s).2 then ((updPM R tp s).1, some (updPM R tp s).1.vol) else ((updPM R tp s).1, none)

open Classical in
/-- `setState_TP`, lines 414-428. -/
noncomputable def setTP (T P : ℝ) (s : VP) : VP :=
  if s.T = T ∧ s.P = P then s else { s with T := T, P := P, uAC := false, uPM := false, uGS := false }

/-- `GStar_calc_one`, lines 152-164. -/
def gstar (tp : TP) (k : ℕ) (s : VP) : VP × ℝ :=
  if s.uGS then (s, s.gs k) else ({ s with gs := tp.gstar s.T s.P, uGS := true }, tp.gstar s.T s.P k)

/-- `setPtrThermoPhase`, lines 551-577, for a phase with the same number of species at `T`, `P`, `X` and `phi`. -/
noncomputable def setPtr (T P phi : ℝ) (X : ℕ → ℝ) (ideal : Bool) (s : VP) : VP :=
  let s1 := setTP T P { s with T := T, P := P }
  let s2 := deps { s1 with phi := phi, X := X, creation := X }
  { s2 with ideal := if s.n = 1 then true else ideal }

open Classical in
/-- The number of moles used by `_updateLnActCoeffJac` (lines 472-475). -/
noncomputable def jacMoles (s : VP) : ℝ := if s.total < 1 / 10 ^ 14 then 1 else s.total

open Classical in
/-- The derivatives (lines 484-494). -/
noncomputable def jacMat (tp : TP) (s : VP) (k j : ℕ) : ℝ :=
  let m := jacMoles s * s.X j
  let m' := if m < 1 / 10 ^ 200 then 1 / 10 ^ 7 * m + 1 / 10 ^ 13 * jacMoles s + 1 / 10 ^ 150 else m
  tp.dln s.T s.P s.tpX k j * jacMoles s / m'

/-- The state after `_updateLnActCoeffJac` (lines 496-532) with at least one species.  The differences of the loop are
not stored; it sets `v_totalMoles` and restores the mole fractions. -/
noncomputable def jacState (tp : TP) (s : VP) : VP :=
  updAC tp (deps (setX s.X { s with total := jacMoles s }))

open Classical in
/-- `setTotalMoles`, lines 610-630; `true` if no exception is thrown (the check is compiled in debug builds only). -/
noncomputable def setTotal (t : ℝ) (s : VP) : VP × Bool :=
  if s.inert > 0 then ({ s with total := t, ex := ALWAYS }, decide (t ≥ s.inert))
  else if s.single = true ∧ s.phiIdx = some 0 then ({ s with total := t, ex := ALWAYS }, true)
  else ({ s with total := t, ex := if t > 0 then YES else NO }, true)

open Classical in
/-- `setExistence`, lines 675-693. -/
noncomputable def setExistence (e : ℤ) (s : VP) : Outcome VP :=
  if (e = NO ∨ e = ZEROED) ∧ s.total ≠ 0 then .throw
  else if ¬(e = NO ∨ e = ZEROED) ∧ s.inert = 0 ∧ s.total = 0 ∧ (s.single = false ∨ s.phiIdx ≠ some 0) then .throw
  else if s.single = true ∧ s.phiIdx = some 0 ∧ (e = NO ∨ e = ZEROED) then .throw
  else .ok { s with ex := e }

open Classical in
/-- `setTotalMolesInert`, lines 709-732. -/
noncomputable def setInert (m : ℝ) (s : VP) : VP :=
  let t := if s.inert ≠ m then s.total + (m - s.inert) else s.total
  { s with
    up := s.up && decide (s.inert = m)
    uAC := s.uAC && decide (s.inert = m)
    uPM := s.uPM && decide (s.inert = m)
    uGS := s.uGS && decide (s.inert = m)
    total := t
    inert := m
    ex := if m > 0 then ALWAYS
      else if s.single = true ∧ s.phiIdx = some 0 then ALWAYS
      else if t > 0 then YES else NO }

/-! ## Elements -/

/-- What `transferElementsFM` reads: numbers of elements and species, charges, atoms, the index of the last element
named `E`, and whether the phase requires charge neutrality. -/
structure Elems where
  ne : ℕ
  ns : ℕ
  charge : ℕ → ℝ
  atoms : ℕ → ℕ → ℝ
  iE : Option ℕ
  need : Bool

open Classical in
/-- `hasChargedSpecies`, lines 763-771. -/
noncomputable def charged (a : Elems) : Bool := (List.range a.ns).any (fun k => decide (a.charge k ≠ 0))

/-- `chargeNeutralityElement`, lines 777-784. -/
noncomputable def neutral (a : Elems) : Bool := a.need && charged a

/-- `transferElementsFM`, lines 786-888: the number of constraints, the formula matrix and the active flags.  Without an
element `E` entries behind the end of `m_elementType` and `m_elementNames` are written (lines 833, 836). -/
noncomputable def transfer (a : Elems) : Outcome (ℕ × (ℕ → ℕ → ℝ) × (ℕ → Bool)) :=
  let ne := if neutral a then a.ne + 1 else a.ne
  if charged a then
    match a.iE with
    | none => .ub
    | some e => .ok (ne, fun k i =>
        if neutral a = true ∧ i = a.ne then a.charge k
        else if i = e then -a.charge k
        else if i < a.ne then a.atoms k i else 0, fun i => !(neutral a && decide (i = e)))
  else .ok (ne, fun k i => if i < a.ne then a.atoms k i else 0, fun _ => true)

end Verif.VolPhase
