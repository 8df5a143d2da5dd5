import Verif.Kinetics.Props

/-!
# Model of InterfaceKinetics (C57, C58, C61)

Source: src/kinetics/InterfaceKinetics.cpp (lines cited below), on top of the model of `Kinetics::addReaction`
and the stoichiometry managers in `Verif.Kinetics.Model`.

Simplifications: species names are resolved to global indices; `phOf` is `speciesPhaseIndex` (its
correctness is C09); the evaluators of the rate constants are represented by the vector `rfn` they
fill (their dispatch is C42, their values are C59 and C60); the members `dn` and `tb` of `Kin` are not part of
an `InterfaceKinetics` and are not read; the flag `m_ROP_ok` is cleared by `_update_rates_C` (l. 108)
in every call of `updateROP`, hence every call is a full evaluation; `m_phi` always equals the
potentials of the phases after `_update_rates_phi` (l. 81-90).
-/

namespace Verif.Kinetics.Interface

open Verif Verif.Stoich Verif.Kinetics

/-- `Faraday` (include/cantera/base/ct_defs.h:81, 90, 131). -/
noncomputable def faraday : ℝ := 1.602176634e-19 * 6.02214076e26

/-- What the object reads from one phase. -/
structure IPhase where
  /-- `nSpecies()` -/
  n : ℕ
  /-- `electricPotential()` -/
  phi : ℝ
  /-- `charge(k)` -/
  charge : ℕ → ℝ
  /-- `getStandardChemPotentials` -/
  mu0 : ℕ → ℝ
  /-- `logStandardConc(k)` -/
  logc0 : ℕ → ℝ
  /-- `getActivityConcentrations` -/
  act : ℕ → ℝ

/-- `m_start[n]` (Kinetics.cpp:601-611). -/
def startAt (ps : List IPhase) (n : ℕ) : ℕ := ((ps.take n).map (·.n)).sum

/-- `m_kk` (Kinetics.cpp:601-611). -/
def total (ps : List IPhase) : ℕ := (ps.map (·.n)).sum

/-- The loops `thermo(n).getX(v.data() + m_start[n])` (l. 94-107, 157, 287-289, 303-305): the getter of
phase `n` writes its `nSpecies` entries from `m_start[n]` on. -/
def gather (ps : List IPhase) (f : IPhase → ℕ → ℝ) (old : Vec) : Vec :=
  ps.zipIdx.foldl (fun v q => fun j =>
    if startAt ps q.2 ≤ j ∧ j < startAt ps q.2 + q.1.n then f q.1 (j - startAt ps q.2) else v j) old

/-- Inner loop of `updateMu0` (l. 158-162) on the counter `ik` and `m_mu0_Kc`. -/
noncomputable def muStep (RT : ℝ) (mu0 : Vec) (p : IPhase) (s : ℕ × Vec) (k : ℕ) : ℕ × Vec :=
  (s.1 + 1, Function.update s.2 s.1
    (mu0 s.1 + faraday * p.phi * p.charge k - RT * p.logc0 k))

/-- `updateMu0` (l. 148-164): the resulting `m_mu0_Kc`. -/
noncomputable def muKc (ps : List IPhase) (RT : ℝ) (old : Vec) : Vec :=
  (ps.foldl (fun s p => (List.range p.n).foldl (muStep RT (gather ps IPhase.mu0 old) p) s)
    (0, old)).2

/-- State of the object relevant here (InterfaceKinetics.h:418-497). -/
structure IK where
  K : Kin
  /-- `nPhases()` -/
  np : ℕ
  isReac : ℕ → ℕ → Bool
  isProd : ℕ → ℕ → Bool
  ex : ℕ → Bool
  st : ℕ → Bool
  check : ℤ

/-- New object with `np` phases (l. 487-492, InterfaceKinetics.h:440). -/
def IK.new (np : ℕ) : IK :=
  ⟨Kin.empty, np, fun _ _ => false, fun _ _ => false, fun _ => true, fun _ => true, 0⟩

/-- Rows of `m_rxnPhaseIsReactant`, `m_rxnPhaseIsProduct` (l. 398-410). -/
def phaseRow (phOf : ℕ → ℕ) (l : List (ℕ × ℝ)) : ℕ → Bool :=
  l.foldl (fun row x => Function.update row (phOf x.1) true) (fun _ => false)

/-- `InterfaceKinetics::addReaction` (l. 380-410). -/
noncomputable def IK.addReaction (phOf : ℕ → ℕ) (I : IK) (r : Rxn) : Outcome IK := do
  let K ← I.K.addReaction r
  pure { I with
    K := K
    isReac := Function.update I.isReac I.K.n (phaseRow phOf r.reactants)
    isProd := Function.update I.isProd I.K.n (phaseRow phOf r.products) }

/-- A sequence of `addReaction` calls. -/
noncomputable def IK.addAll (phOf : ℕ → ℕ) (I : IK) : List Rxn → Outcome IK
  | [] => .ok I
  | r :: rs => I.addReaction phOf r >>= fun I => I.addAll phOf rs

/-- `setPhaseExistence` (l. 548-565). -/
def IK.setPhaseExistence (I : IK) (p : ℕ) (e : Bool) : Outcome IK :=
  if I.np ≤ p then .throw
  else if e then
    .ok { I with
      check := if I.ex p = false then max (I.check - 1) 0 else I.check
      ex := if I.ex p = false then Function.update I.ex p true else I.ex
      st := Function.update I.st p true }
  else
    .ok { I with
      check := if I.ex p = true then I.check + 1 else I.check
      ex := if I.ex p = true then Function.update I.ex p false else I.ex
      st := Function.update I.st p false }

/-- `setPhaseStability` (l. 579-587). -/
def IK.setPhaseStability (I : IK) (p : ℕ) (s : Bool) : Outcome IK :=
  if I.np ≤ p then .throw else .ok { I with st := Function.update I.st p s }

/-- `updateKc` (l. 117-146) for given `m_mu0_Kc`. -/
noncomputable def Kin.rkcnI (K : Kin) (RT : ℝ) (mu : Vec) : Outcome Vec :=
  if K.revindex.length > 0 then do
    let rrt := 1 / RT
    let v := K.getRevReactionDelta mu
    let v ← K.revindex.foldlM (fun (v : Vec) i =>
      if K.n ≤ i then Outcome.throw else .ok (Function.update v i (Real.exp (v i * rrt)))) v
    pure (K.irrev.foldl (fun v i => Function.update v i 0) v)
  else .ok (fun _ => 0)

/-- `getEquilibriumConstants` (l. 166-175) for given `m_mu0_Kc`. -/
noncomputable def Kin.kcI (K : Kin) (RT : ℝ) (mu : Vec) : Vec :=
  fun i => Real.exp (-(K.getReactionDelta mu i) * (1 / RT))

/-- Rates of one reaction. -/
@[ext] structure Tri where
  f : ℝ
  r : ℝ
  net : ℝ

/-- Innermost loops l. 245-250 and 264-269: `q` is the table of the opposite side. -/
noncomputable def wipe (np : ℕ) (ex q : ℕ → Bool) (t : Tri) : Tri :=
  (List.range np).foldl (fun t rp => if q rp && !ex rp then ⟨0, 0, 0⟩ else t) t

/-- One pass of the loop over phases for a reaction running backwards (l. 241-256). -/
noncomputable def backStep (np : ℕ) (ex st isR isP : ℕ → Bool) (t : Tri) (p : ℕ) : Tri :=
  let t := if isP p && !ex p then
      let t : Tri := ⟨t.f, t.f, 0⟩
      if 0 < t.f then wipe np ex isR t else t
    else t
  if isR p && !st p then ⟨t.f, t.f, 0⟩ else t

/-- One pass of the loop over phases for a reaction running forwards (l. 260-275). -/
noncomputable def fwdStep (np : ℕ) (ex st isR isP : ℕ → Bool) (t : Tri) (p : ℕ) : Tri :=
  let t := if isR p && !ex p then
      let t : Tri := ⟨t.r, t.r, 0⟩
      if 0 < t.f then wipe np ex isP t else t
    else t
  if isP p && !st p then ⟨t.r, t.r, 0⟩ else t

/-- Body of the loop over reactions (l. 238-278). -/
noncomputable def exist (np : ℕ) (ex st isR isP : ℕ → Bool) (t : Tri) : Tri :=
  if t.r > t.f ∧ t.r > 0 then (List.range np).foldl (backStep np ex st isR isP) t
  else if t.f > t.r ∧ t.f > 0 then (List.range np).foldl (fwdStep np ex st isR isP) t
  else t

/-- Vectors computed by `updateROP`. -/
structure IRop where
  rkcn : Vec
  ropf : Vec
  ropr : Vec
  ropnet : Vec

/-- `updateROP` (l. 201-281); `rfn` are the rate constants, `mu` is `m_mu0_Kc`, `act` is `m_actConc`. -/
noncomputable def IK.updateROP (I : IK) (RT : ℝ) (mu act rfn perturb : Vec) : Outcome IRop := do
  let rkcn ← Kin.rkcnI I.K RT mu
  let ropf : Vec := fun i => rfn i * perturb i
  let ropr : Vec := fun i => ropf i * rkcn i
  let ropf := I.K.reac.multiply act ropf
  let ropr := I.K.revProd.multiply act ropr
  let t := fun j : ℕ =>
    let t : Tri := ⟨ropf j, ropr j, ropf j - ropr j⟩
    if I.check ≠ 0 then exist I.np I.ex I.st (I.isReac j) (I.isProd j) t else t
  pure ⟨rkcn, fun j => (t j).f, fun j => (t j).r, fun j => (t j).net⟩

/-- `getFwdRateConstants` (l. 177-184). -/
def fwdConst (rfn perturb : Vec) : Vec := fun i => rfn i * perturb i

/-- `getRevRateConstants` (l. 186-199). -/
noncomputable def IK.revConst (I : IK) (RT : ℝ) (mu rfn perturb : Vec) (R : IRop) (all : Bool) : Vec :=
  if all then fun i => fwdConst rfn perturb i / Kin.kcI I.K RT mu i
  else fun i => fwdConst rfn perturb i * R.rkcn i

/-- `interfaceCurrent` (l. 589-604) from the net production rates; `thermo(iphase)` does not check the
phase index (Kinetics.h:239-241). -/
noncomputable def IK.interfaceCurrent (I : IK) (ps : List IPhase) (R : IRop) (p : ℕ) : Outcome ℝ :=
  match ps[p]? with
  | none => .ub
  | some ph => .ok ((List.range ph.n).foldl (fun s k =>
      s + ph.charge k * I.K.getNetProductionRates R.ropnet (startAt ps p + k)) 0 * faraday)

/-- Calls changing the phase flags. -/
inductive POp where
  | existence (p : ℕ) (e : Bool)
  | stability (p : ℕ) (s : Bool)

/-- One call; a throwing call leaves the object unchanged (`checkPhaseIndex` comes first). -/
def IK.step (I : IK) : POp → IK
  | .existence p e => match I.setPhaseExistence p e with
    | .ok J => J
    | _ => I
  | .stability p s => match I.setPhaseStability p s with
    | .ok J => J
    | _ => I

def IK.run (I : IK) (ops : List POp) : IK := ops.foldl IK.step I

end Verif.Kinetics.Interface
