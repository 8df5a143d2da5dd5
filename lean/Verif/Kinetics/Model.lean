import Verif.Stoich.Props
import Mathlib.Analysis.SpecialFunctions.Log.Basic

/-!
# Model of Kinetics::addReaction, the species rate functions and BulkKinetics::updateROP

Sources: src/kinetics/Kinetics.cpp, src/kinetics/BulkKinetics.cpp,
include/cantera/kinetics/ThirdBodyCalc.h.

Simplifications: species names are already resolved to kinetics species indices (the lookups
`kineticsSpeciesIndex(name)` of Kinetics.cpp:645,650,659); `std::map` iteration is a list with distinct keys;
the rate evaluators are represented by the rate constants `kf0` they return; the caching of
`updateROP` is the subject of `Verif/RopCache`; here `updateROP` is one full evaluation.
-/

namespace Verif.Kinetics

open Verif Verif.Stoich

/-- `Reaction::thirdBody()` after name resolution (BulkKinetics.cpp:73-91): efficiencies by species
index, default efficiency, and the mass-action flag. -/
structure ThirdBody where
  eff : List (ℕ × ℝ)
  dflt : ℝ
  massAction : Bool

/-- The parts of `Reaction` used by `addReaction` (include/cantera/kinetics/Reaction.h). -/
structure Rxn where
  reactants : List (ℕ × ℝ)
  products : List (ℕ × ℝ)
  orders : List (ℕ × ℝ)
  reversible : Bool
  thirdBody : Option ThirdBody

/-- Local vectors `rk, rstoich, rorder` of `Kinetics::addReaction`. -/
structure RVecs where
  rk : List ℕ
  rstoich : List ℝ
  rorder : List ℝ

/-- Body of the loop over `r->orders` (Kinetics.cpp:658-673). -/
noncomputable def RVecs.setOrder (v : RVecs) (o : ℕ × ℝ) : RVecs :=
  if o.1 ∈ v.rk then { v with rorder := v.rorder.set (v.rk.idxOf o.1) o.2 }
  else ⟨v.rk ++ [o.1], v.rstoich ++ [0], v.rorder ++ [o.2]⟩

/-- Kinetics.cpp:644-647 and 657-673. -/
noncomputable def Rxn.rvecs (r : Rxn) : RVecs :=
  r.orders.foldl RVecs.setOrder
    ⟨r.reactants.map (·.1), r.reactants.map (·.2), r.reactants.map (·.2)⟩

/-- Arguments of `m_reactantStoich.add` (Kinetics.cpp:675). -/
noncomputable def Rxn.reactDecl (r : Rxn) (i : ℕ) : Decl :=
  ⟨i, r.rvecs.rk, r.rvecs.rorder, r.rvecs.rstoich⟩

/-- Arguments of `m_productStoich.add` (Kinetics.cpp:649-652, 677). -/
def Rxn.prodDecl (r : Rxn) (i : ℕ) : Decl :=
  ⟨i, r.products.map (·.1), r.products.map (·.2), r.products.map (·.2)⟩

/-- One installed third-body reaction: the parallel vectors `m_reaction_index`, `m_default`,
`m_species`, `m_eff` of ThirdBodyCalc.h:126-145 as one record. -/
structure TBEntry where
  rxn : ℕ
  dflt : ℝ
  eff : List (ℕ × ℝ)

/-- Class `ThirdBodyCalc` (ThirdBodyCalc.h:19-153); `massIdx`, `noMassIdx` are the index
vectors into the entries.  The sparse derivative multipliers are modelled by `multiplier` below. -/
structure TBCalc where
  entries : List TBEntry
  massIdx : List ℕ
  noMassIdx : List ℕ

/-- ThirdBodyCalc.h:23-44 -/
noncomputable def TBCalc.install (t : TBCalc) (rxn : ℕ) (b : ThirdBody) : TBCalc :=
  let es := t.entries ++ [⟨rxn, b.dflt, b.eff.map (fun e => (e.1, e.2 - b.dflt))⟩]
  if b.massAction then ⟨es, t.massIdx ++ [es.length - 1], t.noMassIdx⟩
  else ⟨es, t.massIdx, t.noMassIdx ++ [es.length - 1]⟩

/-- ThirdBodyCalc.h:75-83 -/
noncomputable def TBCalc.update (t : TBCalc) (conc : Vec) (ctot : ℝ) (concm : Vec) : Vec :=
  t.entries.foldl (fun concm e =>
    Function.update concm e.rxn
      (e.dflt * ctot + e.eff.foldl (fun sum x => sum + x.2 * conc x.1) 0)) concm

/-- `m_reaction_index[j]`; an index out of range would be undefined behaviour (excluded by
the invariant `TBCalc.Wf`). -/
def TBCalc.rxnAt (t : TBCalc) (j : ℕ) : Option ℕ := (t.entries[j]?).map (·.rxn)

/-- ThirdBodyCalc.h:86-91 -/
noncomputable def TBCalc.multiply (t : TBCalc) (concm out : Vec) : Outcome Vec :=
  t.massIdx.foldlM (fun out j =>
    match t.rxnAt j with
    | some ix => .ok (mulAt out ix (concm ix))
    | none => .ub) out

/-- Entry `(i, k)` of `m_multipliers` for `k < nSpc` (ThirdBodyCalc.h:47-72): summed triplets. -/
noncomputable def TBCalc.multiplier (t : TBCalc) (i k : ℕ) : ℝ :=
  (t.entries.map (fun e => if e.rxn = i then
    (e.eff.map (fun x => if x.1 = k then x.2 else 0)).sum + e.dflt else 0)).sum

/-- The state of a `BulkKinetics` relevant here. -/
structure Kin where
  n : ℕ
  reac : Mgr
  prod : Mgr
  revProd : Mgr
  dn : Vec
  revindex : List ℕ
  irrev : List ℕ
  tb : TBCalc

/-- Newly constructed object. -/
def Kin.empty : Kin := ⟨0, .empty, .empty, .empty, fun _ => 0, [], [], ⟨[], [], []⟩⟩

/-- `Kinetics::addReaction` from l. 635 on, followed by `BulkKinetics::addReaction`
(Kinetics.cpp:635-690, BulkKinetics.cpp:26-40, 64-66).  The checks before l. 635 are the subject
of `Verif/Reaction`. -/
noncomputable def Kin.addReaction (K : Kin) (r : Rxn) : Outcome Kin := do
  let reac ← K.reac.add (r.reactDecl K.n)
  let prod ← K.prod.add (r.prodDecl K.n)
  let revProd ← if r.reversible then K.revProd.add (r.prodDecl K.n) else pure K.revProd
  let dn := r.reactants.foldl (fun dn x => dn - x.2) (r.products.foldl (fun dn x => dn + x.2) 0)
  pure { n := K.n + 1
         reac := reac
         prod := prod
         revProd := revProd
         dn := Function.update K.dn K.n dn
         revindex := if r.reversible then K.revindex ++ [K.n] else K.revindex
         irrev := if r.reversible then K.irrev else K.irrev ++ [K.n]
         tb := match r.thirdBody with
           | some b => K.tb.install K.n b
           | none => K.tb }

/-- A sequence of `addReaction` calls. -/
noncomputable def Kin.addAll (K : Kin) : List Rxn → Outcome Kin
  | [] => .ok K
  | r :: rs => K.addReaction r >>= fun K => K.addAll rs

/-- Kinetics.cpp:362-369 -/
noncomputable def Kin.getReactionDelta (K : Kin) (prop : Vec) : Vec :=
  K.reac.decrementReactions prop (K.prod.incrementReactions prop (fun _ => 0))

/-- Kinetics.cpp:371-378 -/
noncomputable def Kin.getRevReactionDelta (K : Kin) (prop : Vec) : Vec :=
  K.reac.decrementReactions prop (K.revProd.incrementReactions prop (fun _ => 0))

/-- Kinetics.cpp:380-392, given the rates of progress. -/
noncomputable def Kin.getCreationRates (K : Kin) (ropf ropr : Vec) : Vec :=
  K.reac.incrementSpecies ropr (K.prod.incrementSpecies ropf (fun _ => 0))

/-- Kinetics.cpp:394-403 -/
noncomputable def Kin.getDestructionRates (K : Kin) (ropf ropr : Vec) : Vec :=
  K.reac.incrementSpecies ropf (K.revProd.incrementSpecies ropr (fun _ => 0))

/-- Kinetics.cpp:405-414 -/
noncomputable def Kin.getNetProductionRates (K : Kin) (ropnet : Vec) : Vec :=
  K.reac.decrementSpecies ropnet (K.prod.incrementSpecies ropnet (fun _ => 0))

/-- What `updateROP` reads from the thermo object and the rate evaluators. -/
structure Env where
  /-- standard chemical potentials (`getStandardChemPotentials`) -/
  mu0 : Vec
  /-- `thermo().RT()` -/
  RT : ℝ
  /-- `thermo().standardConcentration()` -/
  c0 : ℝ
  /-- activity concentrations -/
  actConc : Vec
  /-- concentrations -/
  physConc : Vec
  /-- molar density -/
  ctot : ℝ
  /-- `m_kf0`: rate constants returned by the evaluators -/
  kf0 : Vec
  /-- `m_perturb` -/
  perturb : Vec

/-- `BigNumber` (include/cantera/base/ct_defs.h:160). -/
def bigNumber : ℝ := 10 ^ 300

/-- Reciprocal equilibrium constants `m_rkcn` (BulkKinetics.cpp:465-484). -/
noncomputable def Kin.rkcn (K : Kin) (e : Env) (old : Vec) : Vec :=
  let dg := K.getRevReactionDelta e.mu0
  let logStandConc := Real.log e.c0
  let rrt := 1 / e.RT
  let v := K.revindex.foldl (fun v i =>
    Function.update v i (min (Real.exp (dg i * rrt - K.dn i * logStandConc)) bigNumber)) old
  K.irrev.foldl (fun v i => Function.update v i 0) v

/-- The rate vectors produced by `updateROP`. -/
structure Rop where
  rkcn : Vec
  concm : Vec
  rfn : Vec
  ropf : Vec
  ropr : Vec
  ropnet : Vec

/-- BulkKinetics.cpp:548-554 -/
noncomputable def Kin.processThirdBodies (K : Kin) (concm rop : Vec) : Outcome Vec :=
  K.tb.multiply concm rop

/-- BulkKinetics.cpp:556-563.  The loop over `i < nReactions()` is pointwise. -/
noncomputable def Kin.applyEquilibriumConstants (K : Kin) (rkcn rop : Vec) : Vec :=
  fun i => if i < K.n then rop i * rkcn i else rop i

/-- `BulkKinetics::updateROP` (BulkKinetics.cpp:457-540), one full evaluation (every cache
test fails).  `AssertFinite` is not modelled: the reals are finite. -/
noncomputable def Kin.updateROP (K : Kin) (e : Env) (oldRkcn oldConcm : Vec) : Outcome Rop := do
  let rkcn := K.rkcn e oldRkcn
  let concm := K.tb.update e.physConc e.ctot oldConcm
  let rfn : Vec := fun i => e.kf0 i * e.perturb i
  let ropf ← K.processThirdBodies concm rfn
  let ropr := ropf
  let ropf := K.reac.multiply e.actConc ropf
  let ropr := K.applyEquilibriumConstants rkcn ropr
  let ropr := K.revProd.multiply e.actConc ropr
  pure ⟨rkcn, concm, rfn, ropf, ropr, fun j => ropf j - ropr j⟩

end Verif.Kinetics
