import Verif.Kinetics.JacProps

/-!
# Model of the temperature, pressure and molar-density derivatives of rates (C56)

Sources: src/kinetics/BulkKinetics.cpp:284-385, 457-484, 565-651,
include/cantera/kinetics/MultiRate.h:74-154, ThirdBodyCalc.h:103-121, StoichManager.h:170-173, 237-240,
312-315, 392-402, 429-432, 795-801, src/thermo/IdealGasPhase.cpp:46-65.

Simplifications: each evaluator is represented by the list of its reactions; an evaluator whose rate type
has `ddTScaledFromStruct` gives the value of that function, all others the rate constant as a function
of temperature (pressure, third-body concentration) with everything else unchanged.  That perturbing and
restoring the shared data leaves the evaluator as it was is C22, C23 and C42.
-/

namespace Verif.Stoich

open Verif

/-- `C1::scale`, `C2::scale`, `C3::scale`, `C_AnyN::scale` (StoichManager.h:170-173, 237-240, 312-315,
429-432); `m_sum_order` is computed by `resizeCoeffs` (392-402). -/
noncomputable def C1.scale (c : C1) (R : Vec) (factor : ℝ) (out : Vec) : Vec :=
  Function.update out c.rxn (R c.rxn * factor)
noncomputable def C2.scale (c : C2) (R : Vec) (factor : ℝ) (out : Vec) : Vec :=
  Function.update out c.rxn (2 * R c.rxn * factor)
noncomputable def C3.scale (c : C3) (R : Vec) (factor : ℝ) (out : Vec) : Vec :=
  Function.update out c.rxn (3 * R c.rxn * factor)
noncomputable def CN.sumOrder (c : CN) : ℝ := c.parts.foldl (fun s p => s + p.order) 0
noncomputable def CN.scale (c : CN) (R : Vec) (factor : ℝ) (out : Vec) : Vec :=
  Function.update out c.rxn (c.sumOrder * R c.rxn * factor)

/-- `StoichManagerN::scale` (StoichManager.h:795-801). -/
noncomputable def Mgr.scale (m : Mgr) (R out : Vec) (factor : ℝ) : Vec :=
  let out := m.c1.foldl (fun out c => c.scale R factor out) out
  let out := m.c2.foldl (fun out c => c.scale R factor out) out
  let out := m.c3.foldl (fun out c => c.scale R factor out) out
  m.cn.foldl (fun out c => c.scale R factor out) out

end Verif.Stoich

namespace Verif.Kinetics

open Verif Verif.Stoich

/-- What the evaluator of a reaction offers for the temperature derivative. -/
inductive DT where
  /-- `ddTScaledFromStruct` (MultiRate.h:76-79) -/
  | analytic (s : ℝ)
  /-- the rate constant as a function of temperature -/
  | numeric (f : ℝ → ℝ)

open Classical in
/-- One iteration of `processRateConstants_ddT` (MultiRate.h:76-96). -/
noncomputable def ddTStep (kf : Vec) (T δ : ℝ) (rop : Vec) (e : ℕ × DT) : Vec :=
  match e.2 with
  | .analytic s => mulAt rop e.1 s
  | .numeric f =>
    if kf e.1 ≠ 0 then mulAt rop e.1 (1 / (T * δ) * (f (T * (1 + δ)) / kf e.1 - 1)) else rop

/-- `BulkKinetics::process_ddT` (BulkKinetics.cpp:600-607). -/
noncomputable def processDdT (evs : List (ℕ × DT)) (kf : Vec) (T δ : ℝ) (inp : Vec) : Vec :=
  evs.foldl (ddTStep kf T δ) inp

open Classical in
/-- One iteration of `processRateConstants_ddP` (MultiRate.h:99-122); `none` for a data type without
`perturbPressure`. -/
noncomputable def ddPStep (kf : Vec) (P δ : ℝ) (rop : Vec) (e : ℕ × Option (ℝ → ℝ)) : Vec :=
  match e.2 with
  | some f =>
    if kf e.1 ≠ 0 then mulAt rop e.1 (1 / (P * δ) * (f (P * (1 + δ)) / kf e.1 - 1)) else rop
  | none => Function.update rop e.1 0

/-- `BulkKinetics::process_ddP` (BulkKinetics.cpp:609-616). -/
noncomputable def processDdP (evs : List (ℕ × Option (ℝ → ℝ))) (kf : Vec) (P δ : ℝ) (inp : Vec) : Vec :=
  evs.foldl (ddPStep kf P δ) inp

/-- One iteration of `processRateConstants_ddM` with `overwrite = true` (MultiRate.h:124-154); `none` for
a data type without `perturbThirdBodies`. -/
noncomputable def ddMStepO (kf concm : Vec) (δ : ℝ) (rop : Vec) (e : ℕ × Option (ℝ → ℝ)) : Vec :=
  match e.2 with
  | some f => ddMStep kf concm δ rop (e.1, f)
  | none => Function.update rop e.1 0

/-- `ThirdBodyCalc::scale` (ThirdBodyCalc.h:103-109). -/
noncomputable def TBCalc.scale (t : TBCalc) (inp out : Vec) (factor : ℝ) : Outcome Vec :=
  t.massIdx.foldlM (fun out j =>
    match t.rxnAt j with
    | some ix => .ok (Function.update out ix (factor * inp ix))
    | none => .ub) out

/-- `ThirdBodyCalc::scaleM` (ThirdBodyCalc.h:113-121). -/
noncomputable def TBCalc.scaleM (t : TBCalc) (inp out concm : Vec) (factor : ℝ) : Outcome Vec :=
  t.noMassIdx.foldlM (fun out j =>
    match t.rxnAt j with
    | some ix => .ok (Function.update out ix (factor * concm ix * inp ix))
    | none => .ub) out

/-- `BulkKinetics::process_ddC` (BulkKinetics.cpp:618-651); `buf` is the old content of `m_rbuf1`. -/
noncomputable def Kin.processDdC (K : Kin) (m : Mgr) (inp concm kf buf : Vec) (ctot : ℝ)
    (evs : List (ℕ × Option (ℝ → ℝ))) (s : JacSettings) (massAction : Bool) : Outcome Vec := do
  let out : Vec := fun _ => 0
  let cinv := 1 / ctot
  let out := if massAction then m.scale inp out cinv else out
  if s.skipThird ∨ K.tb.entries = [] then pure out
  else
    let outM ← if massAction then K.tb.scale inp (fun _ => 0) cinv else pure buf
    let out : Vec := if massAction then (fun i => out i + outM i) else out
    if s.skipFalloff then pure out
    else
      let outM ← K.tb.scaleM inp outM concm cinv
      let outM := evs.foldl (ddMStepO kf concm s.delta) outM
      pure (fun i => out i + outM i)

/-- `applyEquilibriumConstants_ddT` (BulkKinetics.cpp:565-598) given the stored and the perturbed Gibbs
energies of reaction. -/
noncomputable def Kin.applyEqDdT (K : Kin) (T RT δ : ℝ) (dg0 dg1 drkcn : Vec) : Vec :=
  let rrt := 1 / RT
  let Tinv := 1 / T
  let v := K.revindex.foldl (fun v i =>
    mulAt v i ((dg1 i - dg0 i) * (rrt * Tinv / δ) + (K.dn i * Tinv - dg0 i * (rrt * Tinv)))) drkcn
  K.irrev.foldl (fun v i => Function.update v i 0) v

/-- `getFwdRatesOfProgress_ddT`, `getRevRatesOfProgress_ddT`, `getNetRatesOfProgress_ddT` after
`updateROP` (BulkKinetics.cpp:291-324). -/
noncomputable def Kin.fwdDdT (R : Rop) (evs : List (ℕ × DT)) (T δ : ℝ) : Vec :=
  processDdT evs R.rfn T δ R.ropf
noncomputable def Kin.revDdT (K : Kin) (R : Rop) (evs : List (ℕ × DT)) (T RT δ : ℝ) (dg0 dg1 : Vec) : Vec :=
  fun i => processDdT evs R.rfn T δ R.ropr i + K.applyEqDdT T RT δ dg0 dg1 R.ropr i
noncomputable def Kin.netDdT (K : Kin) (R : Rop) (evs : List (ℕ × DT)) (T RT δ : ℝ) (dg0 dg1 : Vec) : Vec :=
  fun i => processDdT evs R.rfn T δ R.ropnet i - K.applyEqDdT T RT δ dg0 dg1 R.ropr i

/-- `m_delta_gibbs0`, `m_rkcn` and the state they were computed for (`CachedScalar last`,
BulkKinetics.cpp:459-484). -/
structure EqCache where
  state : Option (ℝ × ℝ)
  dg0 : Vec
  rkcn : Vec

open Classical in
/-- BulkKinetics.cpp:465-484: recomputed only for a new temperature or density. -/
noncomputable def Kin.updateEq (K : Kin) (e : Env) (T rho : ℝ) (c : EqCache) : EqCache :=
  if c.state ≠ some (T, rho) then ⟨some (T, rho), K.getRevReactionDelta e.mu0, K.rkcn e c.rkcn⟩ else c

/-- An ideal gas: reference Gibbs energies, reference pressure, gas constant, multipliers and rate laws
as functions of temperature, pressure and the reaction's third-body concentration. -/
structure TGas where
  nsp : ℕ
  g : ℕ → ℝ → ℝ
  P0 : ℝ
  R : ℝ
  perturb : ℕ → ℝ
  law : ℕ → ℝ → ℝ → ℝ → ℝ

/-- Third-body concentration of reaction `i`. -/
noncomputable def TGas.M (g : TGas) (rs : List Rxn) (i : ℕ) (c : ℕ → ℝ) : ℝ :=
  match (rs[i]?).bind (·.thirdBody) with
  | some b => b.conc g.nsp c
  | none => 0

/-- What `updateROP` reads from an ideal gas (IdealGasPhase.cpp:46-65); temperature, pressure and
concentrations are independent, as for the derivatives. -/
noncomputable def TGas.env (g : TGas) (rs : List Rxn) (T P : ℝ) (c : ℕ → ℝ) : Env where
  mu0 := fun k => g.g k T + Real.log (P / g.P0) * (g.R * T)
  RT := g.R * T
  c0 := P / (g.R * T)
  actConc := c
  physConc := c
  ctot := ∑ k ∈ Finset.range g.nsp, c k
  kf0 := fun i => g.law i T P (g.M rs i c)
  perturb := g.perturb

end Verif.Kinetics
