import Verif.Kinetics.Props

/-!
# Model of BulkKinetics::calculateCompositionDerivatives (C43)

Sources: src/kinetics/BulkKinetics.cpp:158-165, 387-455, 653-693,
include/cantera/kinetics/MultiRate.h:124-154, src/kinetics/Falloff.cpp:57-79,
include/cantera/kinetics/ThirdBodyCalc.h:97-100.

Simplifications: the evaluators whose data type has `perturbThirdBodies` (only `FalloffData`) are
represented by the list of their reactions with the rate constant as a function of the third-body
concentration at the current temperature; sparse matrices are functions of row and column.
-/

namespace Verif.Kinetics

open Verif Verif.Stoich

/-- Derivative settings (BulkKinetics.cpp:270-282). -/
structure JacSettings where
  skipThird : Bool
  skipFalloff : Bool
  delta : ℝ

/-- One iteration of the loop of `processRateConstants_ddM` (MultiRate.h:132-140) for a data type
with `perturbThirdBodies`; `conc_3b` is the perturbed value (Falloff.cpp:64-66). -/
noncomputable def ddMStep (kf concm : Vec) (δ : ℝ) (rop : Vec) (f : ℕ × (ℝ → ℝ)) : Vec :=
  let c3b := concm f.1 * (1 + δ)
  Function.update rop f.1
    (if kf f.1 ≠ 0 ∧ c3b > 0 then rop f.1 * (1 / δ * (f.2 c3b / kf f.1 - 1)) / c3b else 0)

/-- `processRateConstants_ddM(rop, kf, delta, false)` over all evaluators (BulkKinetics.cpp:683-687);
types without `perturbThirdBodies` return at once (MultiRate.h:146-149). -/
noncomputable def processDdM (fall : List (ℕ × (ℝ → ℝ))) (kf concm : Vec) (δ : ℝ) (rop : Vec) : Vec :=
  fall.foldl (ddMStep kf concm δ) rop

/-- `getFwdRateConstants` after `updateROP` (BulkKinetics.cpp:158-165). -/
noncomputable def Kin.getFwdRateConstants (K : Kin) (R : Rop) (legacy : Bool) : Outcome Vec :=
  if legacy then K.processThirdBodies R.concm R.rfn else .ok R.rfn

/-- BulkKinetics.cpp:653-693 -/
noncomputable def Kin.compositionDerivatives (K : Kin) (m : Mgr) (inp act : Vec) (ctot : ℝ)
    (R : Rop) (fall : List (ℕ × (ℝ → ℝ))) (s : JacSettings) (ddX : Bool) : Outcome Jac := do
  let scaled : Vec := if ddX then (fun i => if i < K.n then inp i * ctot else inp i) else inp
  let outV ← K.processThirdBodies R.concm scaled
  let out := m.derivatives act outV
  if s.skipThird ∨ K.tb.entries = [] then pure out
  else
    let outV := m.multiply act scaled
    let outV := if s.skipFalloff then outV else processDdM fall R.rfn R.concm s.delta outV
    pure (fun i k => out i k + outV i * K.tb.multiplier i k)

/-- `fwdRatesOfProgress_ddX`, `fwdRatesOfProgress_ddCi` (BulkKinetics.cpp:387-395, 422-430). -/
noncomputable def Kin.fwdJac (K : Kin) (e : Env) (R : Rop) (legacy : Bool)
    (fall : List (ℕ × (ℝ → ℝ))) (s : JacSettings) (ddX : Bool) : Outcome Jac := do
  let k ← K.getFwdRateConstants R legacy
  K.compositionDerivatives K.reac k e.actConc e.ctot R fall s ddX

/-- `revRatesOfProgress_ddX`, `revRatesOfProgress_ddCi` (BulkKinetics.cpp:397-406, 432-441). -/
noncomputable def Kin.revJac (K : Kin) (e : Env) (R : Rop) (legacy : Bool)
    (fall : List (ℕ × (ℝ → ℝ))) (s : JacSettings) (ddX : Bool) : Outcome Jac := do
  let k ← K.getFwdRateConstants R legacy
  K.compositionDerivatives K.revProd (K.applyEquilibriumConstants R.rkcn k) e.actConc e.ctot R fall s ddX

/-- `netRatesOfProgress_ddX`, `netRatesOfProgress_ddCi` (BulkKinetics.cpp:408-420, 443-455). -/
noncomputable def Kin.netJac (K : Kin) (e : Env) (R : Rop) (legacy : Bool)
    (fall : List (ℕ × (ℝ → ℝ))) (s : JacSettings) (ddX : Bool) : Outcome Jac := do
  let k ← K.getFwdRateConstants R legacy
  let f ← K.compositionDerivatives K.reac k e.actConc e.ctot R fall s ddX
  let r ← K.compositionDerivatives K.revProd (K.applyEquilibriumConstants R.rkcn k) e.actConc e.ctot
    R fall s ddX
  pure (fun i j => f i j - r i j)

end Verif.Kinetics
