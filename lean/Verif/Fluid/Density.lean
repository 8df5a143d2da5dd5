import Verif.Fluid.CubicSolver

/-!
# C67: density at given temperature and pressure

Sources: src/thermo/RedlichKwongMFTP.cpp (RK), src/thermo/PengRobinson.cpp (PR), src/thermo/MixtureFugacityTP.cpp (MF).

`densityCalc` and `liquidVolEst` have the same text in both classes and differ in the cubic equation only; the model takes
the solver as a function of the pressure. Composition and temperature are fixed, so the mixture parameters are numbers.
The density is represented by the molar volume chosen; the returned density is `mmw` over it, which is infinite for
volume zero.
-/

namespace Verif.Fluid.Solver

open Verif

/-- `RedlichKwongMFTP::solveCubic` (RK 857-876): coefficients. -/
noncomputable def rkCub (R T pres a b : ℝ) : Cub where
  an := 1
  bn := -R * T / pres
  cn := -(R * T * b / pres - a / (pres * Real.sqrt T) + b * b)
  dn := -(a * b / (pres * Real.sqrt T))

/-- `RedlichKwongMFTP::solveCubic` (RK 857-876); `oa`, `ob`, `ov` are the constants `omega_a`, `omega_b`, `omega_vc`. -/
noncomputable def rkSolve (oa ob ov R T a b pres : ℝ) : Outcome (ℤ × Roots) :=
  let tmp := a * ob / (b * oa * R)
  let tc := tmp ^ (2 / 3 : ℝ)
  let pc := ob * R * tc / b
  let vc := ov * R * tc / pc
  solveCubic R T pres b a (rkCub R T pres a b) tc vc

/-- `PengRobinson::solveCubic` (PR 763-781): coefficients; `aa` is `aAlpha`. -/
noncomputable def prCub (R T pres aa b : ℝ) : Cub :=
  let bsqr := b * b
  let RTp := R * T / pres
  let aap := aa / pres
  { an := 1
    bn := b - RTp
    cn := -(2 * RTp * b - aap + 3 * bsqr)
    dn := bsqr * RTp + bsqr * b - aap * b }

/-- `PengRobinson::solveCubic` (PR 763-781). -/
noncomputable def prSolve (oa ob ov R T a aa b pres : ℝ) : Outcome (ℤ × Roots) :=
  let tc := a * ob / (b * oa * R)
  let pc := ob * R * tc / b
  let vc := ov * R * tc / pc
  solveCubic R T pres b aa (prCub R T pres aa b) tc vc

/-- `psatEst` (MF 282-291). -/
noncomputable def psatEst (pcrit tcrit T : ℝ) : ℝ :=
  let tt := tcrit / T
  if tt < 1 then pcrit else pcrit * Real.exp (-0.8734 * tt * tt - 3.4522 * tt + 4.2918)

/-- The loop of `liquidVolEst` (RK 561-572, PR 494-505): volume and pressure at the end. The counter `m` is never
incremented, so that the number of passes is not limited; the model takes a number of passes, after which it is `ub`. -/
noncomputable def liqLoop (sol : ℝ → Outcome (ℤ × Roots)) (pc : ℝ) : ℕ → ℝ → Outcome (ℝ × ℝ)
  | 0, _ => .ub
  | n + 1, pres => do
    let (ns, r) ← sol pres
    if ns = 1 ∨ ns = 2 then
      if pres > pc then .ok (r.v0, pres * 1.04) else liqLoop sol pc n (pres * 1.04)
    else .ok (r.v0, pres)

/-- `liquidVolEst` (RK 551-581, PR 485-514): volume and new value of the reference argument `presGuess`. -/
noncomputable def liquidVolEst (sol : ℝ → Outcome (ℤ × Roots)) (fuel : ℕ) (pc psat presGuess : ℝ) :
    Outcome (ℝ × ℝ) := liqLoop sol pc fuel (max psat presGuess)

/-- Result of `densityCalc`: `mmw` over a volume, or a negative number as error code. -/
inductive Dens where
  | vol (v : ℝ)
  | code (c : ℤ)

/-- The end of `densityCalc` (RK 602-636, PR 535-572). Phases: gas -1, supercritical -2, undefined -3, liquid from 0
(MixtureFugacityTP.h 21-30). -/
noncomputable def pick (T tcrit : ℝ) (phase : ℤ) (volguess : ℝ) (ns : ℤ) (r : Roots) : Dens :=
  if ns ≥ 2 then
    if phase ≥ 0 then .vol r.v0
    else if phase = -1 ∨ phase = -2 then .vol r.v2
    else if volguess > r.v1 then .vol r.v2 else .vol r.v0
  else if ns = 1 then
    if phase = -1 ∨ phase = -2 ∨ phase = -3 then .vol r.v0 else .code (-2)
  else if ns = -1 then
    if phase ≥ 0 ∨ phase = -3 ∨ phase = -2 then .vol r.v0 else if T > tcrit then .vol r.v0 else .code (-2)
  else .code (-1)

/-- `densityCalc` (RK 583-636, PR 516-572). -/
noncomputable def densityCalc (sol : ℝ → Outcome (ℤ × Roots)) (fuel : ℕ) (R T mmw pc tcrit : ℝ) (pres : ℝ) (phase : ℤ)
    (rhoguess : ℝ) : Outcome Dens := do
  let (rg, p) ←
    if rhoguess = -1 then
      if phase ≥ 0 then do
        let (lqvol, p) ← liquidVolEst sol fuel pc (psatEst pc tcrit T) pres
        .ok (mmw / lqvol, p)
      else .ok (rhoguess, pres)
    else .ok (pres * mmw / (R * T), pres)
  let volguess := mmw / rg
  let (ns, r) ← sol p
  .ok (pick T tcrit phase volguess ns r)

/-- State of the phase: density, `none` for infinity, and `iState_`. -/
structure St where
  rho : Option ℝ
  istate : ℤ

/-- The density as a number, `none` for infinity. -/
noncomputable def Dens.rho (mmw : ℝ) : Dens → Option ℝ
  | .vol v => if v = 0 then none else some (mmw / v)
  | .code c => some c

/-- Comparison of a density with a number. -/
def gt : Option ℝ → ℝ → Prop
  | none, _ => True
  | some x, y => x > y

/-- `setDensity(rho); iState_ = phaseState(true)` (MF 200-201); `ph` is the phase at a density. -/
noncomputable def putRho (ph : Option ℝ → ℤ) (r : Option ℝ) : St := { rho := r, istate := ph r }

open Classical in
/-- `setPressure` (MF 187-249). `dens` is `densityCalc` of phase and guess. The result is the new state and whether the
call returns without exception. -/
noncomputable def setPressure (mmw : ℝ) (dens : ℤ → Option ℝ → Outcome Dens) (ph : Option ℝ → ℤ) (forced : ℤ) (s : St) :
    Outcome (St × Bool) := do
  if forced = -3 then
    let d ← dens s.istate s.rho
    if gt (d.rho mmw) 0 then .ok (putRho ph (d.rho mmw), true)
    else if ¬ gt (d.rho mmw) (-1.5) ∧ d.rho mmw ≠ some (-1.5) then
      let d ← dens (-3) s.rho
      if gt (d.rho mmw) 0 then .ok (putRho ph (d.rho mmw), true) else .ok (s, false)
    else .ok (s, false)
  else if forced = -1 then
    if s.istate < 0 then
      let d ← dens s.istate s.rho
      if gt (d.rho mmw) 0 then .ok (putRho ph (d.rho mmw), decide (¬ ph (d.rho mmw) ≥ 0)) else .ok (s, false)
    else .ok (s, true)
  else if forced > 0 then
    if s.istate ≥ 0 then
      let d ← dens s.istate s.rho
      if gt (d.rho mmw) 0 then .ok (putRho ph (d.rho mmw), decide (ph (d.rho mmw) ≠ -1)) else .ok (s, false)
    else .ok (s, true)
  else .ok (s, true)

end Verif.Fluid.Solver
