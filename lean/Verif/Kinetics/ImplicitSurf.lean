import Verif.Basic
import Mathlib.Algebra.BigOperators.Intervals
import Mathlib.Data.Real.Basic
import Mathlib.Tactic.Ring
import Mathlib.Tactic.Linarith
import Mathlib.Tactic.FieldSimp
import Mathlib.Tactic.NormNum

/-!
# C99: implicit integration of surface sites (src/kinetics/ImplicitSurfChem.cpp)

Arrays are functions `ℕ → ℝ` together with the lengths used by the loops.  The rates returned by
getNetProductionRates are an argument.  The bulk phases of the pseudo steady state problem are ideal
gases.
-/

namespace Verif.ISurf

open Verif

/-- What eval reads of one surface (ImplicitSurfChem.h:240-260): number of species, site density, sizes. -/
structure Surf where
  nsp : ℕ
  n0 : ℝ
  size : ℕ → ℝ

/-- `a[i] = v` -/
def put (a : ℕ → ℝ) (i : ℕ) (v : ℝ) : ℕ → ℝ := fun j => if j = i then v else a j

/-- One pass of the loop ImplicitSurfChem.cpp:167-170 for species `k`; the state is `ydot` and `sum`. -/
noncomputable def evalStep (f : Surf) (w : ℕ → ℝ) (loc k : ℕ) (s : (ℕ → ℝ) × ℝ) : (ℕ → ℝ) × ℝ :=
  let yd := put s.1 (k + loc) (w k * (1 / f.n0) * f.size k)
  (yd, s.2 - yd k)

/-- The loop ImplicitSurfChem.cpp:166-170 after `m` passes (species 1 … m). -/
noncomputable def evalLoop (f : Surf) (w : ℕ → ℝ) (loc : ℕ) (yd : ℕ → ℝ) : ℕ → (ℕ → ℝ) × ℝ
  | 0 => (yd, 0)
  | m + 1 => evalStep f w loc (m + 1) (evalLoop f w loc yd m)

/-- The body of the outer loop (ImplicitSurfChem.cpp:164-172) without `loc += m_nsp[n]`. -/
noncomputable def evalSurf (f : Surf) (w : ℕ → ℝ) (loc : ℕ) (yd : ℕ → ℝ) : ℕ → ℝ :=
  let r := evalLoop f w loc yd (f.nsp - 1)
  put r.1 loc r.2

/-- ImplicitSurfChem::eval (ImplicitSurfChem.cpp:159-174); each surface comes with its rates. -/
noncomputable def eval : List (Surf × (ℕ → ℝ)) → ℕ → (ℕ → ℝ) → ℕ → ℝ
  | [], _, yd => yd
  | (f, w) :: r, loc, yd => eval r (loc + f.nsp) (evalSurf f w loc yd)

/-- m_specStartIndex (ImplicitSurfChem.cpp:45-46), which is also `loc` of getState, updateState and eval. -/
def start : List ℕ → ℕ → ℕ
  | _, 0 => 0
  | [], _ + 1 => 0
  | a :: r, n + 1 => a + start r n

/-- Collection of the bulk phases (ImplicitSurfChem.cpp:50-60): phases are identified by numbers; the
result is m_bulkPhases and the row of pLocVec. -/
def addBulk : List ℕ → List ℕ → List ℕ × List ℕ
  | [], b => (b, [])
  | p :: r, b =>
    let b' := if p ∈ b then b else b ++ [p]
    let q := addBulk r b'
    (q.1, b'.idxOf p :: q.2)

/-- The constructor's loop over the kinetics objects (ImplicitSurfChem.cpp:31-62), each given by the
list of its phases after the surface; result m_bulkPhases and pLocVec (first entry minus the number of
the object). -/
def collect : List (List ℕ) → ℕ → List ℕ → List ℕ × List (List ℤ)
  | [], _, b => (b, [])
  | ps :: r, n, b =>
    let q := addBulk ps b
    let t := collect r (n + 1) q.1
    (t.1, (-(n : ℤ) :: q.2.map fun (i : ℕ) => (i : ℤ)) :: t.2)

/-- Integrator settings that integrate changes: the value passed last to setMaxStepSize
(ImplicitSurfChem.cpp:97-103, 124-142).  `ms` is m_maxstep, `cur` the limit in the integrator. -/
noncomputable def integrateLimit (ms t0 t1 cur : ℝ) : ℝ :=
  let c1 := if 0 < ms then ms else cur
  if |t1 - t0| < ms ∨ ms = 0 then t1 - t0 else c1

/-! ## Pseudo steady state -/

/-- A surface phase: temperature, stored pressure (SurfPhase.h:237-249) and concentrations. -/
structure SurfSt where
  T : ℝ
  P : ℝ
  c : List ℝ

/-- An ideal gas: temperature and concentrations. -/
structure GasSt where
  T : ℝ
  c : List ℝ

/-- All phases of the problem. -/
structure Sys where
  surf : List SurfSt
  gas : List GasSt

/-- GasConstant (include/cantera/base/ct_defs.h) -/
noncomputable def Rg : ℝ := 8314.46261815324

/-- Ideal gas pressure -/
noncomputable def GasSt.P (g : GasSt) : ℝ := g.c.sum * Rg * g.T

/-- ThermoPhase::setState_TP of an ideal gas: the concentrations are scaled to the new density. -/
noncomputable def GasSt.setTP (T P : ℝ) (g : GasSt) : GasSt :=
  { T := T, c := g.c.map (· * (P / (Rg * T * g.c.sum))) }

/-- ImplicitSurfChem::setCommonState_TP (ImplicitSurfChem.cpp:284-294); a surface only stores the
temperature and the pressure. -/
noncomputable def setCommon (T P : ℝ) (s : Sys) : Sys :=
  { surf := s.surf.map fun f => { f with T := T, P := P }
    gas := s.gas.map (GasSt.setTP T P) }

/-- ImplicitSurfChem::setConcSpecies (ImplicitSurfChem.cpp:268-282): SurfPhase does not override
setConcentrations, and Phase::setConcentrations starts with assertCompressible (Phase.cpp:487-489,
Phase.h:815-822), which throws for a surface (SurfPhase.h:113-115); the result is true for "threw".
Without surfaces the gas concentrations are set. -/
noncomputable def setConc (c : List (List ℝ)) (s : Sys) : Sys × Bool :=
  if s.surf ≠ [] then (s, true)
  else ({ s with gas := List.zipWith (fun g x => { g with c := x.map (max · 0) }) s.gas c }, false)

/-- Choice of the algorithm (ImplicitSurfChem.cpp:184-195); `new` tells that there was no solver yet. -/
def ifunc (new : Bool) (override : ℤ) : ℤ :=
  if 0 ≤ override then override else if new then 1 else 2

open Classical in
/-- ImplicitSurfChem::solvePseudoSteadyStateProblem (ImplicitSurfChem.cpp:176-250); `solve` is
solveSP::solveSurfProb for a given algorithm, temperature and pressure. -/
noncomputable def pss (new : Bool) (override : ℤ) (common : Bool)
    (solve : ℤ → ℝ → ℝ → Sys → Sys × ℤ) (s : Sys) : Sys × Outcome Unit :=
  match s.surf with
  | [] => (s, .ub)
  | f :: _ =>
    let c := s.gas.map GasSt.c
    let s1 := if common then setCommon f.T f.P s else s
    let r0 := if ∃ g ∈ s.surf, ∃ x ∈ g.c, x < 0 then setConc c s1 else (s1, false)
    if r0.2 then (r0.1, .throw) else
    let q := solve (ifunc new override) f.T f.P r0.1
    if q.2 = 1 then (q.1, .ok ()) else
    let r := setConc c q.1
    if r.2 then (r.1, .throw) else
    let t := solve 1 f.T f.P r.1
    (t.1, if t.2 = 1 then .ok () else .throw)

end Verif.ISurf
