import Verif.Basic
import Mathlib.Algebra.BigOperators.Field
import Mathlib.Algebra.BigOperators.Intervals
import Mathlib.Algebra.Order.BigOperators.Group.Finset
import Mathlib.Analysis.SpecialFunctions.Sqrt
import Mathlib.Data.Real.Basic
import Mathlib.Tactic.Ring
import Mathlib.Tactic.Linarith
import Mathlib.Tactic.FieldSimp
import Mathlib.Tactic.NormNum
import Mathlib.Tactic.Positivity

/-!
# C99: the Newton solver for surface species (src/kinetics/solveSP.cpp)

Only BULK_ETCH is modelled; ImplicitSurfChem passes nothing else, and the number of bulk phases of the
solver is always zero.  Concentrations are a function of the surface and the species in it; the code stores
them one surface after the other.  Rates, the linear solver and the norms of one iteration of the loop are
arguments.  A norm that is not a number is `none`.
-/

namespace Verif.SolveSP

open Verif Finset

/-- Concentrations or residuals: surface, species. -/
abbrev Vec := ℕ → ℕ → ℝ

/-- The inner loop of solveSP::evalSurfLarge (solveSP.cpp:307-315) after `m` passes: largest concentration
and its species. -/
noncomputable def largeLoop (c : ℕ → ℝ) : ℕ → ℝ × ℕ
  | 0 => (c 0, 0)
  | m + 1 => let p := largeLoop c m
             if p.1 < c (m + 1) then (c (m + 1), m + 1) else p

/-- solveSP::evalSurfLarge (solveSP.cpp:303-317) for one surface of `n` species -/
noncomputable def evalLarge (n : ℕ) (c : ℕ → ℝ) : ℕ := (largeLoop c (n - 1)).2

/-- The mole fractions solveSP::updateState gives to a surface (solveSP.cpp:272-284), `sd` being its site
density. -/
noncomputable def moleFrac (sd : ℝ) (c : ℕ → ℝ) : ℕ → ℝ := fun k => c k / sd

/-- solveSP::fun_eval (solveSP.cpp:319-371) for surface `p`, species `k`.  `nsp` and `sd` are the numbers of
species and site densities, `large` the species chosen by evalSurfLarge, `rate` the rates at the given
concentrations. -/
noncomputable def funEval (nsp : ℕ → ℕ) (sd : ℕ → ℝ) (large : ℕ → ℕ) (rate : Vec → Vec) (c old : Vec)
    (time : Bool) (dt : ℝ) (p k : ℕ) : ℝ :=
  if k = large p then sd p - ∑ j ∈ range (nsp p), c p j
  else if time then (c p k - old p k) / dt - rate c p k
  else -rate c p k

/-- Perturbation of one concentration (solveSP.cpp:431) -/
noncomputable def dc (sd c : ℝ) : ℝ := max (1e-10 * sd) (|c| * 1e-7)

/-- `CSoln[kColIndex] += dc` (solveSP.cpp:432) -/
noncomputable def bump (c : Vec) (q j : ℕ) (d : ℝ) : Vec := fun p k => if p = q ∧ k = j then c p k + d else c p k

/-- One entry of the Jacobian (solveSP::resjac_eval, solveSP.cpp:426-440): row surface `p` species `k`,
column surface `q` species `j`. -/
noncomputable def jac (nsp : ℕ → ℕ) (sd : ℕ → ℝ) (large : ℕ → ℕ) (rate : Vec → Vec) (c old : Vec)
    (time : Bool) (dt : ℝ) (p k q j : ℕ) : ℝ :=
  (funEval nsp sd large rate (bump c q j (dc (sd q) (c q j))) old time dt p k
    - funEval nsp sd large rate c old time dt p k) / dc (sd q) (c q j)

/-- Loop body of calc_damping (solveSP.cpp:479-498) without the label -/
noncomputable def dampStep (damp x d : ℝ) : ℝ :=
  let xnew := x - damp * d
  if 1 - 0.1 * |1 - x| < xnew then -0.8 * (1 - x) / d
  else if xnew < |x * 0.1| - 1e-16 then 0.8 * x / d
  else if 3 * max x 1e-10 < xnew then -2 * max x 1e-10 / d
  else damp

/-- The loop of calc_damping over pairs of unknown and update -/
noncomputable def dampLoop (l : List (ℝ × ℝ)) (damp : ℝ) : ℝ := l.foldl (fun a q => dampStep a q.1 q.2) damp

/-- calc_damping (solveSP.cpp:472-512); `old` is the static variable damp_old, whose new value is the result. -/
noncomputable def calcDamping (l : List (ℝ × ℝ)) (old : ℝ) : ℝ :=
  let d := max (dampLoop l 1) 1e-2
  if old * 3 < d then old * 3 else d

/-- calcWeightedNorm (solveSP.cpp:518-528) for weights that are not zero -/
noncomputable def wNorm (n : ℕ) (w d : ℕ → ℝ) : ℝ :=
  if n = 0 then 0 else Real.sqrt ((∑ i ∈ range n, (d i / w i) ^ 2) / n)

/-- solveSP::calcWeights (solveSP.cpp:536-542), weight of one concentration -/
noncomputable def wtSpecies (abstol reltol sd c : ℝ) : ℝ := abstol * sd + reltol * |c|

/-- solveSP::calcWeights (solveSP.cpp:555-560), weight of row `k` of a Jacobian with `n` columns -/
noncomputable def wtResid (n : ℕ) (J : ℕ → ℕ → ℝ) (w : ℕ → ℝ) (k : ℕ) : ℝ := ∑ j ∈ range n, |J k j * w j|

/-- The inverse time of one species (solveSP.cpp:577-583) -/
noncomputable def invTime (sden rate x : ℝ) : ℝ :=
  let t := |rate / (max x 1e-10 * sden)|
  if 0 < rate then t / 100 else t

/-- Loop of solveSP::calc_t (solveSP.cpp:576-588) over the inverse times of all species in order; result
inverse time scale and label.  `i` is the number of the next species. -/
noncomputable def calcTLoop : List ℝ → ℕ → ℝ × ℕ → ℝ × ℕ
  | [], _, s => s
  | t :: r, i, s => calcTLoop r (i + 1) (if s.1 < t then (t, i) else s)

/-- solveSP::calc_t (solveSP.cpp:563-600): returned inverse time step, new label_old, new label_factor -/
noncomputable def calcT (ts : List ℝ) (labelOld : Option ℕ) (factor : ℝ) : ℝ × Option ℕ × ℝ :=
  let r := calcTLoop ts 0 (1e-10, 0)
  let fac := if some r.2 = labelOld then factor * 1.5 else 1
  (r.1 / fac, some r.2, fac)

/-- New concentration after a step and cropping (solveSP.cpp:213-218); `std::max(0.0, x)` returns zero if `x`
is not a number. -/
noncomputable def crop : Option ℝ → ℝ
  | none => 0
  | some x => max 0 x

/-! ## The iteration -/

/-- What one iteration obtains from the rest of the program: result of calc_t, damping, norms. -/
structure Obs where
  tmp : ℝ
  damp : ℝ
  upd : Option ℝ
  res : Option ℝ

/-- `a > b` for a number that may be NaN -/
def gt (a : Option ℝ) (b : ℝ) : Prop := ∃ x, a = some x ∧ b < x
/-- `a < b` for a number that may be NaN -/
def lt (a : Option ℝ) (b : ℝ) : Prop := ∃ x, a = some x ∧ x < b

/-- Variables of solveSurfProb (solveSP.cpp:92-106) -/
structure LSt where
  iter : ℕ
  time : Bool
  notConv : Bool
  invT : ℝ
  tReal : ℝ
  upd : Option ℝ

/-- EXTRA_ACCURACY (solveSP.cpp:92-95) -/
noncomputable def extra (ifunc : ℕ) : ℝ := if ifunc = 3 then 0.001 * 0.001 else 0.001

/-- The inverse time step of the pass number `iter` (solveSP.cpp:154-181) -/
noncomputable def nextInvT (ifunc : ℕ) (ts tmp : ℝ) (iter : ℕ) (s : LSt) : ℝ :=
  if s.time then
    let a := if iter < 10 then tmp else if 2 * s.invT < tmp then 2 * s.invT else tmp
    if ifunc = 4 ∧ ts < s.tReal + 1 / a then 1 / (ts - s.tReal) else a
  else 1e-6

open Classical in
/-- One pass of Newton's method (solveSP.cpp:141-244) -/
noncomputable def step (ifunc : ℕ) (ts : ℝ) (o : Obs) (s : LSt) : LSt :=
  let iter := s.iter + 1
  let invT := nextInvT ifunc ts o.tmp iter s
  let tReal := if s.time then s.tReal + o.damp / invT else s.tReal
  let s1 : LSt := { iter := iter, time := s.time, notConv := s.notConv, invT := invT, tReal := tReal, upd := o.upd }
  if ifunc = 4 then { s1 with notConv := decide (tReal < ts) }
  else if s.time then
    if ts < tReal ∨ (lt o.res 1e-7 ∧ lt (o.upd.map fun u => u * ts / tReal) (extra ifunc)) then
      { s1 with time := false }
    else s1
  else { s1 with notConv := decide (gt o.upd (extra ifunc) ∨ gt o.res (extra ifunc)) }

/-- The loop with `n` passes left (solveSP.cpp:141); pass `i` uses `o i`. -/
noncomputable def loop (ifunc : ℕ) (ts : ℝ) (o : ℕ → Obs) : ℕ → LSt → LSt
  | 0, s => s
  | n + 1, s => if s.notConv then loop ifunc ts o n (step ifunc ts (o s.iter) s) else s

/-- Start of solveSurfProb (solveSP.cpp:96-138) -/
def startSt (ifunc neq : ℕ) : LSt :=
  { iter := 0, time := ifunc = 1 ∨ ifunc = 4, notConv := decide (neq ≠ 0), invT := 0, tReal := 0
    upd := if neq = 0 then some 0 else some 1000000 }

/-- Final state of solveSurfProb: at most 1000 passes -/
noncomputable def run (ifunc neq : ℕ) (ts : ℝ) (o : ℕ → Obs) : LSt := loop ifunc ts o 1000 (startSt ifunc neq)

open Classical in
/-- The returned flag (solveSP.cpp:265-269) -/
noncomputable def ret (s : LSt) : ℤ := if gt s.upd 1 then -1 else 1

end Verif.SolveSP
