import Verif.Basic
import Mathlib.Analysis.SpecialFunctions.Pow.Real

/-!
# C68: coefficient tables of cubic fluids

Sources: src/thermo/RedlichKwongMFTP.cpp (RK), src/thermo/PengRobinson.cpp (PR), src/base/Array.cpp.

Species are numbers; unknown names, which throw, are not modelled. `none` is NaN. The tables are the linear storage of the
arrays (Array.h 137-170: entry `(i, j)` of an array with `n` rows is at `i + n * j`); `resize` keeps the storage
(Array.cpp 47-52). `a_vec_Curr_` and `m_aAlpha_binary`, which are recomputed at every change of state, are not part of the
model.
-/

namespace Verif.Fluid.Tables

/-- Redlich-Kwong: number of species, rows 0 and 1 of `a_coeff_vec`, `b_vec_Curr_`, `m_formTempParam`. -/
structure RKTab where
  kk : ℕ
  a0 : ℕ → Option ℝ
  a1 : ℕ → Option ℝ
  b : ℕ → Option ℝ
  tp : Bool

/-- `sqrt(x * y)`. -/
noncomputable def msqrt : Option ℝ → ℝ → Option ℝ
  | some x, y => if 0 ≤ x * y then some (Real.sqrt (x * y)) else none
  | none, _ => none

/-- The body of the loop over `j` (RK 47-66). -/
noncomputable def rkMix (k : ℕ) (a0 a1 : ℝ) (t : RKTab) (j : ℕ) : RKTab :=
  if k = j then t
  else if t.a0 (j + t.kk * j) = none then t
  else if t.a0 (j + t.kk * k) = none then
    let a0kj := msqrt (t.a0 (j + t.kk * j)) a0
    let a1kj := msqrt (t.a1 (j + t.kk * j)) a1
    { t with
      a0 := Function.update (Function.update t.a0 (j + t.kk * k) a0kj) (k + t.kk * j) a0kj
      a1 := Function.update (Function.update t.a1 (j + t.kk * k) a1kj) (k + t.kk * j) a1kj }
  else t

/-- `setSpeciesCoeffs` (RK 29-70). -/
noncomputable def rkSet (t : RKTab) (k : ℕ) (a0 a1 b : ℝ) : RKTab :=
  let counter := k + t.kk * k
  let t1 := { t with
    tp := if a1 ≠ 0 then true else t.tp
    a0 := Function.update t.a0 counter (some a0)
    a1 := Function.update t.a1 counter (some a1) }
  let t2 := (List.range t.kk).foldl (rkMix k a0 a1) t1
  { t2 with b := Function.update t2.b k (some b) }

/-- `setBinaryCoeffs` (RK 72-97). -/
noncomputable def rkBin (t : RKTab) (ki kj : ℕ) (a0 a1 : ℝ) : RKTab :=
  let c1 := ki + t.kk * kj
  let c2 := kj + t.kk * ki
  { t with
    tp := if a1 ≠ 0 then true else t.tp
    a0 := Function.update (Function.update t.a0 c2 (some a0)) c1 (some a0)
    a1 := Function.update (Function.update t.a1 c2 (some a1)) c1 (some a1) }

/-- A phase without species, and `addSpecies` (RK 353-370): the storage grows at its end. -/
def rkEmpty : RKTab := { kk := 0, a0 := fun _ => none, a1 := fun _ => none, b := fun _ => none, tp := false }

/-- `addSpecies` (RK 353-370). -/
def rkAdd (t : RKTab) : RKTab := { t with kk := t.kk + 1 }

/-- Calls that fill the tables. -/
inductive Op where
  | sp (k : ℕ) (a0 a1 b : ℝ)
  | bin (i j : ℕ) (a0 a1 : ℝ)

/-- One call. -/
noncomputable def rkOp (t : RKTab) : Op → RKTab
  | .sp k a0 a1 b => rkSet t k a0 a1 b
  | .bin i j a0 a1 => rkBin t i j a0 a1

/-- `initThermo` (RK 372-473) for species with coefficients in their input: species whose diagonal entry is defined are
skipped. -/
noncomputable def rkInit (t : RKTab) (input : List (ℕ × ℝ × ℝ × ℝ)) : RKTab :=
  input.foldl (fun t s => if t.a0 (s.1 + t.kk * s.1) = none then rkSet t s.1 s.2.1 s.2.2.1 s.2.2.2 else t) t

/-- Peng-Robinson: `m_a_coeffs` in linear storage, `m_b_coeffs`, `m_kappa`. -/
structure PRTab where
  kk : ℕ
  a : ℕ → ℝ
  b : ℕ → ℝ
  kap : ℕ → ℝ

/-- Loop over `j` (PR 57-71). -/
noncomputable def prMix (k : ℕ) (a : ℝ) (t : PRTab) (j : ℕ) : PRTab :=
  if k = j then t
  else
    let a0kj := Real.sqrt (t.a (j + t.kk * j) * a)
    if t.a (j + t.kk * k) = 0 then
      { t with a := Function.update (Function.update t.a (j + t.kk * k) a0kj) (k + t.kk * j) a0kj }
    else t

/-- `m_kappa[k]` (PR 37-43). -/
noncomputable def kappa (w : ℝ) : ℝ :=
  if w ≤ 0.491 then 0.37464 + 1.54226 * w - 0.26992 * w * w
  else 0.374642 + 1.487503 * w - 0.164423 * w * w + 0.016666 * w * w * w

/-- `setSpeciesCoeffs` (PR 29-72). -/
noncomputable def prSet (t : PRTab) (k : ℕ) (a b w : ℝ) : PRTab :=
  let t1 := { t with kap := Function.update t.kap k (kappa w), a := Function.update t.a (k + t.kk * k) a }
  let t2 := (List.range t.kk).foldl (prMix k a) t1
  { t2 with b := Function.update t2.b k b }

/-- `setBinaryCoeffs` (PR 74-94). -/
noncomputable def prBin (t : PRTab) (ki kj : ℕ) (a0 : ℝ) : PRTab :=
  { t with a := Function.update (Function.update t.a (kj + t.kk * ki) a0) (ki + t.kk * kj) a0 }

/-- A phase without species. -/
def prEmpty : PRTab := { kk := 0, a := fun _ => 0, b := fun _ => 0, kap := fun _ => 0 }

/-- `addSpecies` (PR 318-336). -/
def prAdd (t : PRTab) : PRTab := { t with kk := t.kk + 1 }

/-- Calls that fill the tables of a Peng-Robinson phase. -/
inductive POp where
  | sp (k : ℕ) (a b w : ℝ)
  | bin (i j : ℕ) (a0 : ℝ)

/-- One call. -/
noncomputable def prOp (t : PRTab) : POp → PRTab
  | .sp k a b w => prSet t k a b w
  | .bin i j a0 => prBin t i j a0

/-- `initThermo` (PR 338-421) for species with coefficients in their input: species with a nonzero diagonal entry are
skipped. -/
noncomputable def prInit (t : PRTab) (input : List (ℕ × ℝ × ℝ × ℝ)) : PRTab :=
  input.foldl (fun t s => if t.a (s.1 + t.kk * s.1) ≠ 0 then t else prSet t s.1 s.2.1 s.2.2.1 s.2.2.2) t

/-- `calcCriticalConditions` (RK 832-853) for temperature dependent attraction, starting from `tc`: ten Newton steps; `c`
is `omega_a * b * GasConstant / omega_b`. The result is `tc` and the last step; `none` is NaN, which is what the square root
of a negative number and all that follows from it are. A zero divisor also counts as NaN; in the last step it would give an
infinite `tc`. -/
noncomputable def critLoop (c aT a0 : ℝ) : ℕ → Option ℝ → Option ℝ → Option ℝ × Option ℝ
  | 0, tc, d => (tc, d)
  | n + 1, tc, _ =>
    match tc with
    | none => critLoop c aT a0 n none none
    | some tc =>
      if tc < 0 ∨ 1.5 * c * Real.sqrt tc - aT = 0 then critLoop c aT a0 n none none
      else
        let f := c * tc * Real.sqrt tc - aT * tc - a0
        let dfdt := 1.5 * c * Real.sqrt tc - aT
        let deltatc := -f / dfdt
        critLoop c aT a0 n (some (tc + deltatc)) (some deltatc)

/-- The critical temperature (RK 828-851), for positive `a0` and `b`; the comparison of the last step with 0.1 is false
for NaN. -/
noncomputable def critTemp (c aT a0 : ℝ) : Outcome (Option ℝ) :=
  let r := critLoop c aT a0 10 (some ((a0 / c) ^ (2 / 3 : ℝ))) none
  match r.2 with
  | some d => if d > 0.1 then .throw else .ok r.1
  | none => .ok r.1

end Verif.Fluid.Tables
