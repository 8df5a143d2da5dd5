import Verif.Basic
import Mathlib.Analysis.SpecialFunctions.Trigonometric.Inverse
import Mathlib.Analysis.SpecialFunctions.Pow.Real

/-!
# C67: roots of the cubic equation for the molar volume

Source: src/thermo/MixtureFugacityTP.cpp (lines cited below).

Simplifications: warnings are not modelled (l. 889-900 only warns); a division by zero in the Newton loop, which leaves
roots that are not numbers, is `ub`.
-/

namespace Verif.Fluid.Solver

open Verif

/-- Coefficients `an`, `bn`, `cn`, `dn`. -/
structure Cub where
  an : ℝ
  bn : ℝ
  cn : ℝ
  dn : ℝ

/-- The roots `Vroot[0..2]`. -/
structure Roots where
  v0 : ℝ := 0
  v1 : ℝ := 0
  v2 : ℝ := 0

/-- Residual (l. 937, 947). -/
def Cub.res (c : Cub) (V : ℝ) : ℝ := c.an * V * V * V + c.bn * V * V + c.cn * V + c.dn

/-- Its derivative (l. 941). -/
def Cub.dres (c : Cub) (V : ℝ) : ℝ := 3 * c.an * V * V + 2 * c.bn * V + c.cn

/-- `xN` (l. 795). -/
noncomputable def Cub.xN (c : Cub) : ℝ := -c.bn / (3 * c.an)

/-- `delta2` (l. 798). -/
noncomputable def Cub.delta2 (c : Cub) : ℝ := (c.bn * c.bn - 3 * c.an * c.cn) / (9 * c.an * c.an)

/-- `delta` (l. 799, 826-828). -/
noncomputable def Cub.delta (c : Cub) : ℝ := if 0 < c.delta2 then Real.sqrt c.delta2 else 0

/-- `h2` (l. 825). -/
noncomputable def Cub.h2 (c : Cub) : ℝ := 4 * c.an * c.an * c.delta2 * c.delta2 * c.delta2

/-- `h` (l. 830). -/
noncomputable def Cub.h (c : Cub) : ℝ := 2 * c.an * c.delta * c.delta2

/-- `yN` (l. 831). -/
noncomputable def Cub.yN (c : Cub) : ℝ :=
  2 * c.bn * c.bn * c.bn / (27 * c.an * c.an) - c.bn * c.cn / (3 * c.an) + c.dn

/-- `disc` as first computed (l. 832). -/
noncomputable def Cub.disc0 (c : Cub) : ℝ := c.yN * c.yN - c.h2

/-- The iteration for nearly ideal states (l. 809-817) with `ratio1`, `ratio2` and `ratio3`. -/
noncomputable def idealLoop (r1 r2 r3 : ℝ) : ℕ → ℝ → ℝ
  | 0, zz => zz
  | n + 1, zz =>
    let znew := zz / (zz - r2) - r3 / (zz + r1)
    if |znew - zz| < 1e-14 then znew else idealLoop r1 r2 r3 n znew

/-- One of the two cube roots with sign (l. 859-872). -/
noncomputable def cbrt (x : ℝ) : ℝ := if x < 0 then -1 * (-x) ^ (1 / 3 : ℝ) else 1 * x ^ (1 / 3 : ℝ)

/-- Single real root (l. 857-876). -/
noncomputable def single (c : Cub) (disc : ℝ) : Roots :=
  let tmpD := Real.sqrt disc
  let tmp1 := (-c.yN + tmpD) / (2 * c.an)
  let tmp2 := (-c.yN - tmpD) / (2 * c.an)
  { v0 := c.xN + cbrt tmp1 + cbrt tmp2 }

/-- Three real roots (l. 877-887). -/
noncomputable def triple (c : Cub) : Roots :=
  let theta := Real.arccos (-c.yN / c.h) / 3
  let ttp := 2 * Real.pi / 3
  { v0 := c.xN + 2 * c.delta * Real.cos (theta + ttp)
    v1 := c.xN + 2 * c.delta * Real.cos (theta + 2 * ttp)
    v2 := c.xN + 2 * c.delta * Real.cos theta }

/-- Multiple roots (l. 901-931): the roots and the new value of `delta`. For negative `yN` the cube root is not a number,
so the comparison that follows it is false. -/
noncomputable def multi (c : Cub) : Outcome (Roots × ℝ) :=
  if c.yN < 1e-18 ∧ c.h < 1e-18 then .ok ({ v0 := c.xN, v1 := c.xN, v2 := c.xN }, c.delta)
  else if 0 < c.yN then
    if |(c.yN / (2 * c.an)) ^ (1 / 3 : ℝ) - c.delta| > 1e-9 then .throw
    else .ok ({ v0 := c.xN - 2 * c.delta, v1 := c.xN + c.delta }, c.delta)
  else if 0 ≤ c.yN / (2 * c.an) ∧ |(c.yN / (2 * c.an)) ^ (1 / 3 : ℝ) - c.delta| > 1e-9 then .throw
  else .ok ({ v0 := c.xN + -c.delta, v1 := c.xN - 2 * -c.delta }, -c.delta)

/-- Newton iteration for one root (l. 936-954); `rs` and `dr` are `res` and `dresdV` from the previous pass. -/
noncomputable def newton (c : Cub) : ℕ → ℝ → ℝ → ℝ → Outcome (ℝ × ℝ × ℝ)
  | 0, V, rs, dr => .ok (V, rs, dr)
  | n + 1, V, _, dr =>
    let res := c.res V
    if |res| < 1e-14 then .ok (V, res, dr)
    else
      let dresdV := c.dres V
      if dresdV = 0 then .ub
      else
        let del := -res / dresdV
        let V1 := V + del
        if |del| / (|V1| + |del|) < 1e-14 then .ok (V1, res, dresdV)
        else if |c.res V1| < |res| then newton c n V1 res dresdV
        else newton c n (V1 - del + 0.1 * del) res dresdV

/-- Polishing one root (l. 936-959); `dr` is `dresdV` left by the root before. -/
noncomputable def polish (c : Cub) (dr V : ℝ) : Outcome (ℝ × ℝ) := do
  let (V', res, dr') ← newton c 20 V 0 dr
  if |res| > 1e-14 ∧ |res| > 1e-14 * |dr'| * |V'| then .throw else .ok (V', dr')

/-- The loop over the first `n` roots (l. 935). -/
noncomputable def polishAll (c : Cub) (n : ℤ) (r : Roots) : Outcome Roots := do
  let (v0, d0) ← if 0 < n then polish c 0 r.v0 else .ok (r.v0, 0)
  let (v1, d1) ← if 1 < n then polish c d0 r.v1 else .ok (r.v1, d0)
  let (v2, _) ← if 2 < n then polish c d1 r.v2 else .ok (r.v2, d1)
  .ok { v0 := v0, v1 := v1, v2 := v2 }

/-- Number of roots by `disc` (l. 843-853); -1 if none of the tests holds. -/
noncomputable def count (disc : ℝ) : ℤ :=
  if disc < -1e-14 then 3 else if |disc| < 1e-14 then 2 else if disc > 1e-14 then 1 else -1

/-- Meaning of the returned number (l. 962-983). -/
noncomputable def classify (T tc vc xN delta : ℝ) (n : ℤ) (r : Roots) : ℤ :=
  if n = 1 then
    if T > tc then (if r.v0 < vc then -1 else 1) else (if r.v0 < xN then -1 else 1)
  else if n = 2 ∧ delta > 1e-14 then -2 else n

/-- States that are not nearly ideal (l. 824-984). -/
noncomputable def general (T : ℝ) (c : Cub) (tc vc : ℝ) : Outcome (ℤ × Roots) :=
  if |(|c.h| - |c.yN|)| < 1e-10 ∧ c.disc0 > 1e-10 then .throw
  else do
    let disc := if |(|c.h| - |c.yN|)| < 1e-10 then 0 else c.disc0
    let n := count disc
    let (r, delta) ← if disc > 0 then .ok (single c disc, c.delta) else if disc < 0 then .ok (triple c, c.delta)
      else multi c
    let r' ← polishAll c n r
    .ok (classify T tc vc c.xN delta n r', r')

/-- `solveCubic` (l. 784-985). -/
noncomputable def solveCubic (R T pres b aAlpha : ℝ) (c : Cub) (tc vc : ℝ) : Outcome (ℤ × Roots) :=
  if T ≤ 0 then .throw
  else
    let ratio1 := 3 * c.an * c.cn / (c.bn * c.bn)
    let ratio2 := pres * b / (R * T)
    let ratio3 := aAlpha / (R * T) * pres / (R * T)
    if |ratio1| < 1e-7 ∧ |ratio2| < 1e-5 ∧ |ratio3| < 1e-5 then
      .ok (1, { v0 := idealLoop ratio1 ratio2 ratio3 10 1 * R * T / pres })
    else general T c tc vc

end Verif.Fluid.Solver
