import Mathlib.Algebra.Order.Archimedean.Real.Basic

/-!
# Setting the state of a phase by two properties

Model of `ThermoPhase::setState_HPorUV`, `setState_SPorSV`, `setState_TP` and
`setState(const AnyMap&)` in `src/thermo/ThermoPhase.cpp` (lines refer to that file).  The
properties of the phase at the fixed pressure or volume are functions of the temperature; whether
`setPressure` succeeds at a temperature is a predicate.
-/

namespace Verif.SetState

open Classical

/-- The phase at the given pressure (or volume): enthalpy (or internal energy, or entropy) and
heat capacity per unit mass as functions of the temperature, success of `setPressure`, and the
limits of the temperature. -/
structure Ph where
  H : ℝ → ℝ
  C : ℝ → ℝ
  ok : ℝ → Prop
  minTemp : ℝ
  maxTemp : ℝ

/-- 254-260 and Phase.h:624-631: `setState_conditional_TP`: success and the temperature
afterwards, starting from `cur`.  A temperature which is not positive is rejected before it is
stored. -/
noncomputable def Ph.set (q : Ph) (cur T : ℝ) : Bool × ℝ :=
  if T ≤ 0 then (false, cur) else if q.ok T then (true, T) else (false, T)

/-- Outcome: converged at a temperature; not converged, with the temperature left and the value
reported as pressure or volume; exception of a setter with the temperature left. -/
inductive Res where
  | conv (T : ℝ)
  | fail (T rep : ℝ)
  | threw (T : ℝ)

/-- Variables of the loop. -/
structure It where
  T : ℝ
  H : ℝ
  C : ℝ
  Htop : ℝ
  Ttop : ℝ
  Hbot : ℝ
  Tbot : ℝ
  ign : Bool
  unst : Bool

inductive StepR where
  | more (s : It)
  | conv (T : ℝ)
  | threw (T : ℝ)

/-- global.h:325-328: `clip(x, -100, 100)`. -/
noncomputable def clip100 (x : ℝ) : ℝ := max (-100) (min 100 x)

/-- 325, 523: the limited Newton step.  For a zero heat capacity the quotient is infinite or not
a number; `clip` maps the latter to the upper limit. -/
noncomputable def newton (num cpd : ℝ) : ℝ :=
  if cpd = 0 then (if num < 0 then -100 else 100) else clip100 (num / cpd)

/-- 373-397: the inner loop of the enthalpy solver; the result is temperature, enthalpy, heat
capacity and `dt`, or the temperature left by an exception. -/
noncomputable def innerH (q : Ph) (Told : ℝ) (unst : Bool) : ℕ → ℝ → ℝ → ℝ ⊕ (ℝ × ℝ × ℝ × ℝ)
  | 0, cur, _ => .inl cur
  | n + 1, cur, dt =>
    let w := if Told + dt < Told / 3 then (Told / 3, -2 * Told / 3) else (Told + dt, dt)
    let r := q.set cur w.1
    if r.1 then
      let h := q.H w.1
      let c := q.C w.1
      if c < 0 then
        let dt := if unst then w.2 else w.2 * 0.25
        if n = 0 then .inr (w.1, h, c, dt) else innerH q Told unst n r.2 dt
      else .inr (w.1, h, c, w.2)
    else .inl r.2

/-- 332-340: the step limited by the brackets, for the enthalpy. -/
noncomputable def limitH (tgt : ℝ) (s : It) (unst : Bool) (dt : ℝ) : ℝ :=
  if (0 < dt ∧ unst) ∨ (dt ≤ 0 ∧ ¬ unst) then
    if s.Hbot < tgt ∧ s.T + dt < 0.75 * s.Tbot + 0.25 * s.T then 0.75 * (s.Tbot - s.T) else dt
  else if tgt < s.Htop ∧ 0.75 * s.Ttop + 0.25 * s.T < s.T + dt then 0.75 * (s.Ttop - s.T)
  else dt

/-- 343-355: the check of the maximum.  The result is `Tnew` and the new variables. -/
noncomputable def checkMax (q : Ph) (tgt : ℝ) (s : It) (Tnew : ℝ) : ℝ × It :=
  let Tmax := q.maxTemp + 0.1
  if tgt ≤ q.H Tmax then
    (Tnew, if s.Htop < tgt then { s with Ttop := Tmax, Htop := q.H Tmax } else s)
  else (Tmax + 1, { s with ign := true })

/-- 356-368: the check of the minimum. -/
noncomputable def checkMin (q : Ph) (tgt : ℝ) (s : It) (Tnew : ℝ) : ℝ × It :=
  let Tmin := q.minTemp - 0.1
  if q.H Tmin ≤ tgt then
    (Tnew, if tgt < s.Hbot then { s with Tbot := Tmin, Hbot := q.H Tmin } else s)
  else (Tmin - 1, { s with ign := true })

/-- 399-415: update of the brackets and test of convergence. `cpd` is the heat capacity before the
step, `scale` multiplies the error (1 for the enthalpy, `Tnew` for the entropy). -/
noncomputable def finish (tgt rtol cpd scale : ℝ) (s : It) (T h c dt : ℝ) : StepR :=
  if h = tgt then .conv T
  else
    let s := { s with T := T, H := h, C := c }
    let s :=
      if tgt < h ∧ (s.Htop < tgt ∨ h < s.Htop) then { s with Htop := h, Ttop := T }
      else if h < tgt ∧ (tgt < s.Hbot ∨ s.Hbot < h) then { s with Hbot := h, Tbot := T }
      else s
    let denom := max |tgt| (max |cpd| (1 / 10 ^ 5) * T)
    if |(tgt - h) * scale / denom| < rtol ∨ |dt / T| < rtol then .conv T else .more s

/-- 316-416: one iteration of the enthalpy solver. -/
noncomputable def hpStep (q : Ph) (tgt rtol : ℝ) (s : It) : StepR :=
  let unst := s.unst || decide (s.C < 0)
  let dt := limitH tgt s unst (newton (tgt - s.H) s.C)
  let Tnew := s.T + dt
  let s0 := { s with unst := unst }
  -- check of the maximum
  let a : Bool × ℝ × ℝ × It :=
    if q.maxTemp + 0.1 < Tnew ∧ ¬ s.ign then
      let r := q.set s.T (q.maxTemp + 0.1)
      (r.1, r.2, checkMax q tgt s0 Tnew)
    else (true, s.T, Tnew, s0)
  if ¬ a.1 then .threw a.2.1
  else
    -- check of the minimum
    let b : Bool × ℝ × ℝ × It :=
      if a.2.2.1 < q.minTemp - 0.1 ∧ ¬ a.2.2.2.ign then
        let r := q.set a.2.1 (q.minTemp - 0.1)
        (r.1, r.2, checkMin q tgt a.2.2.2 a.2.2.1)
      else (true, a.2.1, a.2.2.1, a.2.2.2)
    if ¬ b.1 then .threw b.2.1
    else
      -- `Tnew` of the checks is overwritten here (line 374)
      match innerH q s.T unst 10 b.2.1 dt with
      | .inl T => .threw T
      | .inr (T, h, c, dt) => finish tgt rtol s.C 1 b.2.2.2 T h c dt

/-- 316, 417-450: the iterations and the error; `rep` is the value in the message. -/
noncomputable def run (step : It → StepR) (rep : ℝ) : ℕ → It → Res
  | 0, s => .fail s.T rep
  | n + 1, s =>
    match step s with
    | .more s => run step rep n s
    | .conv T => .conv T
    | .threw T => .threw T

/-- 283-297: the first temperature, and 299-313: the initial variables. -/
noncomputable def start (q : Ph) (T0 : ℝ) : ℝ :=
  if q.maxTemp + 0.1 < T0 then q.maxTemp + 0.1 - 1
  else if T0 < q.minTemp - 0.1 then q.minTemp - 0.1 + 1 else T0

noncomputable def It.init (q : Ph) (T : ℝ) : It :=
  ⟨T, q.H T, q.C T, q.H T, T, q.H T, T, false, false⟩

/-- 262-451: `setState_HPorUV` for the value `p` of pressure or volume at temperature `T0`.
`setDensity` and the first `setPressure` are assumed to succeed.  The variable `v` printed for a
volume is the outer one, which stays zero (266, 270, 430). -/
noncomputable def hpMain (q : Ph) (tgt p rtol : ℝ) (uv : Bool) (T0 : ℝ) : Res :=
  if p < 1 / 10 ^ 300 then .threw T0
  else
    let T := start q T0
    let r := if T ≠ T0 then q.set T0 T else (true, T0)
    if r.1 then run (hpStep q tgt rtol) (if uv then 0 else p) 500 (It.init q T) else .threw r.2

/-! ## Entropy -/

/-- 567-582: the inner loop of the entropy solver: no lower limit of the temperature. -/
noncomputable def innerS (q : Ph) (Told : ℝ) (unst : Bool) : ℕ → ℝ → ℝ → ℝ ⊕ (ℝ × ℝ × ℝ × ℝ)
  | 0, cur, _ => .inl cur
  | n + 1, cur, dt =>
    let r := q.set cur (Told + dt)
    if r.1 then
      let h := q.H (Told + dt)
      let c := q.C (Told + dt)
      if c < 0 then
        let dt' := if unst then dt else dt * 0.25
        if n = 0 then .inr (Told + dt, h, c, dt') else innerS q Told unst n r.2 dt'
      else .inr (Told + dt, h, c, dt)
    else .inl r.2

/-- 527-535: the step limited by the brackets, for the entropy. -/
noncomputable def limitS (tgt : ℝ) (s : It) (unst : Bool) (dt : ℝ) : ℝ :=
  if (0 < dt ∧ unst) ∨ (dt ≤ 0 ∧ ¬ unst) then
    if s.Hbot < tgt ∧ s.T + dt < s.Tbot then 0.75 * (s.Tbot - s.T) else dt
  else if tgt < s.Htop ∧ s.Ttop < s.T + dt then 0.75 * (s.Ttop - s.T)
  else dt

/-- 514-601: one iteration of the entropy solver; `H` is the entropy. -/
noncomputable def spStep (q : Ph) (tgt rtol : ℝ) (s : It) : StepR :=
  let unst := s.unst || decide (s.C < 0)
  let dt := limitS tgt s unst (newton ((tgt - s.H) * s.T) s.C)
  let Tnew := s.T + dt
  let s0 := { s with unst := unst }
  let a : Bool × ℝ × ℝ × It :=
    if q.maxTemp + 0.1 < Tnew ∧ ¬ s.ign then
      let r := q.set s.T (q.maxTemp + 0.1)
      (r.1, r.2, checkMax q tgt s0 Tnew)
    else if Tnew < q.minTemp - 0.1 ∧ ¬ s.ign then
      let r := q.set s.T (q.minTemp - 0.1)
      (r.1, r.2, checkMin q tgt s0 Tnew)
    else (true, s.T, Tnew, s0)
  if ¬ a.1 then .threw a.2.1
  else
    match innerS q s.T unst 10 a.2.1 dt with
    | .inl T => .threw T
    | .inr (T, h, c, dt) => finish tgt rtol s.C T a.2.2.2 T h c dt

/-- 464-635: `setState_SPorSV`. -/
noncomputable def spMain (q : Ph) (tgt p rtol : ℝ) (T0 : ℝ) : Res :=
  if p < 1 / 10 ^ 300 then .threw T0
  else
    let T := start q T0
    let r := if T ≠ T0 then q.set T0 T else (true, T0)
    if r.1 then run (spStep q tgt rtol) p 500 (It.init q T) else .threw r.2

/-! ## Temperature and pressure -/

/-- 121-132: `setState_TP`: success, temperature and density afterwards, and whether the
exception seen by the caller is the original one.  `dens T p` is the density found by
`setPressure`, `none` an exception of it, which leaves the density as it was.
Phase.cpp:586-595: `setDensity` rejects every value if the phase is not compressible. -/
noncomputable def setTP (compressible : Bool) (dens : ℝ → ℝ → Option ℝ) (T0 ρ0 T p : ℝ) :
    Bool × ℝ × ℝ × Bool :=
  if T ≤ 0 then
    -- 129: restore
    (false, T0, ρ0, compressible)
  else
    match dens T p with
    | some ρ => (true, T, ρ, true)
    | none => (false, T0, ρ0, compressible)

/-! ## Properties by name -/

/-- Setter which is called. -/
inductive Act where
  | dflt | TPQ | TP | TD | TV | HP | UV | SP | SV | ST | PV | UP | VH | TH | SH | DP | Psat | Tsat
  | Tonly | Ponly | err
  deriving DecidableEq

/-- 150-157: a synonym which is erased. -/
def moveKey (a b : String) (ks : List String) : List String :=
  if a ∈ ks then b :: (ks.filter (· ≠ a)).filter (· ≠ b) else ks

/-- 158-184: a synonym which is kept. -/
def addKey (a b : String) (ks : List String) : List String :=
  if a ∈ ks then b :: ks.filter (· ≠ b) else ks

/-- 149-184: the synonyms. -/
def remap (ks : List String) : List String :=
  addKey "vapor-fraction" "Q" <| addKey "density" "D" <| addKey "entropy" "S" <|
  addKey "specific-volume" "V" <| addKey "internal-energy" "U" <| addKey "int-energy" "U" <|
  addKey "enthalpy" "H" <| addKey "pressure" "P" <| addKey "temperature" "T" <|
  moveKey "mole-fractions" "X" <| moveKey "mass-fractions" "Y" ks

/-- 187-201: which composition is set, and the remaining keys. -/
def composition (ks : List String) : Option String × List String :=
  if "X" ∈ ks then (some "X", ks.filter (· ≠ "X"))
  else if "Y" ∈ ks then (some "Y", ks.filter (· ≠ "Y"))
  else (none, ks)

/-- 203-251: the setter. -/
def dispatch (ks : List String) : Act :=
  if ks = [] then .dflt
  else if "T" ∈ ks ∧ "P" ∈ ks then (if "Q" ∈ ks then .TPQ else .TP)
  else if "T" ∈ ks ∧ "D" ∈ ks then .TD
  else if "T" ∈ ks ∧ "V" ∈ ks then .TV
  else if "H" ∈ ks ∧ "P" ∈ ks then .HP
  else if "U" ∈ ks ∧ "V" ∈ ks then .UV
  else if "S" ∈ ks ∧ "P" ∈ ks then .SP
  else if "S" ∈ ks ∧ "V" ∈ ks then .SV
  else if "S" ∈ ks ∧ "T" ∈ ks then .ST
  else if "P" ∈ ks ∧ "V" ∈ ks then .PV
  else if "U" ∈ ks ∧ "P" ∈ ks then .UP
  else if "V" ∈ ks ∧ "H" ∈ ks then .VH
  else if "T" ∈ ks ∧ "H" ∈ ks then .TH
  else if "S" ∈ ks ∧ "H" ∈ ks then .SH
  else if "D" ∈ ks ∧ "P" ∈ ks then .DP
  else if "P" ∈ ks ∧ "Q" ∈ ks then .Psat
  else if "T" ∈ ks ∧ "Q" ∈ ks then .Tsat
  else if "T" ∈ ks then .Tonly
  else if "P" ∈ ks then .Ponly
  else .err

/-- 145-252: `setState`: the composition set and the setter called. -/
def setState (ks : List String) : Option String × Act :=
  let c := composition (remap ks)
  (c.1, dispatch c.2)

end Verif.SetState
