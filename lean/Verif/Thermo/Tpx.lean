import Verif.Basic
import Mathlib.Analysis.SpecialFunctions.Log.Basic

/-!
# Pure fluids: base class of the equations of state

Model of `src/tpx/Sub.cpp` (class `Substance`).  The virtual functions of a particular fluid are given.  Every
function is a state transformer that may throw; the state reached at the throw is part of the result.  Division
by zero and logarithms of non-positive numbers give real numbers here instead of NaN or infinities.  `cv`, `cp`,
`thermalExpansionCoeff` and `isothermalCompressibility` are not modelled.
-/

namespace Verif.Tpx

open Verif

/-- Virtual functions: molecular weight, critical constants, limits of temperature; pressure, internal energy and
entropy of a single phase at temperature and density (without the offsets); trial values of liquid density and
saturation pressure at a temperature. -/
structure Eos where
  mw : ℝ
  Tc : ℝ
  Pc : ℝ
  Vc : ℝ
  Tmin : ℝ
  Tmax : ℝ
  Pp : ℝ → ℝ → ℝ
  up : ℝ → ℝ → ℝ
  sp : ℝ → ℝ → ℝ
  ldens : ℝ → Option ℝ
  Psat : ℝ → Option ℝ

/-- Members, `Sub.h:177-184`. -/
structure St where
  T : ℝ
  Rho : ℝ
  Tslast : ℝ
  Rhf : ℝ
  Rhv : ℝ
  Pst : ℝ
  uoff : ℝ
  soff : ℝ

/-- Computations: new state, and the result unless an exception is thrown. -/
def M (α : Type) := St → St × Option α

instance : Monad M where
  pure a := fun s => (s, some a)
  bind x f := fun s => match x s with
    | (s', some a) => f a s'
    | (s', none) => (s', none)

def throwM {α : Type} : M α := fun s => (s, none)
def modify (f : St → St) : M Unit := fun s => (f s, some ())
def get : M St := fun s => (s, some s)
def lift {α : Type} (o : Option α) : M α := fun s => (s, o)

/-- `GasConstant`. -/
noncomputable def Rg : ℝ := 8314.46261815324

/-- `Undef`, `Sub.h:31`. -/
noncomputable def undef : ℝ := 999.1234

variable (e : Eos)

/-! ## Single phase -/

/-- `Pp`, `hp` (`Sub.h:157-159`), `sp`, `up` at the present state. -/
def Pp (s : St) : ℝ := e.Pp s.T s.Rho
def up (s : St) : ℝ := e.up s.T s.Rho + s.uoff
def sp (s : St) : ℝ := e.sp s.T s.Rho + s.soff
noncomputable def hp (s : St) : ℝ := up e s + Pp e s / s.Rho

/-- `set_T`, `Sub.cpp:466-473`. -/
noncomputable def setT (t : ℝ) : M Unit := fun s =>
  if e.Tmin ≤ t ∧ t ≤ e.Tmax then ({ s with T := t }, some ()) else (s, none)

/-- `set_v`, `Sub.cpp:475-483`. -/
noncomputable def setV (v : ℝ) : M Unit := fun s =>
  if 0 < v then ({ s with Rho := 1 / v }, some ()) else (s, none)

/-- `Set(TV, t, v)`, `Sub.cpp:344-347`. -/
noncomputable def setTV (t v : ℝ) : M Unit := do
  setT e t
  setV v

/-! ## Density at given temperature and pressure -/

/-- Members used by `set_TPp`: `kbr`, `dvbf`, bracket, `v_here`, `P_here`, `dv`. -/
structure Br where
  kbr : Bool
  dvbf : ℝ
  Vmin : ℝ
  Vmax : ℝ
  Pmin : ℝ
  Pmax : ℝ
  v : ℝ
  P : ℝ
  dv : ℝ

/-- `Big`. -/
noncomputable def big : ℝ := 1e30

/-- `BracketSlope`, `Sub.cpp:749-766`. -/
noncomputable def bracketSlope (p : ℝ) (b : Br) : Br :=
  if b.kbr = false then
    let d1 := if b.v < e.Vc then -0.05 * b.v else 0.2 * b.v
    let d2 := if 0 < b.Vmin then 0.2 * b.v else d1
    { b with dv := if b.Vmax < big then -0.05 * b.v else d2 }
  else
    let dpdv := (b.Pmax - b.Pmin) / (b.Vmax - b.Vmin)
    { b with
      v := b.Vmax
      P := b.Pmax
      dv := b.dvbf * (p - b.Pmax) / dpdv
      dvbf := 0.5 * b.dvbf }

/-- Update of the bracket, `Sub.cpp:799-814`, and the step, lines 815-821; none for `Vmin >= Vmax`. -/
noncomputable def bracketStep (p dpdv : ℝ) (b : Br) : Option Br :=
  let b1 := if b.P > p ∧ b.v > b.Vmin then { b with Vmin := b.v }
    else if b.P < p ∧ b.v < b.Vmax then { b with Vmax := b.v } else b
  let b2 := if b1.v = b1.Vmin then { b1 with Pmin := b1.P } else b1
  let b3 := if b2.v = b2.Vmax then { b2 with Pmax := b2.P } else b2
  if b3.Vmin ≥ b3.Vmax then none
  else
    let b4 := if 0 < b3.Vmin ∧ b3.Vmax < big then { b3 with kbr := true } else b3
    if dpdv = 0 then some (bracketSlope e p { b4 with dvbf := 0.5 })
    else some { b4 with
      dvbf := 1
      dv := (p - b4.P) / dpdv }

/-- Limit of the step, lines 824-840. -/
noncomputable def limitStep (p : ℝ) (b : Br) : ℝ :=
  let m0 := 0.2 * b.v
  let m1 := if b.v < 2 * e.Vc then m0 * 0.5 else m0
  let m2 := if b.v < 0.7 * e.Vc then m1 * 0.5 else m1
  let vt := b.v + b.dv
  let d := if b.kbr = true ∧ (vt < b.Vmin ∨ vt > b.Vmax) then
      b.Vmin + (p - b.Pmin) * (b.Vmax - b.Vmin) / (b.Pmax - b.Pmin) - b.v
    else b.dv
  if m2 < |d| then d * (m2 / |d|) else d

/-- Choice of the step, lines 787-823. -/
noncomputable def chooseStep (t p : ℝ) (b : Br) : M Br := do
  if b.P < 0 then pure (bracketSlope e p b)
  else
    let dv := if b.v ≤ e.Vc then -(0.001 * b.v) else 0.001 * b.v
    setTV e t (b.v + dv)
    let s ← get
    let dpdv := (Pp e s - b.P) / dv
    if 0 < dpdv then pure (bracketSlope e p { b with dv := dv })
    else lift (bracketStep e p dpdv { b with dv := dv })

/-- The loop, lines 785-854, `n` = passes left before the exception. -/
noncomputable def tppLoop (t p vsave : ℝ) : ℕ → Bool → Br → M ℝ
  | 0, _, _ => do
    setTV e t vsave
    throwM
  | n + 1, first, b => do
    let s ← get
    let b := { b with P := Pp e s }
    if 1e-7 * p ≤ |p - b.P| ∨ first = true then
      let b' ← chooseStep e t p b
      let d := limitStep e p b'
      if d = 0 then throwM
      else
        setTV e t (b'.v + d)
        if n = 0 then
          setTV e t vsave
          throwM
        else tppLoop t p vsave n false { b' with
          v := b'.v + d
          dv := d }
    else pure b.v

/-- `set_TPp`, `Sub.cpp:768-856`. -/
noncomputable def setTPp (t p : ℝ) : M Unit := do
  let s ← get
  modify fun s => { s with T := t }
  let v ← tppLoop e t p (1 / s.Rho) 201 true ⟨false, 1, 0, big, big, 0, 1 / s.Rho, 0, 0⟩
  setTV e t v

/-! ## Saturation -/

/-- New trial pressure and its logarithm, lines 531-546. -/
noncomputable def nextPressure (dg rhv rhf pp lps : ℝ) : ℝ × ℝ :=
  let dp := dg / (1 / rhv - 1 / rhf)
  let q := if pp < |dp| then
      (Real.exp (lps - dg / (pp * (1 / rhv - 1 / rhf))), lps - dg / (pp * (1 / rhv - 1 / rhf)))
    else (pp - dp, Real.log (pp - dp))
  if e.Pc < q.1 then (pp + 0.5 * (e.Pc - pp), Real.log (pp + 0.5 * (e.Pc - pp)))
  else if q.1 < 0 then (pp / 2, Real.log (pp / 2)) else q

/-- The two phases at a trial pressure, lines 504-526: densities are stored, the difference of the Gibbs functions
is returned. -/
noncomputable def satTrial (first : Bool) (pp : ℝ) : M ℝ := do
  let s ← get
  let rl ← lift (if first then e.ldens s.T else some s.Rhf)
  modify fun s => { s with Rho := rl }
  setTPp e s.T pp
  modify fun s => { s with Rhf := s.Rho }
  let s1 ← get
  modify fun s => { s with Rho := if first then pp * e.mw / (Rg * s.T) else s.Rhv }
  setTPp e s1.T pp
  modify fun s => { s with Rhv := s.Rho }
  let s2 ← get
  modify fun s => if s.Rhv > s.Rhf then { s with
    Rhv := s.Rhf
    Rhf := s.Rhv } else s
  let dg := hp e s2 - s2.T * sp e s2 - (hp e s1 - s1.T * sp e s1)
  pure (if s2.Rhv > s2.Rhf then -dg else dg)

/-- The loop of `update_sat`, lines 503-555. -/
noncomputable def satLoop (rsave : ℝ) : ℕ → Bool → ℝ → ℝ → M Unit
  | 0, _, _, _ => throwM
  | n + 1, first, pp, lps => do
    let dg ← satTrial e first pp
    if |dg| < 0.001 then
      modify fun s => { s with
        Pst := pp
        Tslast := s.T
        Rho := rsave }
    else
      let s ← get
      let q := nextPressure e dg s.Rhv s.Rhf pp lps
      satLoop rsave n false q.1 q.2

/-- `update_sat`, `Sub.cpp:495-557`. -/
noncomputable def updateSat : M Unit := fun s =>
  if s.T = s.Tslast then (s, some ())
  else match e.Psat s.T with
    | none => (s, none)
    | some pp => satLoop e s.Rho 20 true pp (Real.log pp) s

/-- `Ps`, `Sub.cpp:485-493`. -/
noncomputable def Ps : M ℝ := do
  let s ← get
  if s.T < e.Tmin ∨ s.T > e.Tc then throwM
  else
    updateSat e
    let s ← get
    pure s.Pst

/-- `dPsdT`, `Sub.cpp:233-248`. -/
noncomputable def dPsdT : M ℝ := do
  let s ← get
  let ps1 ← Ps e
  if s.T + 0.000001 < e.Tc then
    modify fun s => { s with T := s.T + 0.000001 }
    let p ← Ps e
    modify fun s' => { s' with T := s.T }
    pure ((p - ps1) / 0.000001)
  else
    modify fun s => { s with T := s.T - 0.000001 }
    let p ← Ps e
    modify fun s' => { s' with T := s.T }
    pure ((ps1 - p) / 0.000001)

/-- The loop of `Tsat`, lines 302-318: the temperature is moved once more after the test quantity was computed. -/
noncomputable def tsatLoop (p tsave : ℝ) : ℕ → ℝ → M Unit
  | 0, _ => throwM
  | n + 1, dp =>
    if 1e-6 * p < |dp| then do
      modify fun s => { s with T := max (min s.T e.Tc) e.Tmin }
      let ps ← Ps e
      let sl ← dPsdT e
      let s ← get
      let dt := (p - ps) / sl
      let dt := if 0.1 * s.T < |dt| then dt * (0.1 * s.T) / |dt| else dt
      modify fun s => { s with T := s.T + dt }
      if n = 0 then
        modify fun s => { s with T := tsave }
        throwM
      else tsatLoop p tsave n (p - ps)
    else pure ()

/-- `Tsat`, `Sub.cpp:280-322`. -/
noncomputable def Tsat (p : ℝ) : M ℝ := do
  let s ← get
  if p ≤ 0 ∨ p > e.Pc then throwM
  else
    modify fun s => if s.T < e.Tmin ∨ s.T > e.Tc then { s with T := 0.5 * (e.Tc - e.Tmin) } else s
    tsatLoop e p s.T 101 (10 * (1e-6 * p))
    let s' ← get
    modify fun s' => { s' with T := s.T }
    pure s'.T

/-- `TwoPhase`, `Sub.cpp:250-260`. -/
noncomputable def twoPhase (strict : Bool) : M Bool := do
  let s ← get
  if e.Tc ≤ s.T then pure false
  else
    updateSat e
    let s ← get
    if strict then pure (decide (s.Rho > s.Rhv ∧ s.Rho < s.Rhf))
    else pure (decide (s.Rho ≥ s.Rhv ∧ s.Rho ≤ s.Rhf))

/-- `x`, `Sub.cpp:262-278`. -/
noncomputable def quality : M ℝ := do
  let s ← get
  if e.Tc ≤ s.T then pure (if 1 / s.Rho < e.Vc then 0 else 1)
  else
    updateSat e
    let s ← get
    if s.Rho ≤ s.Rhv then pure 1
    else if s.Rho ≥ s.Rhf then pure 0
    else pure ((1 / s.Rho - 1 / s.Rhf) / (1 / s.Rhv - 1 / s.Rhf))

/-- `P`, `Sub.cpp:35-38`. -/
noncomputable def P : M ℝ := do
  let b ← twoPhase e false
  if b then Ps e
  else
    let s ← get
    pure (Pp e s)

/-- `propertyFlag`. -/
inductive Flag
  | H | S | U | V | P | T
  deriving DecidableEq

/-- `vprop`, `Sub.cpp:559-575`. -/
noncomputable def vprop (f : Flag) (s : St) : Option ℝ :=
  match f with
  | .H => some (hp e s)
  | .S => some (sp e s)
  | .U => some (up e s)
  | .V => some (1 / s.Rho)
  | .P => some (Pp e s)
  | .T => none

/-- `prop`, `Sub.cpp:723-744`. -/
noncomputable def prop (f : Flag) : M ℝ := do
  if f = .P then P e
  else if f = .T then
    let s ← get
    pure s.T
  else
    let xx ← quality e
    let s ← get
    if 0 < xx ∧ xx < 1 then
      let a ← lift (vprop e f { s with Rho := s.Rhv })
      let b ← lift (vprop e f { s with Rho := s.Rhf })
      pure ((1 - xx) * b + xx * a)
    else lift (vprop e f s)

/-! ## Setting the state -/

/-- `Set(TX, t, x)`, `Sub.cpp:436-449`. -/
noncomputable def setTX (t x : ℝ) : M Unit := do
  if x > 1 ∨ x < 0 then throwM
  else if t < e.Tmin ∨ t > e.Tc then throwM
  else
    setT e t
    updateSat e
    modify fun s => { s with Rho := 1 / ((1 - x) / s.Rhf + x / s.Rhv) }

/-- `Set(PX, p, x)`, `Sub.cpp:419-435`: the temperature is set before the arguments are checked. -/
noncomputable def setPX (p x : ℝ) : M Unit := do
  setT e e.Tmin
  if x > 1 ∨ x < 0 then throwM
  else
    let ps ← Ps e
    if p < ps ∨ p > e.Pc then throwM
    else
      let t ← Tsat e p
      setT e t
      updateSat e
      modify fun s => { s with Rho := 1 / ((1 - x) / s.Rhf + x / s.Rhv) }

/-- The lever rule once temperature `t` is known, lines 604-617. -/
noncomputable def leverAt (tsave rsave val : ℝ) (f : Flag) : M Bool := do
  let s ← get
  setTX e s.T 1
  let s1 ← get
  let vg ← lift (vprop e f s1)
  setTX e s1.T 0
  let s2 ← get
  let vf ← lift (vprop e f s2)
  if vf ≤ val ∧ val ≤ vg then
    let xx := (val - vf) / (vg - vf)
    setV ((1 - xx) / s2.Rhf + xx / s2.Rhv)
    pure true
  else
    modify fun s => { s with
      T := tsave
      Rho := rsave }
    pure false

/-- `Lever(Pgiven, ..)`, `Sub.cpp:577-618`: a failing `Tsat` is caught. -/
noncomputable def leverP (p val : ℝ) (f : Flag) : M Bool := fun s =>
  if e.Pc ≤ p then (s, some false)
  else match Tsat e p s with
    | (s', none) => ({ s' with
        T := s.T
        Rho := s.Rho }, some false)
    | (s', some t) => leverAt e s.T s.Rho val f { s' with T := t }

/-- `Lever(Tgiven, ..)`. -/
noncomputable def leverT (t val : ℝ) (f : Flag) : M Bool := do
  let s ← get
  if e.Tc ≤ t then pure false
  else
    modify fun s => { s with T := t }
    let _ ← Ps e
    leverAt e s.T s.Rho val f

/-- One correction of `set_xy`, lines 661-708. -/
noncomputable def xyStep (ifx ify : Flag) (X Y x y t v : ℝ) : M (ℝ × ℝ) := do
  let dt := if e.Tmax < t + 0.001 * t then -(0.001 * t) else 0.001 * t
  let dv := if v ≤ e.Vc then -(0.001 * v) else 0.001 * v
  setTV e (t + dt) v
  let xt ← prop e ifx
  let yt ← prop e ify
  setTV e t (v + dv)
  let xv ← prop e ifx
  let yv ← prop e ify
  let dxdt := (xt - x) / dt
  let dydt := (yt - y) / dt
  let dxdv := (xv - x) / dv
  let dydv := (yv - y) / dv
  let det := dxdt * dydv - dydt * dxdv
  let dt := ((X - x) * dydv - (Y - y) * dxdv) / det
  let dv := ((Y - y) * dxdt - (X - x) * dydt) / det
  let m0 := 0.2 * v
  let m1 := if v < 2 * e.Vc then m0 * 0.5 else m0
  let m2 := if v < 0.7 * e.Vc then m1 * 0.5 else m1
  let dv := if m2 < |dv| then dv * (m2 / |dv|) else dv
  let dt := if 0.1 * t < |dt| then dt * (0.1 * t / |dt|) else dt
  let t' := max e.Tmin (min e.Tmax (t + dt))
  let v' := if v + dv ≤ 0 then 0.0001 else v + dv
  setTV e t' v'
  pure (t', v')

/-- The loop of `set_xy`, lines 650-720. -/
noncomputable def xyLoop (ifx ify : Flag) (X Y atx aty : ℝ) : ℕ → ℝ → ℝ → M Unit
  | 0, _, _ => throwM
  | n + 1, t, v => do
    let x ← prop e ifx
    let y ← prop e ify
    if |X - x| < atx + 1e-8 * |X| ∧ |Y - y| < aty + 1e-8 * |Y| then pure ()
    else
      let tv ← xyStep e ifx ify X Y x y t v
      if n = 0 then throwM else xyLoop ifx ify X Y atx aty n tv.1 tv.2

/-- Starting point, lines 633-646. -/
noncomputable def xyStart : M Unit := do
  let s ← get
  if s.T = undef ∧ s.Rho = undef then setTV e (e.Tc * 1.1) (e.Vc * 1.1)
  else if s.Rho = undef then setTV e s.T (e.Vc * 1.1)
  else pure ()

/-- `set_xy`, `Sub.cpp:620-721`. -/
noncomputable def setXY (ifx ify : Flag) (X Y atx aty : ℝ) : M Unit := do
  xyStart e
  let s ← get
  xyLoop e ifx ify X Y atx aty 201 s.T (1 / s.Rho)

/-- Absolute tolerances, `Sub.cpp:325-330`. -/
noncomputable def tol : Flag → ℝ
  | .H => 1e-4
  | .U => 1e-4
  | .S => 1e-7
  | .P => 0
  | .V => 1e-8
  | .T => 1e-3

/-- Below the critical temperature the search starts from saturated vapour or liquid, lines 371-381. -/
noncomputable def tpStart (t p : ℝ) : M Unit := do
  if t < e.Tc then
    let ps ← Ps e
    if |p - ps| / p < 1e-8 then throwM
    else if p < ps then setTX e t 1
    else setTX e t 0
  else pure ()

/-- `Set(TP, t, p)`, lines 369-384. -/
noncomputable def setTP (t p : ℝ) : M Unit := do
  setT e t
  tpStart e t p
  setXY e .T .P t p (tol .T) (tol .P)

/-- A pair set by the lever rule or by iteration, as in lines 348-354. -/
noncomputable def viaLever (l : M Bool) (ifx ify : Flag) (X Y : ℝ) : M Unit := do
  let b ← l
  if b then pure () else setXY e ifx ify X Y (tol ifx) (tol ify)

/-- `Set`, `Sub.cpp:333-453`, with the numbers of `Sub.h:17-20`. -/
noncomputable def set (xy : ℤ) (x0 y0 : ℝ) : M Unit :=
  let a := if xy < 0 then y0 else x0
  let b := if xy < 0 then x0 else y0
  match xy.natAbs with
  | 12 => setTV e a b
  | 34 => viaLever e (leverP e b a .H) .H .P a b
  | 54 => viaLever e (leverP e b a .S) .S .P a b
  | 42 => viaLever e (leverP e a b .V) .P .V a b
  | 14 => setTP e a b
  | 62 => setXY e .U .V a b (tol .U) (tol .V)
  | 51 => viaLever e (leverT e b a .S) .S .T a b
  | 52 => setXY e .S .V a b (tol .S) (tol .V)
  | 64 => viaLever e (leverP e b a .U) .U .P a b
  | 23 => setXY e .V .H a b (tol .V) (tol .H)
  | 13 => setXY e .T .H a b (tol .T) (tol .H)
  | 53 => setXY e .S .H a b (tol .S) (tol .H)
  | 47 => setPX e a b
  | 17 => setTX e a b
  | _ => throwM

/-- `setStdState`, `Sub.cpp:24-33`. -/
noncomputable def setStdState (h0 s0 t0 p0 : ℝ) : M Unit := do
  setTP e t0 p0
  let h ← prop e .H
  let ss ← prop e .S
  modify fun s => { s with
    soff := s.soff + (s0 - ss)
    uoff := s.uoff + (h0 - h) }

end Verif.Tpx
