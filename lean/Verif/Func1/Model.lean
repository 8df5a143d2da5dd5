import Verif.Basic
import Verif.Func1.Tab
import Mathlib.Analysis.SpecialFunctions.Pow.Real
import Mathlib.Analysis.SpecialFunctions.Log.Basic
import Mathlib.Analysis.SpecialFunctions.Trigonometric.Basic

/-!
# One-dimensional functors: trees, evaluation, simplification (model for C19, C20)

Model of `Func1` and its subclasses (include/cantera/numerics/Func1.h:74-850,
src/numerics/Func1.cpp).  Functors are immutable trees behind shared pointers, so a tree is an
inductive value here.  `double` is ℝ and a result which is infinite or NaN is `none`; `none`
anywhere inside makes the whole value `none`, so `eval f t = some v` says that all intermediate
values are finite.
-/

namespace Verif.Func1

open Verif.Func1Tab (Tab)

/-- Functor trees, one constructor per class of Func1.h (line of the class in brackets).
* `ext e` stands for `Gaussian1` (642), `Poly1` (685), `Fourier1` (729), `Arrhenius1` (778) and
  user-defined functors: any function; none of them is identical to anything (`isIdentical`
  overridden to false or type "functor") and none has a derivative.
* `bad f` is a `TimesConstant1` with the factor NaN, which only a zero `TimesConstant1` leads
  to, see `proportional`. -/
inductive F where
  | sin (c : ℝ)            -- 184
  | cos (c : ℝ)            -- 215
  | exp (c : ℝ)            -- 244
  | log (c : ℝ)            -- 275
  | pow (c : ℝ)            -- 304
  | tab (b : Tab)          -- 336
  | const (c : ℝ)          -- 388
  | sum (f g : F)          -- 420
  | diff (f g : F)         -- 451
  | prod (f g : F)         -- 483
  | times (f : F) (c : ℝ)  -- 512
  | plus (f : F) (c : ℝ)   -- 543
  | ratio (f g : F)        -- 575
  | comp (f g : F)         -- 604
  | periodic (f : F) (c : ℝ) -- 824
  | ext (e : ℝ → Option ℝ)
  | bad (f : F)

/-- Apply a binary operation to two finite values. -/
def lift2 (op : ℝ → ℝ → ℝ) : Option ℝ → Option ℝ → Option ℝ
  | some a, some b => some (op a b)
  | _, _ => none

/-- Apply a possibly undefined operation to a finite value. -/
def lift1 (op : ℝ → Option ℝ) : Option ℝ → Option ℝ
  | some a => op a
  | none => none

open Classical in
/-- `std::pow(t, c)` of the C library where it is finite: any exponent for a positive base,
non-negative exponents at 0 (with `pow(0,0) = 1`), integer exponents for a negative base. -/
noncomputable def powE (c t : ℝ) : Option ℝ :=
  if 0 < t then some (t ^ c)
  else if t = 0 then (if 0 < c then some 0 else if c = 0 then some 1 else none)
  else if h : ∃ n : ℤ, c = n then some (t ^ h.choose)
  else none

open Classical in
/-- `std::log(x)` where it is finite. -/
noncomputable def logE (x : ℝ) : Option ℝ := if 0 < x then some (Real.log x) else none

open Classical in
/-- Division where it is finite. -/
noncomputable def divE : Option ℝ → Option ℝ → Option ℝ
  | some a, some b => if b = 0 then none else some (a / b)
  | _, _ => none

open Classical in
/-- The conversion `int(x)`: truncation towards zero.  (Values beyond the range of `int` are
undefined behaviour in C++ and not modelled.) -/
noncomputable def trunc (x : ℝ) : ℤ := if 0 ≤ x then ⌊x⌋ else ⌈x⌉

open Classical in
/-- The `eval` methods (include/cantera/numerics/Func1.h, lines 200, 231, 260, 289, 320, 404,
429, 460, 494, 521, 552, 584, 613, 833-837; `Tabulated1` in `Verif.Func1Tab`). -/
noncomputable def eval : F → ℝ → Option ℝ
  | .sin c, t => some (Real.sin (c * t))
  | .cos c, t => some (Real.cos (c * t))
  | .exp c, t => some (Real.exp (c * t))
  | .log c, t => logE (c * t)
  | .pow c, t => powE c t
  | .tab b, t => some (b.eval t)
  | .const c, _ => some c
  | .sum f g, t => lift2 (· + ·) (eval f t) (eval g t)
  | .diff f g, t => lift2 (· - ·) (eval f t) (eval g t)
  | .prod f g, t => lift2 (· * ·) (eval f t) (eval g t)
  | .times f c, t => (eval f t).map (· * c)
  | .plus f c, t => (eval f t).map (· + c)
  | .ratio f g, t => divE (eval f t) (eval g t)
  | .comp f g, t => lift1 (eval f) (eval g t)
  | .periodic f c, t => if c = 0 then none else eval f (t - trunc (t / c) * c)
  | .ext e, t => e t
  | .bad _, _ => none

/-- `Func1::isIdentical` (src/numerics/Func1.cpp:39-61) and its overrides. -/
def ident : F → F → Prop
  | .sin a, .sin b => a = b
  | .cos a, .cos b => a = b
  | .exp a, .exp b => a = b
  | .log a, .log b => a = b
  | .pow a, .pow b => a = b
  | .const a, .const b => a = b
  | .sum f g, .sum f' g' => ident f f' ∧ ident g g'
  | .diff f g, .diff f' g' => ident f f' ∧ ident g g'
  | .prod f g, .prod f' g' => ident f f' ∧ ident g g'
  | .ratio f g, .ratio f' g' => ident f f' ∧ ident g g'
  | .comp f g, .comp f' g' => ident f f' ∧ ident g g'
  | .times f c, .times f' c' => c = c' ∧ ident f f'
  | .plus f c, .plus f' c' => c = c' ∧ ident f f'
  | .periodic f c, .periodic f' c' => c = c' ∧ ident f f'
  | _, _ => False

/-- `isConstant` with `c()` (src/numerics/Func1.cpp:541-554). -/
def F.const? : F → Option ℝ
  | .const c => some c
  | _ => none

/-- `isPow` with `c()` (src/numerics/Func1.cpp:566-569). -/
def F.pow? : F → Option ℝ
  | .pow c => some c
  | _ => none

/-- `isExp` with `c()` (src/numerics/Func1.cpp:561-564). -/
def F.exp? : F → Option ℝ
  | .exp c => some c
  | _ => none

/-- `isTimesConst` with `func1_shared()` and `c()`. -/
def F.times? : F → Option (F × ℝ)
  | .times f c => some (f, c)
  | _ => none

open Classical in
/-- `newTimesConstFunction` (src/numerics/Func1.cpp:752-764). -/
noncomputable def newTimes (f : F) (c : ℝ) : F :=
  if c = 0 then .const 0
  else if c = 1 then f
  else match f with
    | .times g d => .times g (d * c)
    | f => .times f c

open Classical in
/-- `newPlusConstFunction` (src/numerics/Func1.cpp:766-778). -/
noncomputable def newPlus (f : F) (c : ℝ) : F :=
  if c = 0 then f
  else match f with
    | .const d => .const (d + c)
    | .plus g d => .plus g (d + c)
    | f => .plus f c

open Classical in
/-- A quotient of constants: `none` is an infinite or NaN result. -/
noncomputable def quot (a b : ℝ) : Option ℝ := if b = 0 then none else some (a / b)

open Classical in
/-- `isProportional` (src/numerics/Func1.cpp:571-598): `none` is `{false, 0}`, `some (some c)` is
`{true, c}` and `some none` is `{true, c}` with an infinite or NaN `c`. -/
noncomputable def proportional (f g : F) : Option (Option ℝ) :=
  match f.times?, g.times? with
  | none, none => if ident f g then some (some 1) else none
  | none, some (g', c) => if ident f g' then some (some c) else none
  | some (f', c), none => if ident g f' then some (quot 1 c) else none
  | some (f', c), some (g', d) => if ident g' f' then some (quot d c) else none

open Classical in
/-- `newSumFunction` (src/numerics/Func1.cpp:602-627).  With a non-finite `c`, line 624 multiplies
the zero factor of `f` by it: `bad`. -/
noncomputable def newSum (f g : F) : F :=
  if ident f g then newTimes f 2
  else if f.const? = some 0 then g
  else if g.const? = some 0 then f
  else match g.const? with
    | some c => newPlus f c
    | none => match f.const? with
      | some c => newPlus g c
      | none => match proportional f g with
        | some (some c) => if c = -1 then .const 0 else newTimes f (c + 1)
        | some none => .bad f
        | none => .sum f g

open Classical in
/-- `newDiffFunction` (src/numerics/Func1.cpp:629-651). -/
noncomputable def newDiff (f g : F) : F :=
  if g.const? = some 0 then f
  else if f.const? = some 0 then newTimes g (-1)
  else if ident f g then .const 0
  else match g.const? with
    | some c => newPlus f (-c)
    | none => match proportional f g with
      | some (some c) => if c = 1 then .const 0 else newTimes f (1 - c)
      | some none => .bad f
      | none => .diff f g

/-- Nesting depth of `times` at the root; it decreases in the recursion of `newProd`. -/
def F.height : F → ℕ
  | .times f _ => f.height + 1
  | _ => 0

open Classical in
/-- The part of `newProdFunction` before the recursion (src/numerics/Func1.cpp:655-678). -/
noncomputable def prodBase (f g : F) : Option F :=
  if f.const? = some 1 then some g
  else if g.const? = some 1 then some f
  else if f.const? = some 0 ∨ g.const? = some 0 then some (.const 0)
  else match f.const?, g.const? with
    | some c, some d => some (.const (c * d))
    | some c, none => some (newTimes g c)
    | none, some d => some (newTimes f d)
    | none, none => match f.pow?, g.pow? with
      | some c, some d => some (.pow (c + d))
      | _, _ => match f.exp?, g.exp? with
        | some c, some d => some (.exp (c + d))
        | _, _ => none

open Classical in
/-- Lines 698-701 of `newProdFunction`: put the constants back. -/
noncomputable def prodScale (p : F) (c : ℝ) : F := if c ≠ 1 then newTimes p c else p

/-- `newProdFunction` (src/numerics/Func1.cpp:653-704). -/
noncomputable def newProd (f g : F) : F :=
  match prodBase f g with
  | some p => p
  | none =>
    match f, g with
    | .times f' c, .times g' d => prodScale (newProd f' g') (c * d)
    | .times f' c, g => prodScale (newProd f' g) (c * 1)
    | f, .times g' d => prodScale (newProd f g') (1 * d)
    | f, g => .prod f g
termination_by f.height + g.height
decreasing_by all_goals simp_wf; simp only [F.height]; omega

open Classical in
/-- `newRatioFunction` (src/numerics/Func1.cpp:706-730). -/
noncomputable def newRatio (f g : F) : Outcome F :=
  if g.const? = some 1 then .ok f
  else if f.const? = some 0 then .ok (.const 0)
  else if g.const? = some 0 then .throw
  else if ident f g then .ok (.const 1)
  else match g.const? with
    | some c => .ok (newTimes f (1 / c))
    | none => match f.pow?, g.pow? with
      | some c, some d => .ok (.pow (c - d))
      | _, _ => match f.exp?, g.exp? with
        | some c, some d => .ok (.exp (c - d))
        | _, _ => .ok (.ratio f g)

open Classical in
/-- `newCompositeFunction` (src/numerics/Func1.cpp:732-750). -/
noncomputable def newComp (f g : F) : F :=
  if f.const? = some 0 then .const 0
  else match f.const? with
    | some c => .const c
    | none =>
      if f.pow? = some 1 then g
      else if f.pow? = some 0 then .const 1
      else match f.pow?, g.pow? with
        | some c, some d => .pow (c * d)
        | _, _ => .comp f g

open Classical in
/-- The `derivative` methods: src/numerics/Func1.cpp:94-98 (sine), 111-115 (cosine), 137-144
(exponential), 164-171 (logarithm), 192-202 (power), 387-411 (table), 450-456 (ratio), 471-475
(product), 505-510 (composite); Func1.h:407 (constant), 433-437 (sum), 464-468 (difference),
525-529 (constant factor), 556-558 (constant term).  `Func1::derivative` (Func1.cpp:33-37) throws
and is what the remaining classes inherit. -/
noncomputable def deriv : F → Outcome F
  | .sin c => .ok (newTimes (.cos c) c)
  | .cos c => .ok (newTimes (.sin c) (-c))
  | .exp c => if c ≠ 1 then .ok (newTimes (.exp c) c) else .ok (.exp c)
  | .log c => if c ≠ 1 then .ok (newTimes (.pow (-1)) c) else .ok (.pow (-1))
  | .pow c => if c = 0 then .ok (.const 0)
      else if c = 1 then .ok (.const 1)
      else .ok (newTimes (.pow (c - 1)) c)
  | .tab b => .ok (.tab b.deriv)
  | .const _ => .ok (.const 0)
  | .sum f g => do
      let d1 ← deriv f
      let d2 ← deriv g
      return newSum d1 d2
  | .diff f g => do
      let d1 ← deriv f
      let d2 ← deriv g
      return newDiff d1 d2
  | .prod f g => do
      let d2 ← deriv g
      let a1 := newProd f d2
      let d1 ← deriv f
      let a2 := newProd g d1
      return newSum a1 a2
  | .times f c => do
      let d ← deriv f
      return newTimes d c
  | .plus f _ => deriv f
  | .ratio f g => do
      let d1 ← deriv f
      let a1 := newProd d1 g
      let d2 ← deriv g
      let a2 := newProd f d2
      let s := newDiff a1 a2
      let p := newProd g g
      newRatio s p
  | .comp f g => do
      let d1 ← deriv f
      let d2 ← deriv g
      return newProd (newComp d1 g) d2
  | .periodic _ _ => .throw
  | .ext _ => .throw
  | .bad _ => .throw

end Verif.Func1
