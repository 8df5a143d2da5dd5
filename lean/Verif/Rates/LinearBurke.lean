import Verif.Basic
import Mathlib.Analysis.SpecialFunctions.Log.Basic
import Mathlib.Tactic.Linarith
import Mathlib.Tactic.Ring
import Mathlib.Tactic.FieldSimp
import Mathlib.Tactic.NormNum

/-!
# C86: linear Burke rates (LinearBurkeRate.cpp, LinearBurkeRate.h)

A rate expression (PLOG, Troe or Chebyshev) at the temperature of the shared data is a function of the
logarithm of the effective pressure; C22 to C24 are about these functions.  `none` as a number is NaN
or an infinity.  The search of a PLOG table for such a pressure (PlogRate.h:117-124) dereferences
`end()`; the assertion before it is not compiled in release builds.  Keys of the input which hold
numbers of Arrhenius expressions are assumed to be present; `Ea` is divided by the gas constant.
-/

namespace Verif.Burke

open Verif Outcome

/-- Parameters of an ArrheniusRate (Arrhenius.h:183-185). -/
structure Arr where
  A : ℝ
  b : ℝ
  E : ℝ

/-- Temperature data shared by all rates. -/
structure TData where
  logT : ℝ
  recipT : ℝ

/-- ArrheniusRate::evalRate (Arrhenius.h:183-185). -/
noncomputable def Arr.eval (a : Arr) (d : TData) : ℝ := a.A * Real.exp (a.b * d.logT - a.E * d.recipT)

/-- Alternatives of the variant `RateTypes` (LinearBurkeRate.h:102). -/
inductive Kind where
  | plog | troe | cheb
  deriving DecidableEq

/-- A rate object: alternative and value as function of the logarithm of the pressure. -/
structure Rate where
  kind : Kind
  k : TData → ℝ → ℝ

/-- What is stored for one collider (m_colliderNames, m_epsObjs1, m_epsObjs2, m_rateObjs,
m_hasRateConstant). -/
structure Coll where
  name : String
  e1 : Option Arr
  e2 : Option Arr
  rate : Rate
  own : Bool

/-- A LinearBurkeRate object: rate of M and the colliders. -/
structure Obj where
  rateM : Rate
  cs : List Coll

/-! ## Input (lines 63-197) -/

/-- The rate of a collider entry: no `type`, a supported one or another one. -/
inductive RateSpec where
  | absent
  | given (r : Rate)
  | unsupported

/-- A collider entry of the input. -/
structure Entry where
  name : Option String
  rate : RateSpec
  eff : Option Arr
  eig : Option Arr

/-- Efficiency of M (lines 108-112). -/
def effM : Arr := { A := 1, b := 0, E := 0 }

/-- Lines 146-151: efficiency relative to M; the quotient is not a number when A of M is zero. -/
noncomputable def relative (a m : Arr) : Option Arr :=
  if m.A = 0 then none else some { A := a.A / m.A, b := a.b - m.b, E := a.E - m.E }

/-- Lines 153-158: negative values are refused. -/
noncomputable def accepted (r : Option Arr) : Bool :=
  match r with
  | none => true
  | some a => decide (¬ a.A < 0)

/-- Lines 125-196: one collider entry.  `ref` is the entry of M, `useEig` says which key is used. -/
noncomputable def addEntry (useEig : Bool) (ref : Arr) (rM : Rate) (cs : List Coll) (e : Entry) :
    Outcome (List Coll) :=
  match e.name with
  | none => .throw
  | some nm =>
    match (if useEig then e.eig else e.eff) with
    | none => .throw
    | some a =>
      if (if useEig then e.eff else e.eig).isSome then .throw
      else if ¬ accepted (relative a ref) then .throw
      else match e.rate with
        | .given r =>
          .ok (cs ++ [{ name := nm, e1 := relative a ref, e2 := relative a ref, rate := r, own := true }])
        | .unsupported => .throw
        | .absent =>
          .ok (cs ++ [{ name := nm, e1 := relative a ref, e2 := some effM, rate := rM, own := false }])

noncomputable def addEntries (useEig : Bool) (ref : Arr) (rM : Rate) :
    List Coll → List Entry → Outcome (List Coll)
  | cs, [] => .ok cs
  | cs, e :: es => addEntry useEig ref rM cs e >>= fun cs' => addEntries useEig ref rM cs' es

open Classical in
/-- setParameters (lines 63-197) for an object which already holds the colliders `cs`; nothing is
cleared.  `colliders[0]` of an empty list is out of range. -/
noncomputable def setParameters (cs : List Coll) (entries : List Entry) : Outcome Obj :=
  match entries with
  | [] => .ub
  | m :: es =>
    if m.name ≠ some "M" then .throw
    else match m.rate with
      | .absent => .throw
      | .unsupported => .throw
      | .given rM =>
        match m.eff with
        | some a =>
          if a.A ≠ 1 ∨ a.b ≠ 0 ∨ a.E ≠ 0 then .throw
          else
            (match m.eig with
            | some g => addEntries true g rM cs es
            | none => addEntries false effM rM cs es) >>= fun cs' => .ok { rateM := rM, cs := cs' }
        | none =>
          (match m.eig with
          | some g => addEntries true g rM cs es
          | none => addEntries false effM rM cs es) >>= fun cs' => .ok { rateM := rM, cs := cs' }

/-- getParameters (lines 313-353). -/
def getParameters (o : Obj) : List Entry :=
  { name := some "M", rate := .given o.rateM, eff := none, eig := none } ::
    o.cs.map fun c =>
      { name := some c.name, rate := if c.own then .given c.rate else .absent, eff := c.e1, eig := none }

/-! ## Evaluation (lines 201-311) -/

/-- setContext (lines 201-207): position of the first species with this name; `npos` is `none`. -/
def setContext (species : List String) (o : Obj) : List (Option ℕ) :=
  o.cs.map fun c => species.findIdx? (· == c.name)

/-- `moleFractions[i]`. -/
def moleFraction (X : List ℝ) (i : Option ℕ) : Outcome ℝ :=
  match i with
  | none => .ub
  | some i => vecGet X i

/-- A collider with the index from `setContext`. -/
abbrev Item := Option ℕ × Coll

noncomputable def Item.eps1 (d : TData) (c : Item) : Option ℝ := c.2.e1.map (·.eval d)
noncomputable def Item.eps2 (d : TData) (c : Item) : Option ℝ := c.2.e2.map (·.eval d)

/-- Lines 256-261: the pair is (eps_mix, sigmaX_M). -/
noncomputable def mixLoop (d : TData) (X : List ℝ) : List Item → Option ℝ × ℝ → Outcome (Option ℝ × ℝ)
  | [], s => .ok s
  | c :: cs, s =>
    moleFraction X c.1 >>= fun x =>
      mixLoop d X cs ((match s.1, c.eps1 d with
        | some e, some e1 => some (e + x * e1)
        | _, _ => none), s.2 - x)

/-- Lines 276 and 294: logarithm of the effective pressure, `none` unless both arguments of `log` are
positive. -/
noncomputable def logPeff (logP : ℝ) (epsMix eps2 : ℝ) : Option ℝ :=
  if 0 < epsMix ∧ 0 < eps2 then some (logP + Real.log epsMix - Real.log eps2) else none

/-- evalPlogRate, evalTroeRate, evalChebyshevRate (lines 209-244). -/
def rateAt (d : TData) (r : Rate) (lp : Option ℝ) : Outcome (Option ℝ) :=
  match lp with
  | some l => .ok (some (r.k d l))
  | none => if r.kind = .plog then .ub else .ok none

/-- Lines 270-290. -/
noncomputable def sumLoop (d : TData) (X : List ℝ) (logP epsMix : ℝ) :
    List Item → Option ℝ → Outcome (Option ℝ)
  | [], s => .ok s
  | c :: cs, s =>
    moleFraction X c.1 >>= fun x =>
      rateAt d c.2.rate ((c.eps2 d).bind (logPeff logP epsMix)) >>= fun k =>
        sumLoop d X logP epsMix cs (match s, k, c.eps1 d with
          | some s, some k, some e1 => some (s + k * e1 * x / epsMix)
          | _, _, _ => none)

open Classical in
/-- evalFromStruct (lines 246-311). -/
noncomputable def evalItems (d : TData) (X : List ℝ) (logP : ℝ) (rateM : Rate) (cs : List Item) :
    Outcome (Option ℝ) :=
  mixLoop d X cs (some 0, X.sum) >>= fun s =>
    match s.1.map (· + s.2) with
    | none => .ok none
    | some epsMix =>
      if epsMix = 0 then .throw
      else
        sumLoop d X logP epsMix cs (some 0) >>= fun k =>
          rateAt d rateM (logPeff logP epsMix 1) >>= fun kM =>
            .ok (match k, kM with
              | some k, some kM => some (k + kM * s.2 / epsMix)
              | _, _ => none)

/-- The object after setContext. -/
def items (species : List String) (o : Obj) : List Item := (setContext species o).zip o.cs

noncomputable def eval (d : TData) (species : List String) (X : List ℝ) (logP : ℝ) (o : Obj) :
    Outcome (Option ℝ) := evalItems d X logP o.rateM (items species o)

/-! ## Shared data (LinearBurkeRate.cpp:14-56, LinearBurkeRate.h:23-66) -/

/-- LinearBurkeData; `none` is NaN.  The temperature buffer of the base class (ReactionData.h:80-99) is
`tbuf`. -/
structure Data where
  T : Option ℝ
  P : Option ℝ
  logP : ℝ
  X : List ℝ
  mf : ℤ
  pbuf : ℝ
  tbuf : ℝ

/-- What is read from the phase. -/
structure PhaseState where
  T : ℝ
  P : ℝ
  mf : ℤ
  X : List ℝ

/-- `getMoleFractions(p)` writes as many numbers as there are species. -/
def writeX (old new : List ℝ) : Outcome (List ℝ) :=
  if new.length ≤ old.length then .ok (new ++ old.drop new.length) else .ub

open Classical in
/-- update(phase, kin) (lines 19-36); the constructor makes the vector non empty (line 16), so line 24
is never true. -/
noncomputable def update (ph : PhaseState) (D : Data) : Outcome (Data × Bool) :=
  if D.P ≠ some ph.P ∨ D.T ≠ some ph.T ∨ D.mf ≠ ph.mf then
    writeX D.X ph.X >>= fun X =>
      .ok ({ D with
        T := some ph.T, P := some ph.P, logP := Real.log ph.P, mf := ph.mf, X := X }, true)
  else .ok (D, false)

/-- update(T, P) (LinearBurkeRate.h:27-32). -/
noncomputable def updateTP (T : Option ℝ) (P : ℝ) (D : Data) : Data :=
  { D with
    T := T, P := some P, logP := Real.log P }

open Classical in
/-- perturbPressure (lines 38-46), for a pressure that is a number. -/
noncomputable def perturbPressure (deltaP : ℝ) (D : Data) : Outcome Data :=
  if 0 < D.pbuf then .throw
  else match D.P with
    | none => .ok D
    | some P => .ok (updateTP D.T (P * (1 + deltaP)) { D with
        pbuf := P })

open Classical in
/-- ReactionData::restore (ReactionData.h:92-99). -/
noncomputable def restoreT (D : Data) : Data :=
  if D.tbuf < 0 then D else { D with
    T := some D.tbuf, tbuf := -1 }

open Classical in
/-- restore (lines 48-56). -/
noncomputable def restore (D : Data) : Data :=
  if (restoreT D).pbuf < 0 then restoreT D
  else { updateTP (restoreT D).T (restoreT D).pbuf (restoreT D) with
    pbuf := -1 }

end Verif.Burke
