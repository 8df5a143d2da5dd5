import Verif.Basic
import Mathlib.Analysis.SpecialFunctions.Pow.Real
import Mathlib.Tactic.Common
import Mathlib.Tactic.SplitIfs
import Mathlib.Tactic.Linarith
import Mathlib.Tactic.Ring
import Mathlib.Tactic.FieldSimp
import Mathlib.Tactic.NormNum

/-!
# Model of `Units`, `UnitStack` and `UnitSystem` (src/base/Units.cpp, include/cantera/base/Units.h)

`std::pow` is `Real.rpow`; theorems assume a positive base or an integral exponent, where the two
agree.  Unit names are not parsed here: where the code takes a string the model takes the `Units` it
denotes.  The gas constant and the Avogadro number are parameters.
-/

namespace Verif.Units

open Verif

/-- Members (Units.h:77-85). -/
@[ext] structure U where
  factor : ℝ
  mass : ℝ
  length : ℝ
  time : ℝ
  temp : ℝ
  current : ℝ
  quantity : ℝ
  pres : ℝ
  en : ℝ

open Classical in
/-- The condition for the pressure pseudo-dimension (Units.cpp:119-122). -/
noncomputable def presDim (mass length time temp current quantity : ℝ) : ℝ :=
  if mass ≠ 0 ∧ length = -mass ∧ time = -2 * mass ∧ temp = 0 ∧ current = 0 ∧ quantity = 0 then mass
  else 0

open Classical in
/-- The condition for the energy pseudo-dimension (Units.cpp:123-128). -/
noncomputable def enDim (mass length time temp current quantity : ℝ) : ℝ :=
  if mass ≠ 0 ∧ length = -mass ∧ time = -2 * mass ∧ temp = 0 ∧ current = 0 ∧ quantity = 0 then 0
  else if mass ≠ 0 ∧ length = 2 * mass ∧ time = -2 * mass ∧ temp = 0 ∧ current = 0 ∧ quantity = 0
    then mass
  else 0

/-- The constructor from dimensions (Units.cpp:109-129). -/
noncomputable def U.mk6 (factor mass length time temp current quantity : ℝ) : U :=
  { factor, mass, length, time, temp, current, quantity
    pres := presDim mass length time temp current quantity
    en := enDim mass length time temp current quantity }

/-- convertible (Units.cpp:199-207) -/
def U.Convertible (a b : U) : Prop :=
  a.mass = b.mass ∧ a.length = b.length ∧ a.time = b.time ∧ a.temp = b.temp ∧
  a.current = b.current ∧ a.quantity = b.quantity

/-- operator*= (Units.cpp:209-221) -/
def U.mul (a b : U) : U :=
  { factor := a.factor * b.factor
    mass := a.mass + b.mass
    length := a.length + b.length
    time := a.time + b.time
    temp := a.temp + b.temp
    current := a.current + b.current
    quantity := a.quantity + b.quantity
    pres := a.pres + b.pres
    en := a.en + b.en }

/-- pow (Units.cpp:223-232) -/
noncomputable def U.pow (a : U) (e : ℝ) : U :=
  U.mk6 (a.factor ^ e) (a.mass * e) (a.length * e) (a.time * e) (a.temp * e) (a.current * e)
    (a.quantity * e)

/-- Some entries of `knownUnits` (Units.cpp:17-81). -/
noncomputable def one : U := U.mk6 1 0 0 0 0 0 0
/-- "kg" -/
noncomputable def kg : U := U.mk6 1 1 0 0 0 0 0
/-- "m" -/
noncomputable def meter : U := U.mk6 1 0 1 0 0 0 0
/-- "s" -/
noncomputable def sec : U := U.mk6 1 0 0 1 0 0 0
/-- "K" -/
noncomputable def kelvin : U := U.mk6 1 0 0 0 1 0 0
/-- "A" -/
noncomputable def ampere : U := U.mk6 1 0 0 0 0 1 0
/-- "kmol" -/
noncomputable def kmol : U := U.mk6 1 0 0 0 0 0 1
/-- "J" -/
noncomputable def joule : U := U.mk6 1 1 2 (-2) 0 0 0
/-- "cal" -/
noncomputable def cal : U := U.mk6 (4184 / 1000) 1 2 (-2) 0 0 0
/-- "Pa" -/
noncomputable def pascal : U := U.mk6 1 1 (-1) (-2) 0 0 0
/-- What the string "J/kmol" denotes: the parser splits at '/' (Units.cpp:147-189). -/
noncomputable def jPerKmol : U := (joule.pow 1).mul (kmol.pow (-1))

/-! ### UnitStack (Units.cpp:323-391) -/

/-- The stack of pairs. -/
abbrev Stack := List (U × ℝ)

open Classical in
/-- update (Units.cpp:362-375): the first entry with equal units gets the exponent added. -/
noncomputable def Stack.update (s : Stack) (u : U) (e : ℝ) : Stack :=
  match s with
  | [] => [(u, e)]
  | p :: l => if p.1 = u then (p.1, p.2 + e) :: l else p :: Stack.update l u e

/-- join (Units.cpp:352-360) -/
noncomputable def Stack.join (s : Stack) (e : ℝ) : Outcome Stack :=
  match s with
  | [] => .throw
  | p :: l => .ok ((p.1, p.2 + e) :: l)

open Classical in
/-- product (Units.cpp:377-391) -/
noncomputable def Stack.product (s : Stack) : U :=
  if s = [] then U.mk6 0 0 0 0 0 0 0
  else s.foldl (fun out p => if p.2 = 1 then out.mul p.1 else out.mul (p.1.pow p.2)) (U.mk6 1 0 0 0 0 0 0)

/-! ### UnitSystem -/

/-- The dimensions that can be given a default unit, with names used as keys. -/
inductive Key
  | mass | length | time | temperature | current | quantity | pressure | energy | activation | other
  deriving DecidableEq

/-- Members (Units.h:268-294); `defs` is `m_defaults` with names replaced by what they denote. -/
structure Sys where
  massF : ℝ
  lengthF : ℝ
  timeF : ℝ
  presF : ℝ
  enF : ℝ
  actF : ℝ
  qtyF : ℝ
  explicitAct : Bool
  defs : Key → Option U

/-- Initial member values; the constructor then calls `setDefaults({})`, which gives the same
(Units.h:176, 268-294; Units.cpp:393-396). -/
def Sys.init : Sys := ⟨1, 1, 1, 1, 1, 1, 1, false, fun _ => none⟩

/-- Set an entry of `m_defaults`. -/
def Sys.setDef (S : Sys) (k : Key) (u : U) : Sys :=
  { S with defs := fun k' => if k' = k then some u else S.defs k' }

open Classical in
/-- One iteration of setDefaults(initializer_list) (Units.cpp:431-465).  The flag is false when the
iteration throws; the object keeps what was assigned before. -/
noncomputable def Sys.setOne (S : Sys) (u : U) : Sys × Bool :=
  if u.Convertible kg then ({ S with massF := u.factor }.setDef .mass u, true)
  else if u.Convertible meter then ({ S with lengthF := u.factor }.setDef .length u, true)
  else if u.Convertible sec then ({ S with timeF := u.factor }.setDef .time u, true)
  else if u.Convertible kmol then ({ S with qtyF := u.factor }.setDef .quantity u, true)
  else if u.Convertible pascal then ({ S with presF := u.factor }.setDef .pressure u, true)
  else if u.Convertible joule then ({ S with enF := u.factor }.setDef .energy u, true)
  else if u.Convertible kelvin then (S, decide (u.factor = 1))
  else if u.Convertible ampere then (S, decide (u.factor = 1))
  else (S, false)

/-- The loop of setDefaults(initializer_list). -/
noncomputable def Sys.setLoop : Sys → List U → Sys × Bool
  | S, [] => (S, true)
  | S, u :: l => if (S.setOne u).2 = true then Sys.setLoop (S.setOne u).1 l else ((S.setOne u).1, false)

/-- The final statement of both setDefaults (Units.cpp:467-469, 516-518). -/
noncomputable def Sys.refresh (S : Sys) : Sys :=
  if S.explicitAct = false then { S with actF := S.enF / S.qtyF } else S

/-- setDefaults(initializer_list) (Units.cpp:428-470) -/
noncomputable def Sys.setDefaults (S : Sys) (l : List U) : Sys × Bool :=
  if (S.setLoop l).2 = true then ((S.setLoop l).1.refresh, true) else S.setLoop l

open Classical in
/-- setDefaultActivationEnergy (Units.cpp:521-536) -/
noncomputable def Sys.setAct (R NA : ℝ) (S : Sys) (u : U) : Sys × Bool :=
  if u.Convertible jPerKmol then ({ S.setDef .activation u with actF := u.factor, explicitAct := true }, true)
  else if u.Convertible kelvin then ({ S.setDef .activation u with actF := R, explicitAct := true }, true)
  else if u.Convertible joule then
    ({ S.setDef .activation u with actF := u.factor * NA, explicitAct := true }, true)
  else (S.setDef .activation u, false)

open Classical in
/-- One iteration of setDefaults(map) (Units.cpp:474-513). -/
noncomputable def Sys.setKey (S : Sys) (k : Key) (u : U) : Sys × Bool :=
  if k = .mass ∧ u.Convertible kg then ({ S with massF := u.factor }.setDef .mass u, true)
  else if k = .length ∧ u.Convertible meter then ({ S with lengthF := u.factor }.setDef .length u, true)
  else if k = .time ∧ u.Convertible sec then ({ S with timeF := u.factor }.setDef .time u, true)
  else if k = .temperature ∧ u.Convertible kelvin then (S, decide (u.factor = 1))
  else if k = .current ∧ u.Convertible ampere then (S, decide (u.factor = 1))
  else if k = .quantity ∧ u.Convertible kmol then ({ S with qtyF := u.factor }.setDef .quantity u, true)
  else if k = .pressure ∧ u.Convertible pascal then ({ S with presF := u.factor }.setDef .pressure u, true)
  else if k = .energy ∧ u.Convertible joule then ({ S with enF := u.factor }.setDef .energy u, true)
  else if k = .activation then (S, true)
  else (S, false)

/-- The loop of setDefaults(map). -/
noncomputable def Sys.setKeys : Sys → List (Key × U) → Sys × Bool
  | S, [] => (S, true)
  | S, p :: l =>
    if (S.setKey p.1 p.2).2 = true then Sys.setKeys (S.setKey p.1 p.2).1 l
    else ((S.setKey p.1 p.2).1, false)

/-- `units.at("activation-energy")`: a map has at most one entry per key; here the first. -/
def actEntry (l : List (Key × U)) : Option U := (l.find? (fun p => decide (p.1 = .activation))).map Prod.snd

/-- setDefaults(map) (Units.cpp:472-519) -/
noncomputable def Sys.setMap (R NA : ℝ) (S : Sys) (l : List (Key × U)) : Sys × Bool :=
  if (S.setKeys l).2 = true then
    match actEntry l with
    | some u => (S.setKeys l).1.setAct R NA u
    | none => ((S.setKeys l).1.refresh, true)
  else S.setKeys l

open Classical in
/-- convert between explicit units (Units.cpp:543-552) -/
noncomputable def convert (v : ℝ) (src dest : U) : Outcome ℝ :=
  if ¬ src.Convertible dest then .throw else .ok (v * src.factor / dest.factor)

/-- convertTo (Units.cpp:559-568) -/
noncomputable def Sys.convertTo (S : Sys) (v : ℝ) (d : U) : ℝ :=
  v / d.factor
    * S.massF ^ (d.mass - d.pres - d.en)
    * S.lengthF ^ (d.length + d.pres - 2 * d.en)
    * S.timeF ^ (d.time + 2 * d.pres + 2 * d.en)
    * S.qtyF ^ d.quantity
    * S.presF ^ d.pres
    * S.enF ^ d.en

/-- convertFrom (Units.cpp:575-584) -/
noncomputable def Sys.convertFrom (S : Sys) (v : ℝ) (s : U) : ℝ :=
  v * s.factor
    * S.massF ^ (-s.mass + s.pres + s.en)
    * S.lengthF ^ (-s.length - s.pres + 2 * s.en)
    * S.timeF ^ (-s.time - 2 * s.pres - 2 * s.en)
    * S.qtyF ^ (-s.quantity)
    * S.presF ^ (-s.pres)
    * S.enF ^ (-s.en)

open Classical in
/-- First half of convertActivationEnergy: J/kmol per unit (Units.cpp:677-687). -/
noncomputable def actScale (R NA : ℝ) (u : U) : Option ℝ :=
  if u.Convertible jPerKmol then some u.factor
  else if u.Convertible kelvin then some (R * u.factor)
  else if u.Convertible joule then some (NA * u.factor)
  else none

/-- convertActivationEnergy (Units.cpp:673-703) -/
noncomputable def convertAct (R NA v : ℝ) (src dest : U) : Outcome ℝ :=
  match actScale R NA src with
  | none => .throw
  | some a =>
    match actScale R NA dest with
    | none => .throw
    | some b => .ok (v * a / b)

open Classical in
/-- convertActivationEnergyTo (Units.cpp:710-723) -/
noncomputable def Sys.actTo (R NA : ℝ) (S : Sys) (v : ℝ) (d : U) : Outcome ℝ :=
  if d.Convertible jPerKmol then .ok (v * S.actF / d.factor)
  else if d.Convertible kelvin then .ok (v * S.actF / R)
  else if d.Convertible joule then .ok (v * S.actF / (NA * d.factor))
  else .throw

open Classical in
/-- convertActivationEnergyFrom (Units.cpp:725-738) -/
noncomputable def Sys.actFrom (R NA : ℝ) (S : Sys) (v : ℝ) (s : U) : Outcome ℝ :=
  if s.Convertible jPerKmol then .ok (v * s.factor / S.actF)
  else if s.Convertible kelvin then .ok (v * R / S.actF)
  else if s.Convertible joule then .ok (v * NA * s.factor / S.actF)
  else .throw

open Classical in
/-- One entry of getDelta (Units.cpp:763-780). -/
noncomputable def deltaEntry (S : Sys) (k : Key) (dflt : U) (a b : ℝ) : List (Key × U) :=
  if a ≠ b then [(k, (S.defs k).getD dflt)] else []

open Classical in
/-- getDelta (Units.cpp:757-788) -/
noncomputable def Sys.getDelta (S O : Sys) : List (Key × U) :=
  deltaEntry S .mass kg S.massF O.massF ++ deltaEntry S .length meter S.lengthF O.lengthF ++
  deltaEntry S .time sec S.timeF O.timeF ++ deltaEntry S .pressure pascal S.presF O.presF ++
  deltaEntry S .energy joule S.enF O.enF ++ deltaEntry S .quantity kmol S.qtyF O.qtyF ++
  if S.explicitAct = true ∨ (O.explicitAct = true ∧ S.actF ≠ S.enF / S.qtyF) then
    [(.activation, (S.defs .activation).getD jPerKmol)]
  else []

end Verif.Units
