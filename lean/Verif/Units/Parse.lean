import Verif.Units.Model
import Verif.Text.Fp

/-!
# Model of the text form of `Units` (C74)

`Units::Units(string, bool)` and `Units::str` (src/base/Units.cpp:14-104, 131-197, 234-288).  Strings
are lists of characters.  Numbers are read by the model of `fpValueCheck` of `Verif.Text.Fp`; number
formatting by `fmt` is an oracle.
-/

namespace Verif.Units.Parse

open Verif Verif.Units Verif.Fp

/-- knownUnits (Units.cpp:17-81); the constants are those of include/cantera/base/ct_defs.h:81-96. -/
noncomputable def knownUnits : List (List Char × U) :=
  [("".toList, U.mk6 1 0 0 0 0 0 0),
   ("1".toList, U.mk6 1 0 0 0 0 0 0),
   ("kg".toList, U.mk6 1 1 0 0 0 0 0),
   ("g".toList, U.mk6 (1 / 10 ^ 3) 1 0 0 0 0 0),
   ("m".toList, U.mk6 1 0 1 0 0 0 0),
   ("micron".toList, U.mk6 (1 / 10 ^ 6) 0 1 0 0 0 0),
   ("angstrom".toList, U.mk6 (1 / 10 ^ 10) 0 1 0 0 0 0),
   ("Å".toList, U.mk6 (1 / 10 ^ 10) 0 1 0 0 0 0),
   ("s".toList, U.mk6 1 0 0 1 0 0 0),
   ("min".toList, U.mk6 60 0 0 1 0 0 0),
   ("hr".toList, U.mk6 3600 0 0 1 0 0 0),
   ("K".toList, U.mk6 1 0 0 0 1 0 0),
   ("C".toList, U.mk6 1 0 0 0 1 0 0),
   ("A".toList, U.mk6 1 0 0 0 0 1 0),
   ("mol".toList, U.mk6 (1 / 10 ^ 3) 0 0 0 0 0 1),
   ("gmol".toList, U.mk6 (1 / 10 ^ 3) 0 0 0 0 0 1),
   ("mole".toList, U.mk6 (1 / 10 ^ 3) 0 0 0 0 0 1),
   ("kmol".toList, U.mk6 1 0 0 0 0 0 1),
   ("kgmol".toList, U.mk6 1 0 0 0 0 0 1),
   ("molec".toList, U.mk6 (1 / (602214076 * 10 ^ 18)) 0 0 0 0 0 1),
   ("J".toList, U.mk6 1 1 2 (-2) 0 0 0),
   ("cal".toList, U.mk6 (4184 / 1000) 1 2 (-2) 0 0 0),
   ("erg".toList, U.mk6 (1 / 10 ^ 7) 1 2 (-2) 0 0 0),
   ("eV".toList, U.mk6 (1602176634 / 10 ^ 28) 1 2 (-2) 0 0 0),
   ("N".toList, U.mk6 1 1 1 (-2) 0 0 0),
   ("dyn".toList, U.mk6 (1 / 10 ^ 5) 1 1 (-2) 0 0 0),
   ("Pa".toList, U.mk6 1 1 (-1) (-2) 0 0 0),
   ("atm".toList, U.mk6 101325 1 (-1) (-2) 0 0 0),
   ("bar".toList, U.mk6 (10 ^ 5) 1 (-1) (-2) 0 0 0),
   ("dyn/cm^2".toList, U.mk6 (1 / 10) 1 (-1) (-2) 0 0 0),
   ("m^3".toList, U.mk6 1 0 3 0 0 0 0),
   ("liter".toList, U.mk6 (1 / 10 ^ 3) 0 3 0 0 0 0),
   ("L".toList, U.mk6 (1 / 10 ^ 3) 0 3 0 0 0 0),
   ("l".toList, U.mk6 (1 / 10 ^ 3) 0 3 0 0 0 0),
   ("cc".toList, U.mk6 (1 / 10 ^ 6) 0 3 0 0 0 0),
   ("ohm".toList, U.mk6 1 1 2 (-3) 0 (-2) 0),
   ("V".toList, U.mk6 1 1 2 (-3) 0 (-1) 0),
   ("coulomb".toList, U.mk6 1 0 0 1 0 1 0),
   ("J/kmol".toList, U.mk6 1 1 2 (-2) 0 0 (-1))]

/-- prefixes (Units.cpp:83-103) -/
noncomputable def prefixes : List (Char × ℝ) :=
  [('Y', 10 ^ 24), ('Z', 10 ^ 21), ('E', 10 ^ 18), ('P', 10 ^ 15), ('T', 10 ^ 12), ('G', 10 ^ 9),
   ('M', 10 ^ 6), ('k', 10 ^ 3), ('h', 10 ^ 2), ('d', 1 / 10), ('c', 1 / 10 ^ 2), ('m', 1 / 10 ^ 3),
   ('u', 1 / 10 ^ 6), ('n', 1 / 10 ^ 9), ('p', 1 / 10 ^ 12), ('f', 1 / 10 ^ 15),
   ('a', 1 / 10 ^ 18), ('z', 1 / 10 ^ 21), ('y', 1 / 10 ^ 24)]

/-- The unit of a group (Units.cpp:167-183): a known name, or a prefix and a known name; `none` is
the exception.  `unit.substr(1)` is only reached for a non-empty name, since the empty name is
known. -/
noncomputable def findUnit (unit : List Char) : Option U :=
  match knownUnits.lookup unit with
  | some u => some u
  | none =>
    match unit with
    | [] => none
    | p :: suffix =>
      match prefixes.lookup p, knownUnits.lookup suffix with
      | some k, some u => some { u with factor := u.factor * k }
      | _, _ => none

/-- The match at the start of the text of the expression `[+-]?([0-9]+([.][0-9]*)?|[.][0-9]+)`
without its sign (Units.cpp:136). -/
def leadBody (s : List Char) : Option (List Char × List Char) :=
  let ip := s.takeWhile Char.isDigit
  let r := s.dropWhile Char.isDigit
  match r with
  | '.' :: r' =>
    let fp := r'.takeWhile Char.isDigit
    if ip = [] ∧ fp = [] then none
    else some (ip ++ '.' :: fp, r'.dropWhile Char.isDigit)
  | _ => if ip = [] then none else some (ip, r)

/-- The factor (Units.cpp:135-145).  The search looks for the leftmost match, and the match is used
if its text occurs at position 0.  As the text of a match is itself a match, this happens exactly if
there is a match at position 0. -/
def leading (s : List Char) : Option (List Char × List Char) :=
  match s with
  | [] => none
  | c :: r =>
    if isSign c then (leadBody r).map (fun p => (c :: p.1, p.2)) else leadBody (c :: r)

/-- Splitting at `*` and `/` (Units.cpp:149, 185-188): the first group, and the other groups with
the separator in front of them. -/
def splitGroups : List Char → List Char × List (Char × List Char)
  | [] => ([], [])
  | c :: r =>
    if c = '*' ∨ c = '/' then ([], (c, (splitGroups r).1) :: (splitGroups r).2)
    else (c :: (splitGroups r).1, (splitGroups r).2)

/-- The name of the unit of a group (Units.cpp:150-156). -/
def unitText (g : List Char) : List Char := trim (g.takeWhile (fun c => decide (c ≠ '^')))

/-- The exponent of a group (Units.cpp:158-161); `none` is an exception of `fpValueCheck`. -/
noncomputable def exponentOf (g : List Char) : Option ℝ :=
  match g.dropWhile (fun c => decide (c ≠ '^')) with
  | [] => some 1
  | _ :: t => fpValueCheck t

/-- One pass of the loop (Units.cpp:148-183); `sep` is the character before the group, the first
group is not in the denominator. -/
noncomputable def groupUnit (sep : Char) (g : List Char) : Option U :=
  match exponentOf g with
  | none => none
  | some e =>
    match findUnit (unitText g) with
    | none => none
    | some u => some (u.pow (if sep = '/' then -e else e))

/-- The loop (Units.cpp:147-189). -/
noncomputable def loop (acc : U) : List (Char × List Char) → Option U
  | [] => some acc
  | (sep, g) :: r =>
    match groupUnit sep g with
    | none => none
    | some u => loop (acc.mul u) r

/-- All groups of a text; the character before the first group is never a `/`: it is absent or the
last character of the factor. -/
def groups (s : List Char) : List (Char × List Char) := ('*', (splitGroups s).1) :: (splitGroups s).2

/-- The object at the start of the loop: member defaults (Units.h:77-85) and the factor. -/
noncomputable def start (f : ℝ) : U := ⟨f, 0, 0, 0, 0, 0, 0, 0, 0⟩

/-- The constructor from a string without the check of `force_unity` (Units.cpp:131-189). -/
noncomputable def parse (name : List Char) : Option U :=
  match leading name with
  | some (f, rest) =>
    match fpValueCheck f with
    | some v => loop (start v) (groups rest)
    | none => none
  | none => loop (start 1) (groups name)

open Classical in
/-- The constructor (Units.cpp:131-197); SmallNumber is 1e-300. -/
noncomputable def parseUnity (name : List Char) (forceUnity : Bool) : Option U :=
  match parse name with
  | none => none
  | some u => if forceUnity = true ∧ |u.factor - 1| > 1 / 10 ^ 300 then none else some u

/-- Formatting of numbers by `fmt` (Units.cpp:256-262, 277-279): integers with `{}`, doubles with
`{}` and doubles with `{:.1f}`. -/
structure Fmt where
  int : ℤ → List Char
  real : ℝ → List Char
  fixed : ℝ → List Char

/-- The dimensions in the order of the keys of the map (Units.cpp:236-243). -/
def dims (u : U) : List (List Char × ℝ) :=
  [("A".toList, u.current), ("K".toList, u.temp), ("kg".toList, u.mass),
   ("kmol".toList, u.quantity), ("m".toList, u.length), ("s".toList, u.time)]

/-- `round` of the C library: halves away from zero. -/
noncomputable def cround (x : ℝ) : ℤ := if 0 ≤ x then ⌊x + 1 / 2⌋ else ⌈x - 1 / 2⌉

open Classical in
/-- What one dimension appends to the numerator (Units.cpp:248-263). -/
noncomputable def numText (F : Fmt) (name : List Char) (e : ℝ) : List Char :=
  if e = 0 then []
  else if e = 1 then " * ".toList ++ name
  else if e = -1 then []
  else if e = cround e ∧ cround e > 0 then " * ".toList ++ name ++ '^' :: F.int (cround e)
  else if e = cround e then []
  else if e > 0 then " * ".toList ++ name ++ '^' :: F.real e
  else []

open Classical in
/-- What one dimension appends to the denominator (Units.cpp:248-263). -/
noncomputable def denText (F : Fmt) (name : List Char) (e : ℝ) : List Char :=
  if e = 0 then []
  else if e = 1 then []
  else if e = -1 then " / ".toList ++ name
  else if e = cround e ∧ cround e > 0 then []
  else if e = cround e then " / ".toList ++ name ++ '^' :: F.int (-cround e)
  else if e > 0 then []
  else " / ".toList ++ name ++ '^' :: F.real (-e)

/-- The numerator (Units.cpp:245-264). -/
noncomputable def num (F : Fmt) (u : U) : List Char :=
  ((dims u).map (fun p => numText F p.1 p.2)).flatten

/-- The denominator (Units.cpp:246-264). -/
noncomputable def den (F : Fmt) (u : U) : List Char :=
  ((dims u).map (fun p => denText F p.1 p.2)).flatten

open Classical in
/-- The text of the factor (Units.cpp:274-280). -/
noncomputable def factorText (F : Fmt) (f : ℝ) : List Char :=
  if f = cround f then F.fixed f else F.real f

open Classical in
/-- str (Units.cpp:234-288) -/
noncomputable def str (F : Fmt) (u : U) (skipUnity : Bool) : List Char :=
  if skipUnity = true ∧ |u.factor - 1| < 1 / 10 ^ 300 then
    if num F u ≠ [] then (num F u).drop 3 ++ den F u
    else '1' :: den F u
  else if num F u ≠ [] then factorText F u.factor ++ ' ' :: ((num F u).drop 3 ++ den F u)
  else factorText F u.factor ++ den F u

end Verif.Units.Parse
