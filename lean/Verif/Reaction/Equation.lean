import Verif.Basic
import Verif.Text.Fp
import Verif.Text.CompString
import Mathlib.Data.Real.Basic
import Mathlib.Algebra.Order.Floor.Ring
import Mathlib.Algebra.Order.Archimedean.Real.Basic
import Mathlib.Tactic.SplitIfs
import Mathlib.Tactic.Linarith
import Mathlib.Tactic.NormNum

/-!
# Equation text of reactions (C37), model

Model of `Reaction::reactantString`, `productString`, `equation`, `setEquation`,
`parseReactionEquation`, `ThirdBody::setName`, `ThirdBody::collider`
(src/kinetics/Reaction.cpp:334-529, 746-777, 824-830, 869-937) and `tokenizeString`
(src/base/stringUtils.cpp:184-194).

Simplifications: strings are lists of characters; coefficients are real numbers and `show`, the
output of a number to a stream, is a parameter.  A `Composition` is a list of entries with different
names in the order of insertion instead of the order of names.  (The order decides only which of
several common species is left in the variable `third_body`, and that variable is not used if there
is more than one.)  `setValid` (913-917) is not modelled.
-/

namespace Verif.Equation

open Verif.Fp

/-- A string. -/
abbrev Str := List Char

/-- `Composition`. -/
abbrev Comp := List (Str × ℝ)

/-- Look up an entry. -/
def get : Comp → Str → Option ℝ
  | [], _ => none
  | (m, v) :: c, n => if m = n then some v else get c n

/-- `c[n] += v`. -/
def addTo : Comp → Str → ℝ → Comp
  | [], n, v => [(n, v)]
  | (m, w) :: c, n, v => if m = n then (m, w + v) :: c else (m, w) :: addTo c n v

/-- Assign to an existing entry. -/
def setC : Comp → Str → ℝ → Comp
  | [], _, _ => []
  | (m, w) :: c, n, v => if m = n then (m, v) :: c else (m, w) :: setC c n v

/-- `c.erase(n)`. -/
def eraseC (c : Comp) (n : Str) : Comp := c.filter (fun x => x.1 ≠ n)

/-! ## Tokens -/

/-- Maximal runs of characters other than white space; `cur` is the current run. -/
def wordsFrom : Str → Str → List Str
  | cur, [] => if cur = [] then [] else [cur]
  | cur, c :: cs =>
    if isSpace c then (if cur = [] then wordsFrom [] cs else cur :: wordsFrom [] cs)
    else wordsFrom (cur ++ [c]) cs

/-- `tokenizeString` (src/base/stringUtils.cpp:184-194). -/
def tokenize (s : Str) : List Str := wordsFrom [] (trim s)

/-- `ba::starts_with`. -/
def starts (s p : Str) : Bool := p.isPrefixOf s

/-- `ba::ends_with(s, ")")`. -/
def endsPar (s : Str) : Bool := s.getLast? = some ')'

/-- Tokens at which a term ends (src/kinetics/Reaction.cpp:881-882). -/
def isSepTok (t : Str) : Bool :=
  t = ['+'] || starts t ['(', '+'] || t = ['<', '=', '>'] || t = ['='] || t = ['=', '>']

/-- Variables of `parseReactionEquation`; `lu` is `last_used`, where `npos` is -1 (the comparisons
with `i-1`, `i-2`, `i-3` are modulo the range of `size_t`). -/
structure PS where
  lu : ℤ
  left : Bool
  reac : Comp
  prod : Comp
  rev : Bool

/-- Lines 919-925. -/
def PS.use (s : PS) (i : ℕ) (sp : Str) (v : ℝ) : PS :=
  if s.left then { s with
    lu := i
    reac := addTo s.reac sp v }
  else { s with
    lu := i
    prod := addTo s.prod sp v }

/-- Lines 928-935. -/
def PS.arrow (s : PS) (t : Str) : PS :=
  if t = ['<', '=', '>'] ∨ t = ['='] then { s with
    rev := true
    left := false }
  else if t = ['=', '>'] then { s with
    rev := false
    left := false }
  else s

/-- The end of a term at token `i` (883-925); `none` is an exception. -/
noncomputable def term (toks : List Str) (i : ℕ) (s : PS) : Option PS :=
  let sp := toks.getD (i - 1) []
  if s.lu ≠ -1 ∧ toks.getD s.lu.toNat [] = ['(', '+'] ∧ endsPar sp then
    some (s.use i (['(', '+'] ++ sp) 1)
  else if s.lu = i - 1 ∧ starts sp ['(', '+'] ∧ endsPar sp then some (s.use i sp 1)
  else if s.lu = i - 2 then some (s.use i sp 1)
  else if s.lu = i - 3 then
    match fpValueCheck (toks.getD (i - 2) []) with
    | some v => some (s.use i sp v)
    | none => none
  else none

/-- One pass of the loop (880-936). -/
noncomputable def step (toks : List Str) (i : ℕ) (s : PS) : Option PS :=
  let t := toks.getD i []
  if isSepTok t then (term toks i s).map (fun s' => s'.arrow t) else some (s.arrow t)

/-- Passes `i`, ..., `i + k - 1`. -/
noncomputable def exec (toks : List Str) : ℕ → ℕ → PS → Option PS
  | _, 0, s => some s
  | i, k + 1, s => match step toks i s with
    | some s' => exec toks (i + 1) k s'
    | none => none

/-- A third body. -/
structure TB where
  name : Str
  massAction : Bool
  effs : Comp
  dflt : ℝ
  explicit : Bool

/-- A new `ThirdBody`. -/
def TB.new : TB := ⟨['M'], true, [], 1, false⟩

/-- Parts of a reaction which `setEquation` uses. -/
structure Rxn where
  reac : Comp
  prod : Comp
  rev : Bool
  tb : Option TB
  explicitType : Bool

/-- A new `Reaction`. -/
def Rxn.new : Rxn := ⟨[], [], true, none, false⟩

/-- `parseReactionEquation` (869-937). -/
noncomputable def parse (r : Rxn) (eq : Str) : Option Rxn :=
  let toks := tokenize eq ++ [['+']]
  (exec toks 1 (toks.length - 1) ⟨-1, true, r.reac, r.prod, r.rev⟩).map fun s =>
    { r with
      reac := s.reac
      prod := s.prod
      rev := s.rev }

/-! ## Third bodies -/

/-- `ThirdBody::setName` (751-777). -/
def TB.setName (tb : TB) (third : Str) : Outcome TB :=
  let par := starts third ['(', '+']
  let name := if starts third ['(', '+', ' '] then (third.drop 3).take (third.length - 4)
    else if par then (third.drop 2).take (third.length - 3) else third
  let tb := { tb with massAction := if par then false else tb.massAction }
  if name = tb.name then .ok tb
  else if name = ['M'] ∧ tb.effs.length = 1 then .ok { tb with name := name }
  else if tb.effs ≠ [] then .throw
  else .ok { tb with
    name := name
    dflt := 0
    effs := [(name, 1)] }

/-- Type of the rate, whether the first phase is not three-dimensional, and the entries
`efficiencies` and `default-efficiency` of the input. -/
structure Cfg where
  rateType : Str
  surface : Bool
  effs : Option Comp
  dflt : Bool

/-- The rate type starts with `three-body`. -/
def Cfg.three (cfg : Cfg) : Bool := starts cfg.rateType "three-body".toList

/-- One of the cases without third body (386-396). -/
def Cfg.fixed (cfg : Cfg) : Bool :=
  cfg.rateType = "elementary".toList || cfg.surface ||
    cfg.rateType = "electron-collision-plasma".toList

/-- A generic third body (405-406). -/
def generic (n : Str) : Bool := n = ['M'] || n = ['(', '+', 'M', ')'] || n = ['(', '+', ' ', 'M', ')']

/-- Reactants which are products, with both coefficients. -/
def commons (reac prod : Comp) : List (Str × ℝ × ℝ) :=
  reac.filterMap (fun x => (get prod x.1).map (fun w => (x.1, x.2, w)))

open Classical in
/-- How much a common species adds to `count` (407-412). -/
noncomputable def mult (x : Str × ℝ × ℝ) : ℕ := if x.2.1 > 1 ∧ x.2.2 > 1 then 2 else 1

/-- `count`. -/
noncomputable def count (l : List (Str × ℝ × ℝ)) : ℕ := (l.map mult).sum

/-- `countM`. -/
noncomputable def countM (l : List (Str × ℝ × ℝ)) : ℕ :=
  (l.map (fun x => if generic x.1 then mult x else 0)).sum

open Classical in
/-- Sum of integral coefficients (481-494): `none` if one is not an integer; conversion of a negative
number to `size_t` is undefined. -/
noncomputable def sumInt : Comp → ℤ → Outcome (Option ℤ)
  | [], a => .ok (some a)
  | (_, v) :: c, a =>
    if (⌊v⌋ : ℝ) ≠ v then .ok none
    else if v < 0 then .ub
    else sumInt c (a + ⌊v⌋)

open Classical in
/-- Take one third body off a coefficient (514-528); the iterator is not checked. -/
noncomputable def adjust (c : Comp) (t : Str) : Outcome Comp :=
  match get c t with
  | none => .ub
  | some v => if ¬ (1 ≤ v ∧ v < 2) then .ok (setC c t (v - 1)) else .ok (eraseC c t)

/-- The existing or new third body gets its name (502-512). -/
def nameTB (r : Rxn) (t : Str) : Outcome TB :=
  match r.tb with
  | some tb =>
    if tb.name ≠ t ∧ t ≠ ['M'] ∧ tb.name ≠ ['M'] then .throw else tb.setName t
  | none => TB.new.setName t

/-- The end of `setEquation` (502-528). -/
noncomputable def apply (r : Rxn) (t : Str) : Outcome Rxn :=
  (nameTB r t).bind fun tb =>
    (adjust r.reac t).bind fun rc =>
      (adjust r.prod t).bind fun pc =>
        .ok { r with
          reac := rc
          prod := pc
          tb := some tb }

/-- More than one common species, none of them generic (434-469). -/
noncomputable def ambiguous (cfg : Cfg) (r : Rxn) : Outcome Rxn :=
  match r.tb with
  | some tb => match tb.effs with
    | [(e, _)] =>
      if get r.reac e ≠ none then apply { r with tb := some { tb with explicit := true } } e
      else .throw
    | _ => .throw
  | none => match cfg.effs with
    | some [(e, _)] =>
      if get r.reac e ≠ none then
        (TB.new.setName e).bind fun tb =>
          apply { r with tb := some { tb with explicit := true } } e
      else .throw
    | some _ => .throw
    | none => if cfg.dflt then .throw else if cfg.three then .throw else .ok r

/-- One common species `t` (471-500). -/
noncomputable def single (cfg : Cfg) (r : Rxn) (t : Str) : Outcome Rxn :=
  if t ≠ ['M'] ∧ cfg.three = false ∧ starts t ['(', '+'] = false then
    (sumInt r.reac 0).bind fun a =>
      match a with
      | none => .ok r
      | some a => (sumInt r.prod 0).bind fun b =>
        match b with
        | none => .ok r
        | some b => if a ≠ 3 ∧ b ≠ 3 then .ok r else apply r t
  else apply r t

/-- Detection of the third body (398-528). -/
noncomputable def detect (cfg : Cfg) (r : Rxn) : Outcome Rxn :=
  let com := commons r.reac r.prod
  if count com = 0 then (if cfg.three then .throw else .ok r)
  else if countM com > 1 then .throw
  else if count com > 1 then
    if countM com > 0 then apply r ['M'] else ambiguous cfg r
  else single cfg r ((com.getLast?.map (fun x => x.1)).getD [])

/-- `Reaction::setEquation` (379-529). -/
noncomputable def setEquation (cfg : Cfg) (r : Rxn) (eq : Str) : Outcome Rxn :=
  match parse r eq with
  | none => .throw
  | some r =>
    if cfg.three then detect cfg { r with explicitType := true }
    else if cfg.rateType = "elementary".toList then .ok { r with explicitType := true }
    else if cfg.fixed then .ok r
    else detect cfg r

/-! ## Printing -/

open Classical in
/-- One term (341-344). -/
noncomputable def termText (shw : ℝ → Str) (x : Str × ℝ) : Str :=
  if x.2 ≠ 1 then shw x.2 ++ ' ' :: x.1 else x.1

/-- `ThirdBody::collider` (824-830), given name and `mass_action`. -/
def collider (t : Str × Bool) : Str :=
  if t.2 then [' ', '+', ' '] ++ t.1 else [' ', '(', '+'] ++ t.1 ++ [')']

/-- `reactantString` and `productString` (334-368). -/
noncomputable def sideText (shw : ℝ → Str) : Comp → Str
  | [] => []
  | [x] => termText shw x
  | x :: y :: c => termText shw x ++ [' ', '+', ' '] ++ sideText shw (y :: c)

/-- A reaction as far as its equation is concerned: the third body has a name and `mass_action`. -/
structure Src where
  reac : Comp
  prod : Comp
  rev : Bool
  third : Option (Str × Bool)

/-- Text of the third body. -/
def thirdText : Option (Str × Bool) → Str
  | none => []
  | some t => collider t

/-- `Reaction::equation` (370-377). -/
noncomputable def equation (shw : ℝ → Str) (r : Src) : Str :=
  (sideText shw r.reac ++ thirdText r.third) ++
    (if r.rev then [' ', '<', '=', '>', ' '] else [' ', '=', '>', ' ']) ++
    (sideText shw r.prod ++ thirdText r.third)

/-! ## Tokens of the printed text -/

theorem wordsFrom_append (cur a b : Str) :
    wordsFrom cur (a ++ ' ' :: b) = wordsFrom cur a ++ wordsFrom [] b := by
  induction a generalizing cur with
  | nil =>
    simp only [List.nil_append, wordsFrom]
    have : isSpace ' ' = true := by decide
    rw [if_pos this]
    split_ifs <;> simp
  | cons c a ih =>
    simp only [List.cons_append, wordsFrom]
    split_ifs <;> simp [ih]

/-- Characters which are not white space. -/
def NoSp (s : Str) : Prop := ∀ c ∈ s, isSpace c = false

theorem wordsFrom_word {w : Str} (cur : Str) (h : NoSp w) :
    wordsFrom cur w = if cur ++ w = [] then [] else [cur ++ w] := by
  induction w generalizing cur with
  | nil => simp [wordsFrom]
  | cons c w ih =>
    have hc : isSpace c = false := h c List.mem_cons_self
    rw [wordsFrom, if_neg (by simp [hc]), ih _ (fun x hx => h x (List.mem_cons_of_mem _ hx))]
    simp

theorem words_word {w : Str} (h : NoSp w) (hne : w ≠ []) : wordsFrom [] w = [w] := by
  rw [wordsFrom_word [] h]; simp [hne]

theorem wordsFrom_spaces {p : Str} (h : ∀ c ∈ p, isSpace c = true) (b : Str) :
    wordsFrom [] (p ++ b) = wordsFrom [] b := by
  induction p with
  | nil => rfl
  | cons c p ih =>
    rw [List.cons_append, wordsFrom, if_pos (h c List.mem_cons_self), if_pos rfl]
    exact ih (fun x hx => h x (List.mem_cons_of_mem _ hx))

theorem wordsFrom_trailing {q : Str} (h : ∀ c ∈ q, isSpace c = true) (cur a : Str) :
    wordsFrom cur (a ++ q) = wordsFrom cur a := by
  induction a generalizing cur with
  | nil =>
    rcases q with _ | ⟨c, q⟩
    · rfl
    · have h2 := wordsFrom_spaces (p := q) (fun x hx => h x (List.mem_cons_of_mem _ hx)) []
      rw [List.append_nil] at h2
      simp only [List.nil_append, wordsFrom]
      rw [if_pos (h c List.mem_cons_self), h2]
      simp [wordsFrom]
  | cons c a ih =>
    simp only [List.cons_append, wordsFrom]
    split_ifs <;> simp [ih]

theorem dropWhile_split (p : Char → Bool) (l : List Char) :
    ∃ a, l = a ++ l.dropWhile p ∧ ∀ c ∈ a, p c = true := by
  refine ⟨l.takeWhile p, (List.takeWhile_append_dropWhile).symm, fun c hc => ?_⟩
  exact List.mem_takeWhile_imp hc

/-- Trimming does not change the tokens. -/
theorem tokenize_eq (s : Str) : tokenize s = wordsFrom [] s := by
  unfold tokenize trim
  obtain ⟨a, ha, hsa⟩ := dropWhile_split isSpace s
  obtain ⟨b, hb, hsb⟩ := dropWhile_split isSpace (s.dropWhile isSpace).reverse
  generalize hd : s.dropWhile isSpace = d at *
  generalize he : d.reverse.dropWhile isSpace = e at *
  have hd2 : d = e.reverse ++ b.reverse := by
    rw [← List.reverse_reverse d, hb]; simp
  rw [ha, wordsFrom_spaces hsa, hd2, wordsFrom_trailing]
  intro c hc
  exact hsb c (List.mem_reverse.mp hc)

/-- Tokens of a term. -/
noncomputable def termToks (shw : ℝ → Str) (x : Str × ℝ) : List Str :=
  open Classical in if x.2 ≠ 1 then [shw x.2, x.1] else [x.1]

/-- Tokens of the terms of one side. -/
noncomputable def sideToks (shw : ℝ → Str) : Comp → List Str
  | [] => []
  | [x] => termToks shw x
  | x :: y :: c => termToks shw x ++ ['+'] :: sideToks shw (y :: c)

/-- A name which is read back as one token and not as a separator. -/
def Named (n : Str) : Prop := n ≠ [] ∧ NoSp n ∧ isSepTok n = false

/-- The number is printed as one word which is read back as the same number. -/
def Readable (shw : ℝ → Str) (v : ℝ) : Prop := NoSp (shw v) ∧ fpValueCheck (shw v) = some v

/-- A term which can be read back. -/
def TermOk (shw : ℝ → Str) (x : Str × ℝ) : Prop := Named x.1 ∧ (x.2 ≠ 1 → Readable shw x.2)

theorem readable_ne {shw : ℝ → Str} {v : ℝ} (h : Readable shw v) : shw v ≠ [] :=
  CompString.tok_ne_nil h.2

theorem words_term {shw : ℝ → Str} {x : Str × ℝ} (h : TermOk shw x) :
    wordsFrom [] (termText shw x) = termToks shw x := by
  unfold termText termToks
  by_cases hx : x.2 ≠ 1
  · rw [if_pos hx, if_pos hx, wordsFrom_append, words_word (h.2 hx).1 (readable_ne (h.2 hx)),
      words_word h.1.2.1 h.1.1]
    rfl
  · rw [if_neg hx, if_neg hx, words_word h.1.2.1 h.1.1]

theorem words_plus (a b : Str) : wordsFrom [] (a ++ [' ', '+', ' '] ++ b) =
    wordsFrom [] a ++ ['+'] :: wordsFrom [] b := by
  have : a ++ [' ', '+', ' '] ++ b = a ++ ' ' :: (['+'] ++ ' ' :: b) := by simp
  rw [this, wordsFrom_append, wordsFrom_append]
  rw [words_word (w := ['+']) (by intro c hc; simp at hc; subst hc; decide) (by simp)]
  rfl

theorem words_side {shw : ℝ → Str} : ∀ {c : Comp}, (∀ x ∈ c, TermOk shw x) →
    wordsFrom [] (sideText shw c) = sideToks shw c
  | [], _ => rfl
  | [x], h => words_term (h x List.mem_cons_self)
  | x :: y :: c, h => by
    rw [sideText, sideToks, words_plus, words_term (h x List.mem_cons_self),
      words_side (fun z hz => h z (List.mem_cons_of_mem _ hz))]

/-- Tokens of the third body. -/
def thirdToks : Option (Str × Bool) → List Str
  | none => []
  | some (n, true) => [['+'], n]
  | some (n, false) => [['(', '+'] ++ n ++ [')']]

/-- A third body which can be read back. -/
def ThirdOk : Option (Str × Bool) → Prop
  | none => True
  | some (n, true) => Named n
  | some (n, false) => n ≠ [] ∧ NoSp n

theorem words_third {third : Option (Str × Bool)} (h : ThirdOk third) (a : Str) :
    wordsFrom [] (a ++ thirdText third) = wordsFrom [] a ++ thirdToks third := by
  match third, h with
  | none, _ => simp [thirdText, thirdToks]
  | some (n, true), h =>
    have : a ++ thirdText (some (n, true)) = a ++ [' ', '+', ' '] ++ n := by
      simp [thirdText, collider]
    rw [this, words_plus, words_word h.2.1 h.1]
    rfl
  | some (n, false), h =>
    have : a ++ thirdText (some (n, false)) = a ++ ' ' :: (['(', '+'] ++ n ++ [')']) := by
      simp [thirdText, collider]
    rw [this, wordsFrom_append, words_word (w := ['(', '+'] ++ n ++ [')']) ?_ (by simp)]
    · rfl
    · intro c hc
      simp only [List.mem_append, List.mem_cons, List.not_mem_nil, or_false] at hc
      rcases hc with ((rfl | rfl) | hc) | rfl
      · decide
      · decide
      · exact h.2 c hc
      · decide

/-- The arrow. -/
def arrowTok (rev : Bool) : Str := if rev then ['<', '=', '>'] else ['=', '>']

theorem words_equation {shw : ℝ → Str} {r : Src} (h1 : ∀ x ∈ r.reac, TermOk shw x)
    (h2 : ∀ x ∈ r.prod, TermOk shw x) (h3 : ThirdOk r.third) :
    tokenize (equation shw r) = sideToks shw r.reac ++ thirdToks r.third ++ arrowTok r.rev ::
      (sideToks shw r.prod ++ thirdToks r.third) := by
  rw [tokenize_eq]
  have he : equation shw r = (sideText shw r.reac ++ thirdText r.third) ++
      ' ' :: (arrowTok r.rev ++ ' ' :: (sideText shw r.prod ++ thirdText r.third)) := by
    unfold equation arrowTok
    cases r.rev <;> simp
  rw [he, wordsFrom_append, wordsFrom_append, words_third h3, words_third h3, words_side h1,
    words_side h2]
  have ha : wordsFrom [] (arrowTok r.rev) = [arrowTok r.rev] := by
    unfold arrowTok
    cases r.rev <;> decide
  rw [ha]
  rfl

end Verif.Equation
