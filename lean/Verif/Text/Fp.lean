import Verif.Basic
import Mathlib.Data.Real.Basic
import Mathlib.Data.List.TakeWhile
import Mathlib.Tactic.SplitIfs
import Mathlib.Tactic.NormNum

/-!
# Reading numbers from text (part of C33)

Model of `fpValueCheck` and `fpValue` (src/base/stringUtils.cpp:121-182).  Strings are lists of
characters; only ASCII matters.
-/

namespace Verif.Fp

/-- White space removed by `ba::trim_copy` (`std::isspace` of the C locale). -/
def isSpace (c : Char) : Bool :=
  c = ' ' || c = '\t' || c = '\n' || c = '\r' || c = '\x0b' || c = '\x0c'

/-- `ba::trim_copy`. -/
def trim (s : List Char) : List Char :=
  ((s.dropWhile isSpace).reverse.dropWhile isSpace).reverse

/-- One of `+` and `-`. -/
def isSign (c : Char) : Bool := c = '+' || c = '-'

/-- One of `e`, `E`, `d` and `D`. -/
def isExpChar (c : Char) : Bool := c = 'e' || c = 'E' || c = 'd' || c = 'D'

/-- The loop of `fpValueCheck` (src/base/stringUtils.cpp:147-180); `none` is an exception, the
result is the string with the exponent character replaced by `E`. -/
def chk : List Char → ℕ → ℕ → Option (List Char)
  | [], _, _ => some []
  | c :: r, numDot, numExp =>
    if c.isDigit then (chk r numDot numExp).map (c :: ·)
    else if c = '.' then
      if numDot + 1 > 1 then none
      else if numExp > 0 then none
      else (chk r (numDot + 1) numExp).map (c :: ·)
    else if isExpChar c then
      if numExp + 1 > 1 then none
      else match r with
        | [] => none
        | c2 :: r2 =>
          if isSign c2 then
            if r2 = [] then none
            else (chk r2 numDot (numExp + 1)).map (fun o => 'E' :: c2 :: o)
          else (chk (c2 :: r2) numDot (numExp + 1)).map ('E' :: ·)
    else none

/-- `fpValueCheck` without the final conversion (src/base/stringUtils.cpp:130-180). -/
def fpCheck (val : List Char) : Option (List Char) :=
  match trim val with
  | [] => none
  | c :: r =>
    if isSign c then
      if r = [] then none else (chk r 0 0).map (c :: ·)
    else chk (c :: r) 0 0

/-- Value of a string of decimal digits. -/
def decNat (l : List Char) : ℕ := l.foldl (fun a c => 10 * a + (c.toNat - '0'.toNat)) 0

/-- An optional sign: is it a minus, and what follows it. -/
def readSign : List Char → Bool × List Char
  | [] => (false, [])
  | c :: r => if c = '-' then (true, r) else if c = '+' then (false, r) else (false, c :: r)

/-- An optional fraction. -/
def readFrac : List Char → List Char × List Char
  | [] => ([], [])
  | c :: r => if c = '.' then (r.takeWhile Char.isDigit, r.dropWhile Char.isDigit) else ([], c :: r)

/-- An optional exponent. -/
def readExp : List Char → ℤ
  | [] => 0
  | c :: r =>
    if c = 'E' then
      let d : ℤ := decNat ((readSign r).2.takeWhile Char.isDigit)
      if (readSign r).1 then -d else d
    else 0

/-- `fpValue` (src/base/stringUtils.cpp:121-128): stream extraction of a `double` from a string
which passed the check.  A mantissa without digits makes the extraction fail, which stores zero;
otherwise the value is the decimal number (rounding, overflow and underflow are not modelled). -/
noncomputable def fpValue (s : List Char) : ℝ :=
  let r := (readSign s).2
  let ip := r.takeWhile Char.isDigit
  let fr := readFrac (r.dropWhile Char.isDigit)
  if ip ++ fr.1 = [] then 0
  else (if (readSign s).1 then -1 else 1) * decNat (ip ++ fr.1) *
    (10 : ℝ) ^ (readExp fr.2 - (fr.1.length : ℤ))

/-- `fpValueCheck` (src/base/stringUtils.cpp:130-182): `none` is an exception. -/
noncomputable def fpValueCheck (val : List Char) : Option ℝ := (fpCheck val).map fpValue

/-! ## The accepted numbers -/

/-- A number as text: sign, integer digits, optional fraction, optional exponent (character, sign,
digits). -/
structure Num where
  sg : Option Char
  ip : List Char
  fp : Option (List Char)
  ex : Option (Char × Option Char × List Char)

/-- Text of an optional sign. -/
def sgText : Option Char → List Char
  | none => []
  | some c => [c]

/-- Text of an optional fraction. -/
def fpText : Option (List Char) → List Char
  | none => []
  | some d => '.' :: d

/-- Text of an optional exponent. -/
def exText : Option (Char × Option Char × List Char) → List Char
  | none => []
  | some (c, s, d) => c :: (sgText s ++ d)

/-- The whole text. -/
def Num.text (n : Num) : List Char := sgText n.sg ++ (n.ip ++ (fpText n.fp ++ exText n.ex))

/-- All characters are digits. -/
def Digits (l : List Char) : Prop := ∀ c ∈ l, c.isDigit = true

/-- A well-formed exponent has at least one digit. -/
def exOk : Option (Char × Option Char × List Char) → Prop
  | none => True
  | some (c, s, d) => isExpChar c = true ∧ (∀ x ∈ s, isSign x = true) ∧ Digits d ∧ d ≠ []

/-- What the check accepts; a mantissa without any digit is not excluded. -/
def Num.Ok (n : Num) : Prop :=
  (∀ x ∈ n.sg, isSign x = true) ∧ Digits n.ip ∧ (∀ d ∈ n.fp, Digits d) ∧ exOk n.ex ∧
    n.ip ++ (fpText n.fp ++ exText n.ex) ≠ []

/-- Exponent as a number. -/
def exVal : Option (Char × Option Char × List Char) → ℤ
  | none => 0
  | some (_, s, d) => if s = some '-' then -(decNat d : ℤ) else decNat d

/-- The number meant by the text, zero if the mantissa has no digits. -/
noncomputable def Num.value (n : Num) : ℝ :=
  if n.ip ++ n.fp.getD [] = [] then 0
  else (if n.sg = some '-' then -1 else 1) * decNat (n.ip ++ n.fp.getD []) *
    (10 : ℝ) ^ (exVal n.ex - ((n.fp.getD []).length : ℤ))

/-! ## Proofs -/

theorem digit_not {c : Char} (h : c.isDigit = true) :
    c ≠ '.' ∧ isExpChar c = false ∧ isSign c = false ∧ isSpace c = false := by
  have key : ∀ d : Char, d.isDigit = false → c ≠ d := by
    intro d hd hc; rw [hc, hd] at h; cases h
  refine ⟨key _ (by decide), ?_, ?_, ?_⟩
  · simp [isExpChar, key 'e' (by decide), key 'E' (by decide), key 'd' (by decide),
      key 'D' (by decide)]
  · simp [isSign, key '+' (by decide), key '-' (by decide)]
  · simp [isSpace, key ' ' (by decide), key '\t' (by decide), key '\n' (by decide),
      key '\r' (by decide), key '\x0b' (by decide), key '\x0c' (by decide)]

theorem chk_cons (c : Char) (r : List Char) (numDot numExp : ℕ) : chk (c :: r) numDot numExp =
    if c.isDigit then (chk r numDot numExp).map (c :: ·)
    else if c = '.' then
      if numDot + 1 > 1 then none
      else if numExp > 0 then none
      else (chk r (numDot + 1) numExp).map (c :: ·)
    else if isExpChar c then
      if numExp + 1 > 1 then none
      else match r with
        | [] => none
        | c2 :: r2 =>
          if isSign c2 then
            if r2 = [] then none
            else (chk r2 numDot (numExp + 1)).map (fun o => 'E' :: c2 :: o)
          else (chk (c2 :: r2) numDot (numExp + 1)).map ('E' :: ·)
    else none := by
  rw [chk.eq_def]

theorem chk_digits {d r : List Char} (h : Digits d) (nd ne : ℕ) :
    chk (d ++ r) nd ne = (chk r nd ne).map (d ++ ·) := by
  induction d with
  | nil => simp
  | cons c d ih =>
    have hc : c.isDigit = true := h c List.mem_cons_self
    have hd : Digits d := fun x hx => h x (List.mem_cons_of_mem _ hx)
    rw [List.cons_append, chk_cons, if_pos hc, ih hd, Option.map_map]
    rfl

theorem chk_nil (nd ne : ℕ) : chk [] nd ne = some [] := by rw [chk]

theorem chk_exp {r out : List Char} {nd : ℕ} : chk r nd 1 = some out ↔ Digits r ∧ out = r := by
  induction r generalizing out nd with
  | nil =>
    rw [chk_nil]
    simp only [Option.some.injEq]
    exact ⟨fun h => ⟨by simp [Digits], h.symm⟩, fun h => h.2.symm⟩
  | cons c r ih =>
    rw [chk_cons]
    by_cases hc : c.isDigit = true
    · rw [if_pos hc, Option.map_eq_some_iff]
      constructor
      · rintro ⟨o, ho, rfl⟩
        obtain ⟨h1, rfl⟩ := ih.mp ho
        refine ⟨fun x hx => ?_, rfl⟩
        rcases List.mem_cons.mp hx with rfl | hx
        · exact hc
        · exact h1 x hx
      · rintro ⟨h, rfl⟩
        exact ⟨r, ih.mpr ⟨fun x hx => h x (List.mem_cons_of_mem _ hx), rfl⟩, rfl⟩
    · rw [if_neg hc]
      have hno : ¬ (Digits (c :: r) ∧ out = c :: r) := fun h => hc (h.1 c List.mem_cons_self)
      simp only [hno, iff_false]
      split_ifs
      all_goals first
        | omega
        | simp

/-- The exponent part with its character replaced. -/
def exOut : Option (Char × Option Char × List Char) → List Char
  | none => []
  | some (_, s, d) => 'E' :: (sgText s ++ d)

theorem not_dot_exp {c : Char} (h : isExpChar c = true) : c ≠ '.' ∧ c.isDigit = false := by
  have h' : c = 'e' ∨ c = 'E' ∨ c = 'd' ∨ c = 'D' := by simpa [isExpChar, or_assoc] using h
  rcases h' with rfl | rfl | rfl | rfl <;> decide

theorem sign_not {c : Char} (h : isSign c = true) :
    c ≠ '.' ∧ c.isDigit = false ∧ isExpChar c = false ∧ isSpace c = false := by
  have h' : c = '+' ∨ c = '-' := by simpa [isSign] using h
  rcases h' with rfl | rfl <;> decide

theorem chk_exText {ex : Option (Char × Option Char × List Char)} (h : exOk ex) (nd : ℕ) :
    chk (exText ex) nd 0 = some (exOut ex) := by
  rcases ex with _ | ⟨c, s, d⟩
  · exact chk_nil _ _
  · obtain ⟨h1, h2, h3, h4⟩ := h
    obtain ⟨n1, n2⟩ := not_dot_exp h1
    have hd : chk d nd 1 = some d := chk_exp.mpr ⟨h3, rfl⟩
    rcases s with _ | s
    · rcases d with _ | ⟨d0, d⟩
      · exact absurd rfl h4
      · have hs : isSign d0 = false := (digit_not (h3 d0 List.mem_cons_self)).2.2.1
        simp only [exText, sgText, List.nil_append, exOut]
        rw [chk_cons, if_neg (by rw [n2]; simp), if_neg n1, if_pos h1, if_neg (by omega)]
        simp only
        rw [if_neg (by rw [hs]; simp), hd]
        rfl
    · have hs : isSign s = true := h2 s rfl
      simp only [exText, sgText, List.cons_append, List.nil_append, exOut]
      rw [chk_cons, if_neg (by rw [n2]; simp), if_neg n1, if_pos h1, if_neg (by omega)]
      simp only
      rw [if_pos hs, if_neg h4, hd]
      rfl

/-- Whatever the loop accepts after the decimal point (or `numDot = 1`). -/
theorem chk_one {r out : List Char} (h : chk r 1 0 = some out) :
    ∃ d ex, Digits d ∧ exOk ex ∧ r = d ++ exText ex ∧ out = d ++ exOut ex := by
  induction r generalizing out with
  | nil =>
    rw [chk_nil] at h; cases h
    exact ⟨[], none, by simp [Digits], trivial, rfl, rfl⟩
  | cons c r ih =>
    rw [chk_cons] at h
    by_cases hc : c.isDigit = true
    · rw [if_pos hc, Option.map_eq_some_iff] at h
      obtain ⟨o, ho, rfl⟩ := h
      obtain ⟨d, ex, h1, h2, rfl, rfl⟩ := ih ho
      refine ⟨c :: d, ex, ?_, h2, rfl, rfl⟩
      intro x hx
      rcases List.mem_cons.mp hx with rfl | hx
      · exact hc
      · exact h1 x hx
    · rw [if_neg hc] at h
      by_cases h1 : c = '.'
      · rw [if_pos h1, if_pos (by omega)] at h; cases h
      · rw [if_neg h1] at h
        by_cases h2 : isExpChar c = true
        · rw [if_pos h2, if_neg (by omega)] at h
          rcases r with _ | ⟨c2, r2⟩
          · cases h
          · simp only at h
            by_cases h3 : isSign c2 = true
            · rw [if_pos h3] at h
              by_cases h4 : r2 = []
              · rw [if_pos h4] at h; cases h
              · rw [if_neg h4, Option.map_eq_some_iff] at h
                obtain ⟨o, ho, rfl⟩ := h
                obtain ⟨h5, rfl⟩ := chk_exp.mp ho
                exact ⟨[], some (c, some c2, o), by simp [Digits],
                  ⟨h2, by intro x hx; cases hx; exact h3, h5, h4⟩, rfl, rfl⟩
            · rw [if_neg h3, Option.map_eq_some_iff] at h
              obtain ⟨o, ho, rfl⟩ := h
              obtain ⟨h5, rfl⟩ := chk_exp.mp ho
              exact ⟨[], some (c, none, c2 :: r2), by simp [Digits],
                ⟨h2, (by intro x hx; cases hx), h5, by simp⟩, rfl, rfl⟩
        · rw [if_neg h2] at h; cases h

/-- Whatever the loop accepts from the start. -/
theorem chk_zero {r out : List Char} (h : chk r 0 0 = some out) :
    ∃ d fp ex, Digits d ∧ (∀ x ∈ fp, Digits x) ∧ exOk ex ∧ r = d ++ (fpText fp ++ exText ex) ∧
      out = d ++ (fpText fp ++ exOut ex) := by
  induction r generalizing out with
  | nil =>
    rw [chk_nil] at h; cases h
    exact ⟨[], none, none, by simp [Digits], by simp, trivial, rfl, rfl⟩
  | cons c r ih =>
    rw [chk_cons] at h
    by_cases hc : c.isDigit = true
    · rw [if_pos hc, Option.map_eq_some_iff] at h
      obtain ⟨o, ho, rfl⟩ := h
      obtain ⟨d, fp, ex, h1, h2, h3, rfl, rfl⟩ := ih ho
      refine ⟨c :: d, fp, ex, ?_, h2, h3, rfl, rfl⟩
      intro x hx
      rcases List.mem_cons.mp hx with rfl | hx
      · exact hc
      · exact h1 x hx
    · rw [if_neg hc] at h
      by_cases h1 : c = '.'
      · rw [if_pos h1, if_neg (by omega), if_neg (by omega), Option.map_eq_some_iff] at h
        obtain ⟨o, ho, rfl⟩ := h
        obtain ⟨d, ex, h2, h3, rfl, rfl⟩ := chk_one ho
        subst h1
        exact ⟨[], some d, ex, by simp [Digits], by intro x hx; cases hx; exact h2, h3, rfl, rfl⟩
      · rw [if_neg h1] at h
        by_cases h2 : isExpChar c = true
        · rw [if_pos h2, if_neg (by omega)] at h
          rcases r with _ | ⟨c2, r2⟩
          · cases h
          · simp only at h
            by_cases h3 : isSign c2 = true
            · rw [if_pos h3] at h
              by_cases h4 : r2 = []
              · rw [if_pos h4] at h; cases h
              · rw [if_neg h4, Option.map_eq_some_iff] at h
                obtain ⟨o, ho, rfl⟩ := h
                obtain ⟨h5, rfl⟩ := chk_exp.mp ho
                exact ⟨[], none, some (c, some c2, o), by simp [Digits], by simp,
                  ⟨h2, by intro x hx; cases hx; exact h3, h5, h4⟩, rfl, rfl⟩
            · rw [if_neg h3, Option.map_eq_some_iff] at h
              obtain ⟨o, ho, rfl⟩ := h
              obtain ⟨h5, rfl⟩ := chk_exp.mp ho
              exact ⟨[], none, some (c, none, c2 :: r2), by simp [Digits], by simp,
                ⟨h2, (by intro x hx; cases hx), h5, by simp⟩, rfl, rfl⟩
        · rw [if_neg h2] at h; cases h

theorem chk_body {d : List Char} {fp : Option (List Char)}
    {ex : Option (Char × Option Char × List Char)} (h1 : Digits d) (h2 : ∀ x ∈ fp, Digits x)
    (h3 : exOk ex) :
    chk (d ++ (fpText fp ++ exText ex)) 0 0 = some (d ++ (fpText fp ++ exOut ex)) := by
  rw [chk_digits h1]
  rcases fp with _ | f
  · simp only [fpText, List.nil_append]
    rw [chk_exText h3]; rfl
  · simp only [fpText, List.cons_append]
    rw [chk_cons, if_neg (by decide), if_pos rfl, if_neg (by omega), if_neg (by omega),
      chk_digits (h2 f rfl), chk_exText h3]
    rfl

/-- The text of a number with the exponent character replaced, as handed to the conversion. -/
def Num.out (n : Num) : List Char := sgText n.sg ++ (n.ip ++ (fpText n.fp ++ exOut n.ex))

theorem body_head {n : Num} (h : n.Ok) {c : Char} {r : List Char}
    (hb : n.ip ++ (fpText n.fp ++ exText n.ex) = c :: r) : isSign c = false := by
  rcases hi : n.ip with _ | ⟨d, ip⟩
  · rw [hi, List.nil_append] at hb
    rcases hf : n.fp with _ | f
    · rw [hf] at hb
      have he := h.2.2.2.1
      rcases hx : n.ex with _ | ⟨x, s, d⟩
      · rw [hx] at hb; cases hb
      · rw [hx] at hb he
        simp only [fpText, exText, List.nil_append, List.cons.injEq] at hb
        rw [← hb.1]
        have : isExpChar x = true := he.1
        have h' : x = 'e' ∨ x = 'E' ∨ x = 'd' ∨ x = 'D' := by
          simpa [isExpChar, or_assoc] using this
        rcases h' with rfl | rfl | rfl | rfl <;> decide
    · rw [hf] at hb
      simp only [fpText, List.cons_append, List.cons.injEq] at hb
      rw [← hb.1]; decide
  · rw [hi, List.cons_append, List.cons.injEq] at hb
    have : d.isDigit = true := h.2.1 d (by rw [hi]; exact List.mem_cons_self)
    rw [← hb.1]
    exact (digit_not this).2.2.1

/-- The check accepts exactly the texts of the well-formed numbers (after trimming). -/
theorem fpCheck_iff (val out : List Char) :
    fpCheck val = some out ↔ ∃ n : Num, n.Ok ∧ trim val = n.text ∧ out = n.out := by
  unfold fpCheck
  generalize trim val = s
  constructor
  · intro h
    rcases s with _ | ⟨c, r⟩
    · cases h
    · simp only at h
      by_cases hs : isSign c = true
      · rw [if_pos hs] at h
        by_cases hr : r = []
        · rw [if_pos hr] at h; cases h
        · rw [if_neg hr, Option.map_eq_some_iff] at h
          obtain ⟨o, ho, rfl⟩ := h
          obtain ⟨d, fp, ex, h1, h2, h3, h4, rfl⟩ := chk_zero ho
          exact ⟨⟨some c, d, fp, ex⟩, ⟨by intro x hx; cases hx; exact hs, h1, h2, h3,
            by rw [← h4]; exact hr⟩, by rw [h4]; rfl, rfl⟩
      · rw [if_neg hs] at h
        obtain ⟨d, fp, ex, h1, h2, h3, h4, rfl⟩ := chk_zero h
        exact ⟨⟨none, d, fp, ex⟩, ⟨(by intro x hx; cases hx), h1, h2, h3,
          by rw [← h4]; simp⟩, by rw [h4]; rfl, rfl⟩
  · rintro ⟨n, hn, rfl, rfl⟩
    have hb := chk_body hn.2.1 hn.2.2.1 hn.2.2.2.1
    rcases hsg : n.sg with _ | c
    · simp only [Num.text, Num.out, hsg, sgText, List.nil_append]
      rcases hbody : n.ip ++ (fpText n.fp ++ exText n.ex) with _ | ⟨c, r⟩
      · exact absurd hbody hn.2.2.2.2
      · simp only
        rw [if_neg (by rw [body_head hn hbody]; simp), ← hbody, hb]
    · simp only [Num.text, Num.out, hsg, sgText, List.cons_append, List.nil_append]
      rw [if_pos (hn.1 c (by rw [hsg]; rfl)), if_neg hn.2.2.2.2, hb]
      rfl

/-- The number -1.5d-3. -/
def exNum : Num := ⟨some '-', ['1'], some ['5'], some ('d', some '-', ['3'])⟩

theorem exNum_ok : exNum.Ok := by
  refine ⟨?_, ?_, ?_, ⟨by decide, ?_, ?_, by simp⟩, by simp [exNum]⟩
  · intro x hx; cases hx; decide
  · intro c hc; simp [exNum] at hc; subst hc; decide
  · intro d hd; cases hd; intro c hc; simp at hc; subst hc; decide
  · intro x hx; cases hx; decide
  · intro c hc; simp at hc; subst hc; decide

example : exNum.Ok ∧ trim "  -1.5d-3 ".toList = exNum.text := ⟨exNum_ok, rfl⟩

theorem takeWhile_digits {d r : List Char} (h : Digits d)
    (hr : ∀ c ∈ r.head?, c.isDigit = false) :
    (d ++ r).takeWhile Char.isDigit = d ∧ (d ++ r).dropWhile Char.isDigit = r := by
  induction d with
  | nil =>
    rcases r with _ | ⟨c, r⟩
    · simp
    · have : c.isDigit = false := hr c rfl
      simp [this]
  | cons c d ih =>
    have hc : c.isDigit = true := h c List.mem_cons_self
    obtain ⟨i1, i2⟩ := ih (fun x hx => h x (List.mem_cons_of_mem _ hx))
    simp [hc, i1, i2]

theorem readSign_sg {s : Option Char} {r : List Char} (h : ∀ x ∈ s, isSign x = true)
    (hr : ∀ c ∈ r.head?, isSign c = false) : readSign (sgText s ++ r) = (decide (s = some '-'), r) := by
  rcases s with _ | c
  · simp only [sgText, List.nil_append]
    rcases r with _ | ⟨c, r⟩
    · simp [readSign]
    · have : isSign c = false := hr c rfl
      have h' : c ≠ '+' ∧ c ≠ '-' := by simpa [isSign] using this
      simp [readSign, h'.1, h'.2]
  · have : isSign c = true := h c rfl
    have h' : c = '+' ∨ c = '-' := by simpa [isSign] using this
    rcases h' with rfl | rfl <;> simp [sgText, readSign]

theorem readExp_out {ex : Option (Char × Option Char × List Char)} (h : exOk ex) :
    readExp (exOut ex) = exVal ex := by
  rcases ex with _ | ⟨c, s, d⟩
  · rfl
  · obtain ⟨h1, h2, h3, h4⟩ := h
    have hr : ∀ c ∈ d.head?, isSign c = false := by
      intro c hc
      exact (digit_not (h3 c (List.mem_of_mem_head? hc))).2.2.1
    have ht : d.takeWhile Char.isDigit = d := by
      have := (takeWhile_digits (r := []) h3 (by simp)).1
      simpa using this
    simp only [exOut, readExp, if_true, readSign_sg h2 hr, ht, exVal]
    by_cases hs : s = some '-' <;> simp [hs]

theorem exOut_head {ex : Option (Char × Option Char × List Char)} :
    ∀ c ∈ (exOut ex).head?, c = 'E' := by
  intro c hc
  rcases ex with _ | ⟨x, s, d⟩
  · simp [exOut] at hc
  · simp [exOut] at hc; exact hc.symm

theorem fpValue_out {n : Num} (h : n.Ok) : fpValue n.out = n.value := by
  obtain ⟨h1, h2, h3, h4, h5⟩ := h
  have hhead : ∀ c ∈ (n.ip ++ (fpText n.fp ++ exOut n.ex)).head?, isSign c = false := by
    intro c hc
    rcases hi : n.ip with _ | ⟨d, ip⟩
    · rw [hi, List.nil_append] at hc
      rcases hf : n.fp with _ | f
      · rw [hf] at hc
        simp only [fpText, List.nil_append] at hc
        rw [exOut_head c hc]; decide
      · rw [hf] at hc
        simp [fpText] at hc
        rw [← hc]; decide
    · rw [hi] at hc
      simp at hc
      subst hc
      exact (digit_not (h2 d (by rw [hi]; exact List.mem_cons_self))).2.2.1
  have hf1 : ∀ c ∈ (fpText n.fp ++ exOut n.ex).head?, c.isDigit = false := by
    intro c hc
    rcases hf : n.fp with _ | f
    · rw [hf] at hc
      simp only [fpText, List.nil_append] at hc
      rw [exOut_head c hc]; decide
    · rw [hf] at hc
      simp [fpText] at hc
      rw [← hc]; decide
  have hfrac : readFrac (fpText n.fp ++ exOut n.ex) = (n.fp.getD [], exOut n.ex) := by
    rcases hf : n.fp with _ | f
    · simp only [fpText, List.nil_append, Option.getD_none]
      rcases hx : exOut n.ex with _ | ⟨c, r⟩
      · rfl
      · have : c = 'E' := exOut_head (ex := n.ex) c (by rw [hx]; rfl)
        simp [readFrac, this]
    · have hd : Digits f := h3 f (by rw [hf]; rfl)
      obtain ⟨t1, t2⟩ := takeWhile_digits (r := exOut n.ex) hd (by
        intro c hc; rw [exOut_head c hc]; decide)
      simp [fpText, readFrac, t1, t2]
  obtain ⟨t1, t2⟩ := takeWhile_digits h2 hf1
  unfold fpValue Num.out Num.value
  rw [readSign_sg h1 hhead]
  simp only [t1, t2, hfrac, readExp_out h4]
  by_cases hs : n.sg = some '-' <;> simp [hs]

/-- `fpValueCheck` returns a number exactly for the texts of the well-formed numbers, and it is
the number meant. -/
theorem fpValueCheck_iff (val : List Char) (v : ℝ) :
    fpValueCheck val = some v ↔ ∃ n : Num, n.Ok ∧ trim val = n.text ∧ v = n.value := by
  unfold fpValueCheck
  rw [Option.map_eq_some_iff]
  constructor
  · rintro ⟨out, h, rfl⟩
    obtain ⟨n, h1, h2, rfl⟩ := (fpCheck_iff val out).mp h
    exact ⟨n, h1, h2, fpValue_out h1⟩
  · rintro ⟨n, h1, h2, rfl⟩
    exact ⟨n.out, (fpCheck_iff val _).mpr ⟨n, h1, h2, rfl⟩, fpValue_out h1⟩

example : fpValueCheck " -1.5d-3 ".toList = some (-15 * (10 : ℝ) ^ (-4 : ℤ)) := by
  rw [fpValueCheck_iff]
  refine ⟨exNum, exNum_ok, rfl, ?_⟩
  simp [Num.value, exNum, decNat, exVal]

/-- Texts without any digit in the mantissa are accepted and read as zero. -/
theorem malformed_accepted : fpValueCheck ".".toList = some 0 ∧
    fpValueCheck "E5".toList = some 0 ∧ fpValueCheck "+.".toList = some 0 := by
  refine ⟨?_, ?_, ?_⟩
  · rw [fpValueCheck_iff]
    refine ⟨⟨none, [], some [], none⟩, ⟨by simp, by simp [Digits], ?_, trivial, by simp [fpText]⟩,
      rfl, by simp [Num.value]⟩
    intro d hd; cases hd; simp [Digits]
  · rw [fpValueCheck_iff]
    refine ⟨⟨none, [], none, some ('E', none, ['5'])⟩, ⟨by simp, by simp [Digits], by simp,
      ⟨by decide, by simp, ?_, by simp⟩, by simp [fpText, exText]⟩, rfl, by simp [Num.value]⟩
    intro c hc; simp at hc; subst hc; decide
  · rw [fpValueCheck_iff]
    refine ⟨⟨some '+', [], some [], none⟩, ⟨by intro x hx; cases hx; decide, by simp [Digits], ?_,
      trivial, by simp [fpText]⟩, rfl, by simp [Num.value]⟩
    intro d hd; cases hd; simp [Digits]

/-- Every accepted text consists of digits, signs, the decimal point and exponent characters, so
it contains no colon, comma or white space. -/
theorem accepted_chars {val : List Char} {v : ℝ} (h : fpValueCheck val = some v) :
    ∀ c ∈ trim val, c.isDigit = true ∨ isSign c = true ∨ c = '.' ∨ isExpChar c = true := by
  obtain ⟨n, ⟨h1, h2, h3, h4, _⟩, ht, _⟩ := (fpValueCheck_iff val v).mp h
  rw [ht]
  intro c hc
  simp only [Num.text, List.mem_append] at hc
  rcases hc with hc | hc | hc | hc
  · rcases hs : n.sg with _ | s
    · rw [hs] at hc; simp [sgText] at hc
    · rw [hs] at hc; simp [sgText] at hc; subst hc
      exact Or.inr (Or.inl (h1 c (by rw [hs]; rfl)))
  · exact Or.inl (h2 c hc)
  · rcases hf : n.fp with _ | f
    · rw [hf] at hc; simp [fpText] at hc
    · rw [hf] at hc
      simp only [fpText, List.mem_cons] at hc
      rcases hc with hc | hc
      · exact Or.inr (Or.inr (Or.inl hc))
      · exact Or.inl (h3 f (by rw [hf]; rfl) c hc)
  · rcases hx : n.ex with _ | ⟨x, s, d⟩
    · rw [hx] at hc; simp [exText] at hc
    · rw [hx] at hc h4
      simp only [exText, List.mem_cons, List.mem_append] at hc
      rcases hc with rfl | hc | hc
      · exact Or.inr (Or.inr (Or.inr h4.1))
      · rcases s with _ | s
        · simp [sgText] at hc
        · simp [sgText] at hc; subst hc
          exact Or.inr (Or.inl (h4.2.1 c rfl))
      · exact Or.inl (h4.2.2.1 c hc)

end Verif.Fp
