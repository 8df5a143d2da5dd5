import Verif.Units.Parse
import Mathlib.Data.List.TakeWhile
import Mathlib.Data.List.Forall2

/-!
# Lemmas about the reading of unit strings (C74)
-/

namespace Verif.Units.Parse

open Verif Verif.Units Verif.Fp

/-- A number without exponent and with at least one digit: what the regular expression matches. -/
def Plain (n : Num) : Prop := n.Ok ∧ n.ex = none ∧ n.ip ++ n.fp.getD [] ≠ []

/-- The text does not continue a number: no digit and no decimal point. -/
def NoNum (r : List Char) : Prop := ∀ c t, r = c :: t → c.isDigit = false ∧ c ≠ '.'

theorem trim_eq_self {l : List Char} (h : ∀ c ∈ l, isSpace c = false) : trim l = l := by
  have d : ∀ m : List Char, (∀ c ∈ m, isSpace c = false) → m.dropWhile isSpace = m := by
    intro m hm
    cases m with
    | nil => rfl
    | cons a m => rw [List.dropWhile_cons_of_neg (by simp [hm a (by simp)])]
  unfold trim
  rw [d l h, d l.reverse (fun c hc => h c (List.mem_reverse.mp hc)), List.reverse_reverse]

theorem digit_not_space {c : Char} (h : c.isDigit = true) : isSpace c = false := by
  simp only [isSpace, Bool.or_eq_false_iff, decide_eq_false_iff_not]
  refine ⟨⟨⟨⟨⟨?_, ?_⟩, ?_⟩, ?_⟩, ?_⟩, ?_⟩ <;> rintro rfl <;> revert h <;> decide

theorem plain_chars {n : Num} (h : Plain n) :
    ∀ c ∈ n.text, c.isDigit = true ∨ isSign c = true ∨ c = '.' := by
  obtain ⟨⟨h1, h2, h3, h4, h5⟩, h6, h7⟩ := h
  intro c hc
  simp only [Num.text, h6, exText, List.append_nil, List.mem_append] at hc
  rcases hc with hc | hc | hc
  · rcases hs : n.sg with _ | x
    · simp [hs, sgText] at hc
    · simp [hs, sgText] at hc
      subst hc
      exact Or.inr (Or.inl (h1 c (by simp [hs])))
  · exact Or.inl (h2 c hc)
  · rcases hf : n.fp with _ | x
    · simp [hf, fpText] at hc
    · simp only [hf, fpText, List.mem_cons] at hc
      rcases hc with rfl | hc
      · exact Or.inr (Or.inr rfl)
      · exact Or.inl (h3 x (by simp [hf]) c hc)

theorem plain_value {n : Num} (h : Plain n) : fpValueCheck n.text = some n.value := by
  rw [fpValueCheck_iff]
  refine ⟨n, h.1, trim_eq_self ?_, rfl⟩
  intro c hc
  rcases plain_chars h c hc with h | h | rfl
  · exact digit_not_space h
  · simp only [isSign, Bool.or_eq_true, decide_eq_true_eq] at h
    rcases h with rfl | rfl <;> decide
  · decide

theorem takeWhile_append_digits {d r : List Char} (hd : Digits d) (hr : NoNum r) :
    (d ++ r).takeWhile Char.isDigit = d ∧ (d ++ r).dropWhile Char.isDigit = r := by
  induction d with
  | nil =>
    cases r with
    | nil => simp
    | cons c t =>
      have := (hr c t rfl).1
      simp [this]
  | cons c d ih =>
    have hc := hd c (by simp)
    obtain ⟨i1, i2⟩ := ih (fun x hx => hd x (by simp [hx]))
    simp [hc, i1, i2]

theorem leadBody_num {ip : List Char} {fp : Option (List Char)} {r : List Char} (h1 : Digits ip)
    (h2 : ∀ d ∈ fp, Digits d) (h3 : ip ++ fp.getD [] ≠ []) (hr : NoNum r) :
    leadBody (ip ++ (fpText fp ++ r)) = some (ip ++ fpText fp, r) := by
  cases fp with
  | none =>
    simp only [fpText, List.nil_append, List.append_nil, Option.getD_none] at h3 ⊢
    obtain ⟨i1, i2⟩ := takeWhile_append_digits h1 hr
    unfold leadBody
    simp only [i1, i2, h3]
    cases r with
    | nil => simp
    | cons c t =>
      have hc := (hr c t rfl).2
      split
      · next heq => simp only [List.cons.injEq] at heq; exact absurd heq.1 hc
      · simp
  | some d =>
    simp only [fpText, List.cons_append, Option.getD_some] at h3 ⊢
    have hdig : (ip ++ '.' :: (d ++ r)).takeWhile Char.isDigit = ip ∧
        (ip ++ '.' :: (d ++ r)).dropWhile Char.isDigit = '.' :: (d ++ r) := by
      clear h3
      induction ip with
      | nil => refine ⟨?_, ?_⟩ <;> simp
      | cons c ip ih =>
        have hc := h1 c (by simp)
        obtain ⟨i1, i2⟩ := ih (fun x hx => h1 x (by simp [hx]))
        simp [hc, i1, i2]
    obtain ⟨j1, j2⟩ := takeWhile_append_digits (h2 d rfl) hr
    unfold leadBody
    simp only [hdig.1, hdig.2, j1, j2]
    rw [if_neg]
    rintro ⟨rfl, rfl⟩
    exact h3 rfl

/-- A number in front is taken as the factor. -/
theorem leading_num {n : Num} (h : Plain n) {r : List Char} (hr : NoNum r) :
    leading (n.text ++ r) = some (n.text, r) := by
  obtain ⟨⟨h1, h2, h3, h4, h5⟩, h6, h7⟩ := h
  have hb := leadBody_num h2 h3 h7 hr
  simp only [Num.text, h6, exText, List.append_nil] at hb ⊢
  rcases hs : n.sg with _ | x
  · simp only [sgText, List.nil_append, List.append_assoc] at hb ⊢
    have hd : ∀ c t, n.ip ++ (fpText n.fp ++ r) = c :: t → isSign c = false := by
      intro c t he
      cases hip : n.ip with
      | nil =>
        rw [hip] at he h7
        cases hf : n.fp with
        | none => simp [hf] at h7
        | some d =>
          rw [hf] at he
          simp only [List.nil_append, fpText, List.cons_append, List.cons.injEq] at he
          rw [← he.1]; decide
      | cons a l =>
        rw [hip] at he h2
        simp only [List.cons_append, List.cons.injEq] at he
        have := h2 a (by simp)
        rw [← he.1]
        simp only [isSign, Bool.or_eq_false_iff, decide_eq_false_iff_not]
        constructor <;> rintro rfl <;> revert this <;> decide
    unfold leading
    split
    · next he => rw [he] at hb; simp [leadBody] at hb
    · next c t he =>
      rw [if_neg (by simp [hd c t he]), ← he, hb]
  · have hx := h1 x (by simp [hs])
    simp only [sgText, List.cons_append, List.nil_append, List.append_assoc] at hb ⊢
    simp [leading, hx, hb]

/-- A text which starts with something else has no factor. -/
theorem leading_none {c : Char} {r : List Char} (h1 : c.isDigit = false) (h2 : isSign c = false)
    (h3 : c ≠ '.') : leading (c :: r) = none := by
  unfold leading
  simp only [h2]
  unfold leadBody
  simp only [List.takeWhile_cons, List.dropWhile_cons, h1]
  split
  · next heq => simp at heq; try exact absurd heq.1 h3
  · simp_all

/-- What is taken as the factor is a number, and it is the front of the text. -/
theorem leadBody_sound {s f r : List Char} (h : leadBody s = some (f, r)) :
    s = f ++ r ∧ ∃ ip fp, Digits ip ∧ (∀ d ∈ fp, Digits d) ∧ ip ++ Option.getD fp [] ≠ [] ∧
      f = ip ++ fpText fp := by
  have td : ∀ l : List Char, Digits (l.takeWhile Char.isDigit) := by
    intro l c hc
    exact List.mem_takeWhile_imp hc
  have happ := List.takeWhile_append_dropWhile (p := Char.isDigit) (l := s)
  unfold leadBody at h
  simp only at h
  split at h
  · next r' heq =>
    split at h
    · simp at h
    · next hne =>
      simp only [Option.some.injEq, Prod.mk.injEq] at h
      obtain ⟨rfl, rfl⟩ := h
      constructor
      · rw [heq] at happ
        have := List.takeWhile_append_dropWhile (p := Char.isDigit) (l := r')
        rw [List.append_assoc, List.cons_append, this, happ]
      · refine ⟨_, some (r'.takeWhile Char.isDigit), td s, ?_, ?_, rfl⟩
        · intro d hd; cases hd; exact td r'
        · simp only [Option.getD_some]
          intro hc
          exact hne (List.append_eq_nil_iff.mp hc)
  · split at h
    · simp at h
    · next hne =>
      simp only [Option.some.injEq, Prod.mk.injEq] at h
      obtain ⟨rfl, rfl⟩ := h
      exact ⟨happ.symm, _, none, td s, by simp, by simpa using hne, by simp [fpText]⟩

theorem leading_sound {s f r : List Char} (h : leading s = some (f, r)) :
    s = f ++ r ∧ ∃ n, Plain n ∧ f = n.text := by
  unfold leading at h
  split at h
  · simp at h
  · next c t =>
    split at h
    · next hc =>
      rw [Option.map_eq_some_iff] at h
      obtain ⟨⟨f', r'⟩, h1, h2⟩ := h
      simp only [Prod.mk.injEq] at h2
      obtain ⟨rfl, rfl⟩ := h2
      obtain ⟨h3, ip, fp, h4, h5, h6, rfl⟩ := leadBody_sound h1
      refine ⟨by rw [h3]; rfl, ⟨some c, ip, fp, none⟩, ⟨⟨?_, h4, h5, trivial, ?_⟩, rfl, h6⟩, ?_⟩
      · intro x hx; cases hx; exact hc
      · simp only [exText, List.append_nil]
        intro hc
        obtain ⟨a, b⟩ := List.append_eq_nil_iff.mp hc
        cases fp with
        | none => simp [a] at h6
        | some d => simp [fpText] at b
      · simp [Num.text, sgText, exText]
    · obtain ⟨h3, ip, fp, h4, h5, h6, rfl⟩ := leadBody_sound h
      refine ⟨h3, ⟨none, ip, fp, none⟩, ⟨⟨by simp, h4, h5, trivial, ?_⟩, rfl, h6⟩, ?_⟩
      · simp only [exText, List.append_nil]
        intro hc
        obtain ⟨a, b⟩ := List.append_eq_nil_iff.mp hc
        cases fp with
        | none => simp [a] at h6
        | some d => simp [fpText] at b
      · simp [Num.text, sgText, exText]

/-! ### Groups -/

/-- No separator in the text of a group. -/
def NoSep (g : List Char) : Prop := ∀ c ∈ g, c ≠ '*' ∧ c ≠ '/'

theorem split_noSep {g : List Char} (h : NoSep g) : splitGroups g = (g, []) := by
  induction g with
  | nil => rfl
  | cons c g ih =>
    have hc := h c (by simp)
    simp [splitGroups, hc.1, hc.2, ih (fun x hx => h x (by simp [hx]))]

theorem split_append {g : List Char} (h : NoSep g) {c : Char} (hc : c = '*' ∨ c = '/')
    (r : List Char) :
    splitGroups (g ++ c :: r) = (g, (c, (splitGroups r).1) :: (splitGroups r).2) := by
  induction g with
  | nil => simp [splitGroups, hc]
  | cons x g ih =>
    have hx := h x (by simp)
    simp [splitGroups, hx.1, hx.2, ih (fun y hy => h y (by simp [hy]))]

/-- The text with the given groups. -/
def join (g : List Char) (gs : List (Char × List Char)) : List Char :=
  g ++ (gs.map (fun p => p.1 :: p.2)).flatten

theorem split_join {g : List Char} (h : NoSep g) {gs : List (Char × List Char)}
    (hs : ∀ p ∈ gs, (p.1 = '*' ∨ p.1 = '/') ∧ NoSep p.2) : splitGroups (join g gs) = (g, gs) := by
  induction gs generalizing g with
  | nil => simpa [join] using split_noSep h
  | cons p gs ih =>
    have hp := hs p (by simp)
    have := ih hp.2 (fun q hq => hs q (by simp [hq]))
    unfold join at this ⊢
    simp only [List.map_cons, List.flatten_cons, List.cons_append]
    rw [split_append h hp.1, this]

theorem split_noSep_groups (s : List Char) : NoSep (splitGroups s).1 ∧
    (∀ p ∈ (splitGroups s).2, (p.1 = '*' ∨ p.1 = '/') ∧ NoSep p.2) ∧
    s = join (splitGroups s).1 (splitGroups s).2 := by
  induction s with
  | nil => exact ⟨by intro c hc; simp [splitGroups] at hc, by simp [splitGroups],
      by simp [splitGroups, join]⟩
  | cons c s ih =>
    obtain ⟨i1, i2, i3⟩ := ih
    by_cases hc : c = '*' ∨ c = '/'
    · simp only [splitGroups, hc, if_true]
      refine ⟨by intro x hx; simp at hx, ?_, ?_⟩
      · intro p hp
        rw [List.mem_cons] at hp
        rcases hp with rfl | hp
        · exact ⟨hc, i1⟩
        · exact i2 p hp
      · conv_lhs => rw [i3]
        simp [join]
    · simp only [splitGroups, hc, if_false]
      refine ⟨?_, i2, ?_⟩
      · intro x hx
        rw [List.mem_cons] at hx
        rcases hx with rfl | hx
        · exact not_or.mp hc
        · exact i1 x hx
      · conv_lhs => rw [i3]
        simp [join]

/-! ### Units form a commutative monoid -/

theorem mul_assoc' (a b c : U) : (a.mul b).mul c = a.mul (b.mul c) := by
  apply U.ext <;> simp only [U.mul] <;> ring

theorem mul_comm' (a b : U) : a.mul b = b.mul a := by
  apply U.ext <;> simp only [U.mul] <;> ring

theorem mul_start (a : U) : a.mul (start 1) = a := by
  apply U.ext <;> simp [U.mul, start]

theorem loop_append (acc : U) (a b : List (Char × List Char)) :
    loop acc (a ++ b) = (loop acc a).bind (fun u => loop u b) := by
  induction a generalizing acc with
  | nil => rfl
  | cons p a ih =>
    obtain ⟨sep, g⟩ := p
    simp only [List.cons_append, loop]
    cases groupUnit sep g with
    | none => rfl
    | some u => exact ih _

theorem loop_cons_mul (acc v : U) (gs : List (Char × List Char)) :
    loop (acc.mul v) gs = (loop acc gs).map (fun u => u.mul v) := by
  induction gs generalizing acc with
  | nil => rfl
  | cons p gs ih =>
    obtain ⟨sep, g⟩ := p
    simp only [loop]
    cases groupUnit sep g with
    | none => rfl
    | some u =>
      simp only
      rw [mul_assoc', mul_comm' v u, ← mul_assoc', ih]

theorem loop_perm {a b : List (Char × List Char)} (h : a.Perm b) (acc : U) :
    loop acc a = loop acc b := by
  induction h generalizing acc with
  | nil => rfl
  | cons x _ ih =>
    obtain ⟨sep, g⟩ := x
    simp only [loop]
    cases groupUnit sep g with
    | none => rfl
    | some u => exact ih _
  | swap x y l =>
    obtain ⟨s1, g1⟩ := x
    obtain ⟨s2, g2⟩ := y
    simp only [loop]
    cases groupUnit s1 g1 <;> cases groupUnit s2 g2 <;> simp only []
    rw [mul_assoc', mul_assoc']
    congr 2
    exact mul_comm' _ _
  | trans _ _ i1 i2 => rw [i1, i2]

/-! ### White space -/

theorem trim_cons_space (l : List Char) : trim (' ' :: l) = trim l := by
  unfold trim
  rw [List.dropWhile_cons_of_pos (by decide)]

theorem trim_append_space (l : List Char) : trim (l ++ [' ']) = trim l := by
  unfold trim
  by_cases h : l.dropWhile isSpace = []
  · have h2 : (l ++ [' ']).dropWhile isSpace = [] := by
      rw [List.dropWhile_eq_nil_iff] at h ⊢
      intro c hc
      rw [List.mem_append] at hc
      rcases hc with hc | hc
      · exact h c hc
      · simp at hc; subst hc; decide
    rw [h, h2]
  · have h2 : (l ++ [' ']).dropWhile isSpace = l.dropWhile isSpace ++ [' '] := by
      rw [List.dropWhile_append, if_neg (by simpa using h)]
    rw [h2, List.reverse_append, List.reverse_singleton, List.singleton_append,
      List.dropWhile_cons_of_pos (by decide)]

theorem fpValueCheck_append_space (t : List Char) :
    fpValueCheck (t ++ [' ']) = fpValueCheck t := by
  unfold fpValueCheck fpCheck
  rw [trim_append_space]

theorem groupUnit_space (sep : Char) (g : List Char) :
    groupUnit sep (' ' :: g) = groupUnit sep g := by
  unfold groupUnit exponentOf unitText
  rw [List.takeWhile_cons_of_pos (by decide), List.dropWhile_cons_of_pos (by decide),
    trim_cons_space]

theorem groupUnit_append_space (sep : Char) (g : List Char) :
    groupUnit sep (g ++ [' ']) = groupUnit sep g := by
  have hexp : exponentOf (g ++ [' ']) = exponentOf g := by
    unfold exponentOf
    rw [List.dropWhile_append]
    by_cases h : (g.dropWhile (fun c => decide (c ≠ '^'))).isEmpty = true
    · rw [if_pos h]
      rw [List.isEmpty_iff] at h
      rw [h]
      rfl
    · rw [if_neg h]
      cases hg : g.dropWhile (fun c => decide (c ≠ '^')) with
      | nil => exact absurd (by rw [hg]; rfl) h
      | cons a t => simp only [List.cons_append]; exact fpValueCheck_append_space t
  have hunit : unitText (g ++ [' ']) = unitText g := by
    unfold unitText
    by_cases h : ∀ c ∈ g, decide (c ≠ '^') = true
    · rw [List.takeWhile_append_of_pos h, List.takeWhile_cons_of_pos (by decide),
        List.takeWhile_nil, trim_append_space, List.takeWhile_eq_self_iff.mpr h]
    · rw [List.takeWhile_append, if_neg]
      intro hc
      apply h
      rw [← List.takeWhile_eq_self_iff]
      exact (List.takeWhile_prefix _).eq_of_length hc
  unfold groupUnit
  rw [hexp, hunit]

/-- The groups of a text with spaces around the separators. -/
theorem loop_pieces (acc : U) (sep : Char) {g : List Char} (h : NoSep g)
    {gs : List (Char × List Char)} (hs : ∀ p ∈ gs, (p.1 = '*' ∨ p.1 = '/') ∧ NoSep p.2) :
    loop acc ((sep, (splitGroups (g ++ (gs.map (fun p => ' ' :: p.1 :: ' ' :: p.2)).flatten)).1) ::
      (splitGroups (g ++ (gs.map (fun p => ' ' :: p.1 :: ' ' :: p.2)).flatten)).2) =
    loop acc ((sep, g) :: gs) := by
  induction gs generalizing acc sep g with
  | nil => simp [split_noSep h]
  | cons p gs ih =>
    obtain ⟨c, b⟩ := p
    have hp := hs (c, b) (by simp)
    have hns : NoSep (g ++ [' ']) := by
      intro x hx
      rw [List.mem_append] at hx
      rcases hx with hx | hx
      · exact h x hx
      · simp at hx; subst hx; decide
    have hb : NoSep (' ' :: b) := by
      intro x hx
      rw [List.mem_cons] at hx
      rcases hx with rfl | hx
      · decide
      · exact hp.2 x hx
    have he : g ++ (((c, b) :: gs).map (fun p => ' ' :: p.1 :: ' ' :: p.2)).flatten =
        (g ++ [' ']) ++ c :: (' ' :: b ++ (gs.map (fun p => ' ' :: p.1 :: ' ' :: p.2)).flatten) := by
      simp
    rw [he, split_append hns hp.1]
    simp only
    rw [loop, loop, groupUnit_append_space]
    cases groupUnit sep g with
    | none => rfl
    | some u =>
      simp only
      rw [ih (acc.mul u) c hb (fun q hq => hs q (by simp [hq]))]
      rw [loop, loop, groupUnit_space]

end Verif.Units.Parse
