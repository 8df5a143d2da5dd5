import Verif.Text.Fp
import Mathlib.Data.List.Basic

/-!
# Composition strings (C33)

Model of `parseCompString` (src/base/stringUtils.cpp:58-119).  A position in the string is
represented by the text from there on (`npos` by the empty text), the part `[start, left)` of a
key containing colons by `pre`.  When `stop` is `npos` the loop ends and the wrapped-around `start`
computed on line 107 is not used; the model omits it.
-/

namespace Verif.CompString

open Verif.Fp

/-- The characters `", ;\n\t"`. -/
def isSep (c : Char) : Bool := c = ',' || c = ' ' || c = ';' || c = '\n' || c = '\t'

/-- The characters `" \t\n"`. -/
def isWs (c : Char) : Bool := c = ' ' || c = '\t' || c = '\n'

theorem isSep_iff (c : Char) : isSep c = true ↔ c ∈ [',', ' ', ';', '\n', '\t'] := by
  simp [isSep, or_assoc]

theorem isWs_iff (c : Char) : isWs c = true ↔ c ∈ [' ', '\t', '\n'] := by
  simp [isWs, or_assoc]

/-- Not a colon. -/
def notColon (c : Char) : Bool := c != ':'

/-- `Composition`, a `std::map<string, double>`. -/
abbrev Comp := List Char → Option ℝ

/-- Assignment `x[name] = value`. -/
def Comp.set (x : Comp) (name : List Char) (v : ℝ) : Comp :=
  fun n => if n = name then some v else x n

/-- Lines 60-63: all given names with the value zero. -/
def initial (names : List (List Char)) : Comp := fun n => if n ∈ names then some 0 else none

/-- State at the head of the loop: the map, the text `[start, left)`, the text from `left` on, the
text from `stop` on. -/
structure St where
  x : Comp
  pre : List Char
  post : List Char
  stop : List Char

/-- One pass of the loop either ends the function or goes on. -/
inductive Res where
  | done (r : Outcome Comp)
  | next (s : St)

open Classical in
/-- The pass after a colon has been found (src/base/stringUtils.cpp:73-108); `a` is the text
`[left, colon)`, `after` the text behind the colon.  `ss` is the whole string. -/
noncomputable def afterColon (ss : List Char) (names : List (List Char)) (s : St)
    (a after : List Char) : Res :=
  let ws := after.takeWhile isWs
  let vs := after.dropWhile isWs            -- from `valstart` on
  let tok := vs.takeWhile (fun c => !isSep c)
  let rest := vs.dropWhile (fun c => !isSep c)     -- from `stop` on
  let name := trim (s.pre ++ a)
  if names ≠ [] ∧ s.x name = none then .done .throw
  else if vs = [] then .done .throw         -- substr(npos): std::out_of_range
  else match fpValueCheck tok with
    | none =>
      if (s.pre ++ a ++ ':' :: (ws ++ tok)).any isWs then .done .throw
      else if ':' ∈ tok then
        .next { x := s.x, pre := s.pre ++ a ++ [':'], post := after, stop := ss }
      else .done .throw
    | some v =>
      if (s.x name).getD 0 ≠ 0 then .done .throw
      else match rest with
        | [] => .done (.ok (s.x.set name v))
        | _ :: more =>
          .next { x := s.x.set name v, pre := [], post := more.dropWhile isSep, stop := rest }

/-- The body of the loop together with what follows it after `break`
(src/base/stringUtils.cpp:68-118). -/
noncomputable def step (ss : List Char) (names : List (List Char)) (s : St) : Res :=
  match s.post.dropWhile notColon with
  | [] =>                                   -- no colon: break (70-72), then lines 110-118
    if s.pre ≠ [] then .done .throw
    else if trim s.stop ≠ [] then .done .throw
    else .done (.ok s.x)
  | _ :: after => afterColon ss names s (s.post.takeWhile notColon) after

/-- The loop, at most `fuel` passes; `none` if it has not ended by then. -/
noncomputable def run (ss : List Char) (names : List (List Char)) : ℕ → St → Option (Outcome Comp)
  | 0, _ => none
  | fuel + 1, s =>
    match step ss names s with
    | .done r => some r
    | .next s' => run ss names fuel s'

/-- State before the loop. -/
def start (ss : List Char) (names : List (List Char)) : St :=
  { x := initial names, pre := [], post := ss, stop := ss }

/-- `parseCompString`, given as many passes as the string has characters plus one. -/
noncomputable def parse (ss : List Char) (names : List (List Char)) : Option (Outcome Comp) :=
  run ss names (ss.length + 1) (start ss names)

/-! ## Termination -/

theorem dropWhile_length {p : Char → Bool} (l : List Char) : (l.dropWhile p).length ≤ l.length :=
  (List.dropWhile_sublist p).length_le

/-- Every pass that goes on leaves less text. -/
theorem step_shorter {ss : List Char} {names : List (List Char)} {s s' : St}
    (h : step ss names s = .next s') : s'.post.length < s.post.length := by
  unfold step at h
  have hd := dropWhile_length (p := notColon) s.post
  rcases hp : s.post.dropWhile notColon with _ | ⟨c, after⟩
  · rw [hp] at h
    simp only at h
    split_ifs at h
  · rw [hp, List.length_cons] at hd
    rw [hp] at h
    simp only [afterColon] at h
    by_cases h1 : names ≠ [] ∧ s.x (trim (s.pre ++ s.post.takeWhile notColon)) = none
    · rw [if_pos h1] at h; cases h
    rw [if_neg h1] at h
    by_cases h2 : after.dropWhile isWs = []
    · rw [if_pos h2] at h; cases h
    rw [if_neg h2] at h
    have hw := dropWhile_length (p := isWs) after
    have hr := dropWhile_length (p := fun c => !isSep c) (after.dropWhile isWs)
    split at h
    · split_ifs at h
      cases h
      simp only
      omega
    · split_ifs at h
      split at h
      · cases h
      · rename_i c' more hrest
        cases h
        simp only
        rw [hrest, List.length_cons] at hr
        have := dropWhile_length (p := isSep) more
        omega

theorem run_ends (ss : List Char) (names : List (List Char)) :
    ∀ (fuel : ℕ) (s : St), s.post.length < fuel → run ss names fuel s ≠ none
  | 0, s, h => by omega
  | fuel + 1, s, h => by
    rw [run]
    rcases hs : step ss names s with r | s'
    · simp
    · exact run_ends ss names fuel s' (by have := step_shorter hs; omega)

/-- The parser ends on every input, after at most as many passes as there are characters, plus
one. -/
theorem parse_terminates (ss : List Char) (names : List (List Char)) : parse ss names ≠ none :=
  run_ends ss names _ _ (Nat.lt_succ_self _)

example : parse [] [] = some (.ok (initial [])) := by
  simp [parse, run, step, start, trim]

theorem run_mono {ss : List Char} {names : List (List Char)} {r : Outcome Comp} :
    ∀ {m n : ℕ} {s : St}, m ≤ n → run ss names m s = some r → run ss names n s = some r
  | 0, _, s, _, h => by rw [run] at h; cases h
  | m + 1, 0, s, hmn, h => by omega
  | m + 1, n + 1, s, hmn, h => by
    rw [run] at h ⊢
    rcases hs : step ss names s with r' | s'
    · rw [hs] at h; exact h
    · rw [hs] at h
      exact run_mono (by omega) h

/-- The result with any number of passes is the result. -/
theorem parse_of_run {ss : List Char} {names : List (List Char)} {r : Outcome Comp} {n : ℕ}
    (h : run ss names n (start ss names) = some r) : parse ss names = some r := by
  rcases hp : parse ss names with _ | r'
  · exact absurd hp (parse_terminates ss names)
  · unfold parse at hp
    rcases Nat.le_total n (ss.length + 1) with h1 | h1
    · rw [run_mono h1 h] at hp; exact hp.symm
    · rw [run_mono h1 hp] at h; exact h

/-! ## Lists of characters -/

theorem span_spec {p : Char → Bool} {d r : List Char} (h : ∀ c ∈ d, p c = true)
    (hr : ∀ c ∈ r.head?, p c = false) : (d ++ r).takeWhile p = d ∧ (d ++ r).dropWhile p = r := by
  induction d with
  | nil =>
    rcases r with _ | ⟨c, r⟩
    · simp
    · have : p c = false := hr c rfl
      simp [this]
  | cons c d ih =>
    have hc : p c = true := h c List.mem_cons_self
    obtain ⟨i1, i2⟩ := ih (fun x hx => h x (List.mem_cons_of_mem _ hx))
    simp [hc, i1, i2]

theorem dropWhile_all {p : Char → Bool} {l : List Char} (h : ∀ c ∈ l, p c = true) :
    l.dropWhile p = [] := by
  have := (span_spec (p := p) (d := l) (r := []) h (by simp)).2
  simpa using this

theorem dropWhile_none {p : Char → Bool} {l : List Char} (h : ∀ c ∈ l.head?, p c = false) :
    l.dropWhile p = l := (span_spec (p := p) (d := []) (r := l) (by simp) h).2

theorem dropWhile_head {p : Char → Bool} (l : List Char) :
    ∀ c ∈ (l.dropWhile p).head?, p c = false := by
  induction l with
  | nil => simp
  | cons a l ih =>
    intro c hc
    by_cases ha : p a = true
    · rw [List.dropWhile_cons_of_pos ha] at hc; exact ih c hc
    · rw [List.dropWhile_cons_of_neg ha] at hc
      simp at hc
      subst hc
      simpa using ha

theorem trim_id {l : List Char} (h : ∀ c ∈ l, isSpace c = false) : trim l = l := by
  have h1 : ∀ c ∈ l.head?, isSpace c = false := fun c hc => h c (List.mem_of_mem_head? hc)
  have h2 : ∀ c ∈ l.reverse.head?, isSpace c = false := fun c hc =>
    h c (List.mem_reverse.mp (List.mem_of_mem_head? hc))
  unfold trim
  rw [dropWhile_none h1, dropWhile_none h2, List.reverse_reverse]

theorem trim_eq_nil {l : List Char} : trim l = [] ↔ ∀ c ∈ l, isSpace c = true := by
  constructor
  · intro h
    unfold trim at h
    rw [List.reverse_eq_nil_iff, List.dropWhile_eq_nil_iff] at h
    intro c hc
    by_contra hn
    have hne : l.dropWhile isSpace ≠ [] := by
      intro he
      exact hn (List.dropWhile_eq_nil_iff.mp he c hc)
    obtain ⟨a, r, har⟩ := List.exists_cons_of_ne_nil hne
    have h1 := dropWhile_head (p := isSpace) l a (by rw [har]; rfl)
    have h2 := h a (by rw [har]; simp)
    rw [h1] at h2; cases h2
  · intro h
    unfold trim
    rw [dropWhile_all h]
    rfl

/-- Characters of a trimmed text stem from the text. -/
theorem mem_trim {l : List Char} {c : Char} (h : c ∈ l) (hs : isSpace c = false) : c ∈ trim l := by
  have key : ∀ m : List Char, c ∈ m → c ∈ m.dropWhile isSpace := by
    intro m hm
    rw [← List.takeWhile_append_dropWhile (p := isSpace) (l := m)] at hm
    rcases List.mem_append.mp hm with h1 | h1
    · have := List.mem_takeWhile_imp h1
      rw [hs] at this; cases this
    · exact h1
  unfold trim
  exact List.mem_reverse.mpr (key _ (List.mem_reverse.mpr (key _ h)))

theorem colon_not_number {tok : List Char} (h : ':' ∈ tok) : fpValueCheck tok = none := by
  rcases hv : fpValueCheck tok with _ | v
  · rfl
  · have := accepted_chars hv ':' (mem_trim h (by decide))
    rcases this with h | h | h | h
    · exact absurd h (by decide)
    · exact absurd h (by decide)
    · exact absurd h (by decide)
    · exact absurd h (by decide)

/-! ## Compositions as text -/

/-- One entry of a composition string: separators before it, key, white space after the colon,
text of the value, value. -/
structure Item where
  sep : List Char
  key : List Char
  ws : List Char
  tok : List Char
  val : ℝ

/-- The text of an entry. -/
def Item.text (e : Item) : List Char := e.sep ++ (e.key ++ ':' :: (e.ws ++ e.tok))

/-- Text of a list of entries. -/
def textOf (es : List Item) : List Char := es.flatMap Item.text

/-- Values stored by a list of entries. -/
def fill (x : Comp) : List Item → Comp
  | [] => x
  | e :: es => fill (x.set (trim e.key) e.val) es

/-- No entry is for a name which already has a non-zero value. -/
def Free (x : Comp) : List Item → Prop
  | [] => True
  | e :: es => (x (trim e.key)).getD 0 = 0 ∧ Free (x.set (trim e.key) e.val) es

/-- All keys are known. -/
def Known (names : List (List Char)) (x : Comp) : List Item → Prop
  | [] => True
  | e :: es => (names ≠ [] → x (trim e.key) ≠ none) ∧ Known names (x.set (trim e.key) e.val) es

/-- The shape of an entry in any accepted string. -/
def Item.Shape (e : Item) : Prop :=
  (∀ c ∈ e.sep, isSep c = true) ∧ (∀ c ∈ e.ws, isWs c = true) ∧ fpValueCheck e.tok = some e.val

/-- The part of the step after a colon has been found. -/
theorem step_colon {ss : List Char} {names : List (List Char)} {s : St} {a after : List Char}
    (hp : s.post = a ++ ':' :: after) (ha : ∀ c ∈ a, notColon c = true) :
    step ss names s = afterColon ss names s a after := by
  obtain ⟨h1, h2⟩ := span_spec (p := notColon) (d := a) (r := ':' :: after) ha (by
    intro c hc; simp at hc; subst hc; decide)
  unfold step
  rw [hp, h1, h2]

/-! ## What is accepted is a list of entries -/

theorem run_sound (ss : List Char) (names : List (List Char)) :
    ∀ (fuel : ℕ) (s : St) (sp : List Char) (x : Comp), (∀ c ∈ sp, isSep c = true) →
      (s.pre = [] → s.stop = sp ++ s.post) → run ss names fuel s = some (.ok x) →
      ∃ es tail, sp ++ (s.pre ++ s.post) = textOf es ++ tail ∧ trim tail = [] ∧
        (∀ e ∈ es, e.Shape) ∧ (∀ e ∈ es.head?, e.sep = sp) ∧ (∀ e ∈ es.tail, e.sep ≠ []) ∧
        Free s.x es ∧ Known names s.x es ∧ x = fill s.x es
  | 0, s, sp, x, _, _, h => by rw [run] at h; cases h
  | fuel + 1, s, sp, x, hsp, hst, h => by
    rw [run] at h
    rcases hp : s.post.dropWhile notColon with _ | ⟨c, after⟩
    · -- no colon
      have hstep : step ss names s = if s.pre ≠ [] then .done .throw
          else if trim s.stop ≠ [] then .done .throw else .done (.ok s.x) := by
        unfold step; rw [hp]
      rw [hstep] at h
      by_cases h1 : s.pre = []
      · rw [if_neg (not_not.mpr h1)] at h
        by_cases h2 : trim s.stop = []
        · rw [if_neg (not_not.mpr h2)] at h
          simp only [Option.some.injEq, Outcome.ok.injEq] at h
          refine ⟨[], sp ++ s.post, by simp [textOf, h1], ?_, by simp, by simp, by simp, trivial,
            trivial, h.symm⟩
          rw [← hst h1]; exact h2
        · rw [if_pos h2] at h; simp at h
      · rw [if_pos h1] at h; simp at h
    · have hc : c = ':' := by
        have := dropWhile_head (p := notColon) s.post c (by rw [hp]; rfl)
        simpa [notColon] using this
      subst hc
      have hsplit : s.post = s.post.takeWhile notColon ++ ':' :: after := by
        rw [← hp, List.takeWhile_append_dropWhile]
      have ha : ∀ c ∈ s.post.takeWhile notColon, notColon c = true :=
        fun c hc => List.mem_takeWhile_imp hc
      generalize s.post.takeWhile notColon = a at hsplit ha
      rw [step_colon hsplit ha, afterColon] at h
      by_cases h1 : names ≠ [] ∧ s.x (trim (s.pre ++ a)) = none
      · rw [if_pos h1] at h; simp at h
      rw [if_neg h1] at h
      by_cases h2 : after.dropWhile isWs = []
      · rw [if_pos h2] at h; simp at h
      rw [if_neg h2] at h
      have hws : after = after.takeWhile isWs ++ after.dropWhile isWs :=
        (List.takeWhile_append_dropWhile).symm
      have hwsall : ∀ c ∈ after.takeWhile isWs, isWs c = true :=
        fun c hc => List.mem_takeWhile_imp hc
      generalize after.takeWhile isWs = ws at h hws hwsall
      generalize after.dropWhile isWs = vs at h hws h2
      have hvs : vs = vs.takeWhile (fun c => !isSep c) ++ vs.dropWhile (fun c => !isSep c) :=
        (List.takeWhile_append_dropWhile).symm
      have hresth := dropWhile_head (p := fun c => !isSep c) vs
      generalize vs.takeWhile (fun c => !isSep c) = tok at h hvs
      generalize vs.dropWhile (fun c => !isSep c) = rest at h hvs hresth
      rcases hv : fpValueCheck tok with _ | v
      · rw [hv] at h
        simp only at h
        by_cases h3 : (s.pre ++ a ++ ':' :: (ws ++ tok)).any isWs = true
        · rw [if_pos h3] at h; simp at h
        rw [if_neg h3] at h
        by_cases h4 : ':' ∈ tok
        · rw [if_pos h4] at h
          simp only at h
          obtain ⟨es, tail, e1, e2⟩ := run_sound ss names fuel _ sp x hsp (by
            intro he; simp at he) h
          refine ⟨es, tail, ?_, e2⟩
          rw [← e1, hsplit]
          simp
        · rw [if_neg h4] at h; simp at h
      · rw [hv] at h
        simp only at h
        by_cases h3 : (s.x (trim (s.pre ++ a))).getD 0 = 0
        · rw [if_neg (not_not.mpr h3)] at h
          have hknown : names ≠ [] → s.x (trim (s.pre ++ a)) ≠ none :=
            fun hn hx => h1 ⟨hn, hx⟩
          rcases rest with _ | ⟨r0, more⟩
          · simp only [Option.some.injEq, Outcome.ok.injEq] at h
            refine ⟨[⟨sp, s.pre ++ a, ws, tok, v⟩], [], ?_, rfl, ?_, ?_, ?_, ⟨h3, trivial⟩,
              ⟨hknown, trivial⟩, h.symm⟩
            · rw [hsplit, hws, hvs]
              simp [textOf, Item.text]
            · intro e he; simp at he; subst he; exact ⟨hsp, hwsall, hv⟩
            · intro e he; simp at he; subst he; rfl
            · intro e he; simp at he
          · simp only at h
            have hmore : more = more.takeWhile isSep ++ more.dropWhile isSep :=
              (List.takeWhile_append_dropWhile).symm
            have hsep : ∀ c ∈ r0 :: more.takeWhile isSep, isSep c = true := by
              intro c hc
              rcases List.mem_cons.mp hc with rfl | hc
              · have := hresth c rfl
                simpa using this
              · exact List.mem_takeWhile_imp hc
            obtain ⟨es, tail, e1, e2, e3, e4, e5, e6, e7, e8⟩ := run_sound ss names fuel _
              (r0 :: more.takeWhile isSep) x hsep (by
                intro _
                simp only [List.cons_append]
                rw [← hmore]) h
            refine ⟨⟨sp, s.pre ++ a, ws, tok, v⟩ :: es, tail, ?_, e2, ?_, ?_, ?_, ⟨h3, e6⟩,
              ⟨hknown, e7⟩, e8⟩
            · have e1' : r0 :: more = textOf es ++ tail := by
                rw [← e1]
                simp only [List.nil_append, List.cons_append]
                rw [← hmore]
              rw [hsplit, hws, hvs, e1']
              simp [textOf, Item.text]
            · intro e he
              rcases List.mem_cons.mp he with rfl | he
              · exact ⟨hsp, hwsall, hv⟩
              · exact e3 e he
            · intro e he; simp at he; subst he; rfl
            · intro e he
              simp only [List.tail_cons] at he
              rcases es with _ | ⟨e', es⟩
              · simp at he
              · rcases List.mem_cons.mp he with rfl | he
                · rw [e4 e rfl]; simp
                · exact e5 e he
        · rw [if_pos h3] at h; simp at h

/-- Every accepted string is a list of entries `key:number` divided by separators, possibly
followed by white space; every number is well-formed, the result holds exactly the entries (and
zero for the other given names), every key is among the given names if there are any, and no key
with a non-zero value is given twice. -/
theorem parse_sound {ss : List Char} {names : List (List Char)} {x : Comp}
    (h : parse ss names = some (.ok x)) :
    ∃ es tail, ss = textOf es ++ tail ∧ trim tail = [] ∧ (∀ e ∈ es, e.Shape) ∧
      (∀ e ∈ es.head?, e.sep = []) ∧ (∀ e ∈ es.tail, e.sep ≠ []) ∧ Free (initial names) es ∧
      Known names (initial names) es ∧ x = fill (initial names) es := by
  obtain ⟨es, tail, h1, h2⟩ := run_sound ss names _ (start ss names) [] x (by simp)
    (fun _ => rfl) h
  exact ⟨es, tail, by simpa [start] using h1, h2⟩

/-- Names in the result: with a list of names, no others. -/
theorem parse_names {ss : List Char} {names : List (List Char)} {x : Comp} (hn : names ≠ [])
    (h : parse ss names = some (.ok x)) (n : List Char) : x n ≠ none ↔ n ∈ names := by
  obtain ⟨es, tail, _, _, _, _, _, _, hk, rfl⟩ := parse_sound h
  have key : ∀ (es : List Item) (y : Comp), Known names y es → (∀ m, y m ≠ none ↔ m ∈ names) →
      ∀ m, fill y es m ≠ none ↔ m ∈ names := by
    intro es
    induction es with
    | nil => intro y _ hy m; exact hy m
    | cons e es ih =>
      intro y hk hy m
      refine ih _ hk.2 (fun m => ?_) m
      unfold Comp.set
      by_cases hm : m = trim e.key
      · rw [if_pos hm, hm]
        simp only [ne_eq, reduceCtorEq, not_false_eq_true, true_iff]
        exact (hy _).mp (hk.1 hn)
      · rw [if_neg hm]; exact hy m
  refine key es _ hk (fun m => ?_) n
  unfold initial
  by_cases hm : m ∈ names <;> simp [hm]

/-! ## Every list of entries is accepted -/

/-- A key which can be written: no separators and no white space. -/
def KeyOk (k : List Char) : Prop := ∀ c ∈ k, isSep c = false ∧ isSpace c = false

/-- An entry which can be written: such a key, white space, a number without separators or white
space around it. -/
def Item.Good (e : Item) : Prop :=
  KeyOk e.key ∧ (∀ c ∈ e.ws, isWs c = true) ∧ fpValueCheck e.tok = some e.val ∧
    (∀ c ∈ e.tok, isSep c = false)

/-- With a list of names, all parts of a key before a colon have to be known names, too. -/
def PrefixKnown (names : List (List Char)) (x : Comp) (k : List Char) : Prop :=
  names ≠ [] → x k ≠ none ∧ ∀ p q, k = p ++ ':' :: q → x p ≠ none

theorem ws_sep {c : Char} (h : isWs c = true) : isSep c = true ∧ isSpace c = true := by
  have h' : c = ' ' ∨ c = '\t' ∨ c = '\n' := by simpa [isWs, or_assoc] using h
  rcases h' with rfl | rfl | rfl <;> decide

theorem tok_ne_nil {tok : List Char} {v : ℝ} (h : fpValueCheck tok = some v) : tok ≠ [] := by
  rintro rfl
  simp [fpValueCheck, fpCheck, trim] at h

theorem tok_head {tok : List Char} (h : ∀ c ∈ tok, isSep c = false) (r : List Char)
    (hne : tok ≠ []) : ∀ c ∈ (tok ++ r).head?, isWs c = false := by
  rcases tok with _ | ⟨t, tok⟩
  · exact absurd rfl hne
  · intro c hc
    simp at hc
    subst hc
    rcases hw : isWs t with _ | _
    · rfl
    · have := (ws_sep hw).1
      rw [h t List.mem_cons_self] at this; cases this

/-- What the loop does once key and value of an entry are known and `rest` follows. -/
noncomputable def store (x : Comp) (key : List Char) (v : ℝ) (rest : List Char) : Res :=
  (open Classical in
  if (x key).getD 0 ≠ 0 then .done .throw
  else match rest with
    | [] => .done (.ok (x.set key v))
    | _ :: more =>
      .next { x := x.set key v, pre := [], post := more.dropWhile isSep, stop := rest })

/-- From any point inside a key the parser comes to the entry's value. -/
theorem run_key (ss : List Char) (names : List (List Char)) (e : Item) (hg : e.Good)
    (rest : List Char) (hrest : ∀ c ∈ rest.head?, isSep c = true) (x : Comp) :
    ∀ (n : ℕ) (pre q stop : List Char), q.length ≤ n → e.key = pre ++ q →
      (names ≠ [] → x e.key ≠ none ∧ ∀ p r, e.key = p ++ ':' :: r → x p ≠ none) →
      ∀ (fuel : ℕ) (r : Outcome Comp),
      (match store x e.key e.val rest with
        | .done r' => some r'
        | .next s' => run ss names fuel s') = some r →
      ∃ m, run ss names m { x := x, pre := pre, post := q ++ ':' :: (e.ws ++ (e.tok ++ rest))
                            stop := stop } = some r := by
  intro n
  induction n with
  | zero =>
    intro pre q stop hq hk hpk fuel r hr
    have hq' : q = [] := List.length_eq_zero_iff.mp (by omega)
    subst hq'
    rw [List.append_nil] at hk
    refine ⟨fuel + 1, ?_⟩
    rw [run, step_colon (a := []) (after := e.ws ++ (e.tok ++ rest)) (by simp) (by simp), afterColon]
    have hw := span_spec (p := isWs) (d := e.ws) (r := e.tok ++ rest) hg.2.1
      (tok_head hg.2.2.2 rest (tok_ne_nil hg.2.2.1))
    have ht := span_spec (p := fun c => !isSep c) (d := e.tok) (r := rest)
      (by intro c hc; simp [hg.2.2.2 c hc]) (by intro c hc; simp [hrest c hc])
    have htr : trim pre = e.key := by
      rw [← hk]; exact trim_id (fun c hc => (hg.1 c hc).2)
    simp only [List.append_nil, hw.1, hw.2, ht.1, ht.2, htr]
    rw [if_neg (by rintro ⟨h1, h2⟩; exact (hpk h1).1 h2),
      if_neg (by intro h; exact tok_ne_nil hg.2.2.1 (List.append_eq_nil_iff.mp h).1), hg.2.2.1]
    exact hr
  | succ n ih =>
    intro pre q stop hq hk hpk fuel r hr
    by_cases hcol : ':' ∈ q
    · -- the key has another colon
      obtain ⟨a, b, hq', ha⟩ : ∃ a b, q = a ++ ':' :: b ∧ ∀ c ∈ a, notColon c = true := by
        have hne : q.dropWhile notColon ≠ [] := by
          intro h
          have := List.dropWhile_eq_nil_iff.mp h ':' hcol
          simp [notColon] at this
        obtain ⟨c, b, hcb⟩ := List.exists_cons_of_ne_nil hne
        have hc : c = ':' := by
          have := dropWhile_head (p := notColon) q c (by rw [hcb]; rfl)
          simpa [notColon] using this
        refine ⟨q.takeWhile notColon, b, ?_, fun c hc => List.mem_takeWhile_imp hc⟩
        rw [← hc, ← hcb, List.takeWhile_append_dropWhile]
      subst hq'
      obtain ⟨m, hm⟩ := ih (pre ++ a ++ [':']) b ss (by simp at hq; omega) (by simp [hk]) hpk fuel r hr
      refine ⟨m + 1, ?_⟩
      have hkey : ∀ c ∈ e.key, isSep c = false ∧ isSpace c = false := hg.1
      have hb : ∀ c ∈ b, isSep c = false := fun c hc => (hkey c (by rw [hk]; simp [hc])).1
      have hbw : ∀ c ∈ b ++ [':'], isWs c = false := by
        intro c hc
        rcases hw : isWs c with _ | _
        · rfl
        · rcases List.mem_append.mp hc with h1 | h1
          · have := (ws_sep hw).1
            rw [hb c h1] at this; cases this
          · simp at h1; subst h1; exact absurd hw (by decide)
      generalize hT : e.ws ++ (e.tok ++ rest) = T at hm
      have hafter : (a ++ ':' :: b) ++ ':' :: T = a ++ ':' :: ((b ++ [':']) ++ T) := by simp
      rw [run, step_colon (a := a) (after := (b ++ [':']) ++ T) hafter ha, afterColon]
      have hw0 : ((b ++ [':']) ++ T).takeWhile isWs = [] ∧
          ((b ++ [':']) ++ T).dropWhile isWs = (b ++ [':']) ++ T := by
        have := span_spec (p := isWs) (d := []) (r := (b ++ [':']) ++ T) (by simp) (by
          intro c hc
          rcases b with _ | ⟨b0, b⟩
          · simp at hc; subst hc; decide
          · simp at hc; subst hc; exact hbw b0 (by simp))
        simpa using this
      have htok : ∃ u, ((b ++ [':']) ++ T).takeWhile (fun c => !isSep c) = b ++ ':' :: u := by
        refine ⟨T.takeWhile (fun c => !isSep c), ?_⟩
        rw [List.takeWhile_append_of_pos]
        · simp
        · intro c hc
          rcases List.mem_append.mp hc with h1 | h1
          · simp [hb c h1]
          · simp at h1; subst h1; decide
      obtain ⟨u, hu⟩ := htok
      have hws_tok : ∀ c ∈ b ++ ':' :: u, isWs c = false := by
        intro c hc
        rcases hw : isWs c with _ | _
        · rfl
        · rw [← hu] at hc
          have := List.mem_takeWhile_imp hc
          simp [(ws_sep hw).1] at this
      have hpa : ∀ c ∈ pre ++ a, isSep c = false ∧ isSpace c = false := by
        intro c hc
        refine hkey c ?_
        rw [hk]
        rcases List.mem_append.mp hc with h1 | h1 <;> simp [h1]
      simp only [hw0.1, hw0.2, hu]
      rw [if_neg, if_neg (by simp), colon_not_number (by simp : ':' ∈ b ++ ':' :: u)]
      · simp only
        rw [if_neg, if_pos (by simp)]
        · simp only
          have e1 : b ++ [':'] ++ T = b ++ ':' :: T := by simp
          rw [e1]
          exact hm
        · rw [List.any_eq_true]
          rintro ⟨c, hc, hcw⟩
          rcases List.mem_append.mp hc with h1 | h1
          · have := (ws_sep hcw).1
            rw [(hpa c h1).1] at this; cases this
          · rcases List.mem_cons.mp h1 with h2 | h2
            · subst h2; exact absurd hcw (by decide)
            · rw [List.nil_append] at h2
              rw [hws_tok c h2] at hcw; cases hcw
      · rintro ⟨h1, h2⟩
        rw [trim_id (fun c hc => (hpa c hc).2)] at h2
        exact (hpk h1).2 (pre ++ a) b (by rw [hk]; simp) h2
    · -- last colon
      refine ⟨fuel + 1, ?_⟩
      have ha : ∀ c ∈ q, notColon c = true := by
        intro c hc
        simp only [notColon, bne_iff_ne, ne_eq]
        rintro rfl
        exact hcol hc
      rw [run, step_colon (a := q) (after := e.ws ++ (e.tok ++ rest)) rfl ha, afterColon]
      have hw := span_spec (p := isWs) (d := e.ws) (r := e.tok ++ rest) hg.2.1
        (tok_head hg.2.2.2 rest (tok_ne_nil hg.2.2.1))
      have ht := span_spec (p := fun c => !isSep c) (d := e.tok) (r := rest)
        (by intro c hc; simp [hg.2.2.2 c hc]) (by intro c hc; simp [hrest c hc])
      have htr : trim (pre ++ q) = e.key := by
        rw [← hk]; exact trim_id (fun c hc => (hg.1 c hc).2)
      simp only [hw.1, hw.2, ht.1, ht.2, htr]
      rw [if_neg (by rintro ⟨h1, h2⟩; exact (hpk h1).1 h2),
        if_neg (by intro h; exact tok_ne_nil hg.2.2.1 (List.append_eq_nil_iff.mp h).1), hg.2.2.1]
      exact hr

/-- Entries written one after the other: separators (at least one, except before the first entry)
and an ending of blanks, tabs and newlines. -/
def Seps : List Item → Prop
  | [] => True
  | e :: es => (∀ f ∈ es, f.sep ≠ [] ∧ ∀ c ∈ f.sep, isSep c = true) ∧ e.sep = []

/-- All keys and the parts of keys before colons are known (nothing to check without a list of
names). -/
def AllKnown (names : List (List Char)) (es : List Item) : Prop :=
  names ≠ [] → ∀ e ∈ es, e.key ∈ names ∧ ∀ p q, e.key = p ++ ':' :: q → p ∈ names

theorem key_head {k : List Char} (h : KeyOk k) (r : List Char) :
    ∀ c ∈ (k ++ ':' :: r).head?, isSep c = false := by
  intro c hc
  rcases k with _ | ⟨k0, k⟩
  · simp at hc; subst hc; decide
  · simp at hc; subst hc; exact (h k0 List.mem_cons_self).1

theorem run_entries (ss : List Char) (names : List (List Char)) (tail : List Char)
    (htail : ∀ c ∈ tail, isWs c = true) :
    ∀ (es : List Item) (e : Item) (x : Comp) (stop : List Char),
      (∀ f ∈ e :: es, f.Good) → (∀ f ∈ es, f.sep ≠ [] ∧ ∀ c ∈ f.sep, isSep c = true) →
      (names ≠ [] → ∀ m ∈ names, x m ≠ none) → AllKnown names (e :: es) → Free x (e :: es) →
      ∃ m, run ss names m { x := x, pre := []
                            post := e.key ++ ':' :: (e.ws ++ (e.tok ++ (textOf es ++ tail)))
                            stop := stop } = some (.ok (fill x (e :: es))) := by
  intro es
  induction es with
  | nil =>
    intro e x stop hg _ hx hk hf
    have hge := hg e List.mem_cons_self
    have htr : trim e.key = e.key := trim_id (fun c hc => (hge.1 c hc).2)
    have hrest : ∀ c ∈ (textOf [] ++ tail).head?, isSep c = true := by
      intro c hc
      exact (ws_sep (htail c (List.mem_of_mem_head? hc))).1
    have hz : (x e.key).getD 0 = 0 := by have := hf.1; rwa [htr] at this
    refine run_key ss names e hge _ hrest x _ [] e.key stop (le_refl _) rfl ?_ 1 _ ?_
    · intro hn
      obtain ⟨h1, h2⟩ := hk hn e List.mem_cons_self
      exact ⟨hx hn _ h1, fun p q hpq => hx hn _ (h2 p q hpq)⟩
    · rw [store.eq_def, if_neg (not_not.mpr hz)]
      simp only [textOf, List.flatMap_nil, List.nil_append, fill, htr]
      rcases tail with _ | ⟨t, tail⟩
      · rfl
      · simp only
        have hd : tail.dropWhile isSep = [] :=
          dropWhile_all (fun c hc => (ws_sep (htail c (List.mem_cons_of_mem _ hc))).1)
        have htrim : trim (t :: tail) = [] := trim_eq_nil.mpr (fun c hc => (ws_sep (htail c hc)).2)
        rw [run, hd]
        simp [step, htrim]
  | cons f es ih =>
    intro e x stop hg hsep hx hk hf
    have hge := hg e List.mem_cons_self
    have htr : trim e.key = e.key := trim_id (fun c hc => (hge.1 c hc).2)
    obtain ⟨hs1, hs2⟩ := hsep f List.mem_cons_self
    have hgf := hg f (by simp)
    have hz : (x e.key).getD 0 = 0 := by have := hf.1; rwa [htr] at this
    obtain ⟨s0, sp, hsp⟩ := List.exists_cons_of_ne_nil hs1
    have htext : textOf (f :: es) ++ tail =
        s0 :: (sp ++ (f.key ++ ':' :: (f.ws ++ (f.tok ++ (textOf es ++ tail))))) := by
      simp [textOf, Item.text, hsp]
    obtain ⟨m, hm⟩ := ih f (x.set e.key e.val) (textOf (f :: es) ++ tail)
      (fun g hgm => hg g (List.mem_cons_of_mem _ hgm))
      (fun g hgm => hsep g (List.mem_cons_of_mem _ hgm))
      (by
        intro hn n hnm
        unfold Comp.set
        split_ifs
        · simp
        · exact hx hn n hnm)
      (fun hn g hgm => hk hn g (List.mem_cons_of_mem _ hgm))
      (by have := hf.2; rwa [htr] at this)
    refine run_key ss names e hge _ ?_ x _ [] e.key stop (le_refl _) rfl ?_ m _ ?_
    · rw [htext]
      intro c hc
      simp at hc
      subst hc
      exact hs2 s0 (by rw [hsp]; exact List.mem_cons_self)
    · intro hn
      obtain ⟨h1, h2⟩ := hk hn e List.mem_cons_self
      exact ⟨hx hn _ h1, fun p q hpq => hx hn _ (h2 p q hpq)⟩
    · rw [store.eq_def, if_neg (not_not.mpr hz)]
      have hd : (sp ++ (f.key ++ ':' :: (f.ws ++ (f.tok ++ (textOf es ++ tail))))).dropWhile isSep =
          f.key ++ ':' :: (f.ws ++ (f.tok ++ (textOf es ++ tail))) :=
        (span_spec (fun c hc => hs2 c (by rw [hsp]; exact List.mem_cons_of_mem _ hc))
          (key_head hgf.1 _)).2
      have hfill : fill x (e :: f :: es) = fill (x.set e.key e.val) (f :: es) := by
        simp [fill, htr]
      rw [hfill]
      generalize hR : textOf (f :: es) ++ tail = R at *
      subst htext
      simp only [hd]
      exact hm

/-- Round trip: a composition written as `key:value` entries, in any order, with any separators
and white space between them, is read back; keys may contain colons. -/
theorem parse_text {names : List (List Char)} {es : List Item} {tail : List Char}
    (hg : ∀ e ∈ es, e.Good) (hs : Seps es) (ht : ∀ c ∈ tail, isWs c = true)
    (hk : AllKnown names es) (hf : Free (initial names) es) :
    parse (textOf es ++ tail) names = some (.ok (fill (initial names) es)) := by
  rcases es with _ | ⟨e, es⟩
  · refine parse_of_run (n := 1) ?_
    have hd : tail.dropWhile notColon = [] := by
      refine dropWhile_all (fun c hc => ?_)
      simp only [notColon, bne_iff_ne, ne_eq]
      rintro rfl
      exact absurd (ht ':' hc) (by decide)
    have htrim : trim tail = [] := trim_eq_nil.mpr (fun c hc => (ws_sep (ht c hc)).2)
    simp [run, step, start, textOf, hd, htrim, fill]
  · obtain ⟨m, hm⟩ := run_entries (textOf (e :: es) ++ tail) names tail ht es e (initial names)
      (textOf (e :: es) ++ tail) hg hs.1 (by
        intro _ n hn; simp [initial, hn]) hk hf
    refine parse_of_run (n := m) ?_
    have : start (textOf (e :: es) ++ tail) names =
        { x := initial names, pre := []
          post := e.key ++ ':' :: (e.ws ++ (e.tok ++ (textOf es ++ tail)))
          stop := textOf (e :: es) ++ tail } := by
      simp [start, textOf, Item.text, hs.2]
    rw [this]
    exact hm

theorem fill_not_mem {es : List Item} {x : Comp} {n : List Char}
    (h : ∀ e ∈ es, trim e.key ≠ n) : fill x es n = x n := by
  induction es generalizing x with
  | nil => rfl
  | cons e es ih =>
    rw [fill, ih (fun f hf => h f (List.mem_cons_of_mem _ hf))]
    unfold Comp.set
    rw [if_neg (fun hc => h e List.mem_cons_self hc.symm)]

/-- The values read back are those written, for distinct keys. -/
theorem fill_mem {es : List Item} {x : Comp} (hd : (es.map (fun e => trim e.key)).Nodup) {e : Item}
    (he : e ∈ es) : fill x es (trim e.key) = some e.val := by
  induction es generalizing x with
  | nil => simp at he
  | cons f es ih =>
    rw [List.map_cons, List.nodup_cons] at hd
    rw [fill]
    rcases List.mem_cons.mp he with rfl | he
    · rw [fill_not_mem]
      · unfold Comp.set; rw [if_pos rfl]
      · intro g hg hc
        exact hd.1 (List.mem_map.mpr ⟨g, hg, hc⟩)
    · exact ih hd.2 he

theorem free_of_nodup {es : List Item} {x : Comp} (hd : (es.map (fun e => trim e.key)).Nodup)
    (hx : ∀ e ∈ es, (x (trim e.key)).getD 0 = 0) : Free x es := by
  induction es generalizing x with
  | nil => trivial
  | cons e es ih =>
    rw [List.map_cons, List.nodup_cons] at hd
    refine ⟨hx e List.mem_cons_self, ih hd.2 (fun f hf => ?_)⟩
    unfold Comp.set
    rw [if_neg]
    · exact hx f (List.mem_cons_of_mem _ hf)
    · intro hc
      exact hd.1 (List.mem_map.mpr ⟨f, hf, hc⟩)

/-- Round trip for distinct keys: each key has the value written. -/
theorem parse_text_nodup {names : List (List Char)} {es : List Item} {tail : List Char}
    (hg : ∀ e ∈ es, e.Good) (hs : Seps es) (ht : ∀ c ∈ tail, isWs c = true)
    (hk : AllKnown names es) (hd : (es.map (fun e => e.key)).Nodup) :
    ∃ x, parse (textOf es ++ tail) names = some (.ok x) ∧ (∀ e ∈ es, x e.key = some e.val) ∧
      ∀ n, (∀ e ∈ es, e.key ≠ n) → x n = if n ∈ names then some 0 else none := by
  have htr : ∀ e ∈ es, trim e.key = e.key := fun e he =>
    trim_id (fun c hc => ((hg e he).1 c hc).2)
  have hmap : es.map (fun e => trim e.key) = es.map (fun e => e.key) :=
    List.map_congr_left htr
  have hd' : (es.map (fun e => trim e.key)).Nodup := by rw [hmap]; exact hd
  refine ⟨_, parse_text hg hs ht hk (free_of_nodup hd' (fun e _ => ?_)), fun e he => ?_,
    fun n hn => ?_⟩
  · unfold initial; split_ifs <;> rfl
  · have := fill_mem (x := initial names) hd' he
    rwa [htr e he] at this
  · rw [fill_not_mem (fun e he => by rw [htr e he]; exact hn e he)]
    rfl

/-- The entries of `"foo: 1,co:lon:2 "`. -/
noncomputable def exItems : List Item :=
  [⟨[], "foo".toList, [' '], ['1'], 1⟩, ⟨[','], "co:lon".toList, [], ['2'], 2⟩]

theorem one_digit (d : Char) (h : d.isDigit = true) :
    fpValueCheck [d] = some ((d.toNat - '0'.toNat : ℕ) : ℝ) := by
  rw [fpValueCheck_iff]
  have hs := (digit_not h).2.2.2
  refine ⟨⟨none, [d], none, none⟩, ⟨by simp, ?_, by simp, trivial, by simp⟩,
    trim_id (by intro c hc; simp at hc; subst hc; exact hs), by simp [Num.value, decNat, exVal]⟩
  intro c hc; simp at hc; subst hc; exact h

example : (∀ e ∈ exItems, e.Good) ∧ Seps exItems ∧ AllKnown [] exItems ∧
    (exItems.map (fun e => e.key)).Nodup ∧ textOf exItems = "foo: 1,co:lon:2".toList := by
  refine ⟨?_, ⟨?_, rfl⟩, fun h => absurd rfl h, ?_, rfl⟩
  · intro e he
    simp only [exItems, List.mem_cons, List.not_mem_nil, or_false] at he
    rcases he with rfl | rfl
    · refine ⟨by unfold KeyOk; decide, by decide, ?_, by decide⟩
      have := one_digit '1' (by decide); simpa using this
    · refine ⟨by unfold KeyOk; decide, by decide, ?_, by decide⟩
      have := one_digit '2' (by decide); simpa using this
  · intro f hf
    simp only [List.mem_cons, List.not_mem_nil, or_false] at hf
    subst hf
    exact ⟨by decide, by decide⟩
  · simp only [exItems, List.map_cons, List.map_nil]
    decide

/-- A key given a second time, with a non-zero value before, is rejected: no accepted text has
such a pair of entries (see `parse_sound`), in particular `e` followed by `f` for the same key. -/
theorem duplicate_rejected {es : List Item} {e f : Item} {mid : List Item} {x : Comp}
    (hk : trim e.key = trim f.key) (hv : e.val ≠ 0) (hmid : ∀ g ∈ mid, trim g.key ≠ trim e.key) :
    ¬ Free x (es ++ e :: (mid ++ [f])) := by
  induction es generalizing x with
  | cons g es ih => intro h; exact ih h.2
  | nil =>
    intro h
    have h2 : Free (x.set (trim e.key) e.val) (mid ++ [f]) := h.2
    have hx : x.set (trim e.key) e.val (trim e.key) = some e.val := by
      unfold Comp.set; rw [if_pos rfl]
    generalize x.set (trim e.key) e.val = y at h2 hx
    clear h
    induction mid generalizing y with
    | nil =>
      have := h2.1
      rw [← hk, hx] at this
      exact hv this
    | cons g mid ih =>
      refine ih (fun a ha => hmid a (List.mem_cons_of_mem _ ha)) _ h2.2 ?_
      unfold Comp.set
      rw [if_neg (fun hc => hmid g List.mem_cons_self hc.symm)]
      exact hx

example : ∃ e f : Item, trim e.key = trim f.key ∧ e.val ≠ 0 :=
  ⟨⟨[], ['A'], [], ['1'], 1⟩, ⟨[','], ['A'], [], ['2'], 2⟩, rfl, one_ne_zero⟩

/-- A key given twice is accepted if the first value is zero. -/
theorem zero_duplicate_accepted : ∃ x, parse "A:0,A:1".toList [] = some (.ok x) ∧
    x ['A'] = some 1 := by
  have h0 := one_digit '0' (by decide)
  have h1 := one_digit '1' (by decide)
  have hp := parse_text (names := [])
    (es := [⟨[], ['A'], [], ['0'], 0⟩, ⟨[','], ['A'], [], ['1'], 1⟩]) (tail := []) (by
      intro e he
      simp only [List.mem_cons, List.not_mem_nil, or_false] at he
      rcases he with rfl | rfl
      · exact ⟨by unfold KeyOk; decide, by decide, by simpa using h0, by decide⟩
      · exact ⟨by unfold KeyOk; decide, by decide, by simpa using h1, by decide⟩)
    ⟨by
      intro f hf
      simp only [List.mem_cons, List.not_mem_nil, or_false] at hf
      subst hf
      exact ⟨by decide, by decide⟩, rfl⟩ (by simp) (fun h => absurd rfl h)
    ⟨by simp [initial], by simp [Comp.set, trim, isSpace], trivial⟩
  refine ⟨_, hp, ?_⟩
  simp [fill, Comp.set, trim, isSpace]

/-- With a list of names, a known name containing a colon is rejected as unknown unless the part
before the colon is a name, too. -/
theorem colon_name_rejected : parse "A:b:1".toList ["A:b".toList] = some .throw := by
  refine parse_of_run (n := 1) ?_
  have hs : step "A:b:1".toList ["A:b".toList] (start "A:b:1".toList ["A:b".toList]) =
      .done .throw := by
    rw [step_colon (a := ['A']) (after := "b:1".toList) rfl (by decide), afterColon]
    rw [if_pos]
    exact ⟨by simp, by simp [start, initial, trim, isSpace]⟩
  rw [run, hs]

end Verif.CompString
