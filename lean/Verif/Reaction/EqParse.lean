import Verif.Reaction.Equation
import Mathlib.Tactic.Ring

/-!
# Reading a printed equation (C37)

The parser, applied to the text of any reaction whose names and coefficients can be read, gives the
coefficients that were printed, with the third body as another species.
-/

namespace Verif.Equation

open Verif.Fp

theorem exec_add (toks : List Str) (i k l : ℕ) (s : PS) :
    exec toks i (k + l) s = (exec toks i k s).bind (exec toks (i + k) l) := by
  induction k generalizing i s with
  | zero => simp [exec]
  | succ k ih =>
    rw [show k + 1 + l = (k + l) + 1 by omega, exec, exec]
    rcases step toks i s with _ | s'
    · rfl
    · simp only
      rw [ih, show i + 1 + k = i + (k + 1) by omega]

theorem exec_one (toks : List Str) (i : ℕ) (s : PS) : exec toks i 1 s = step toks i s := by
  rw [exec]
  rcases step toks i s with _ | s' <;> rfl

theorem getD_app (D R : List Str) (t : Str) : (D ++ t :: R).getD D.length [] = t := by
  simp [List.getD_eq_getElem?_getD]

theorem getD_app' {toks D R : List Str} {t : Str} {i : ℕ} (h : toks = D ++ t :: R)
    (hi : i = D.length) : toks.getD i [] = t := by
  subst h hi; exact getD_app D R t

theorem arrow_of_not_sep {t : Str} (h : isSepTok t = false) (s : PS) : s.arrow t = s := by
  have h1 : ¬ (t = ['<', '=', '>'] ∨ t = ['=']) := by
    rintro (rfl | rfl) <;> revert h <;> decide
  have h2 : ¬ t = ['=', '>'] := by
    rintro rfl; revert h; decide
  unfold PS.arrow
  rw [if_neg h1, if_neg h2]

theorem step_not_sep {toks D R : List Str} {t : Str} {i : ℕ} (h : toks = D ++ t :: R)
    (hi : i = D.length) (ht : isSepTok t = false) (s : PS) : step toks i s = some s := by
  unfold step
  rw [getD_app' h hi]
  simp [ht, arrow_of_not_sep ht]

/-- The tokens before the position do not end in a separate `(+`. -/
def DOk (D : List Str) : Prop := D.getLast? ≠ some ['(', '+']

theorem not_open {toks D R : List Str} (h : toks = D ++ R) (hD : DOk D) (sp : Str) :
    ¬ (((D.length : ℤ) - 1) ≠ -1 ∧ toks.getD ((D.length : ℤ) - 1).toNat [] = ['(', '+'] ∧
      endsPar sp = true) := by
  rintro ⟨h1, h2, -⟩
  rcases List.eq_nil_or_concat D with rfl | ⟨D', t, rfl⟩
  · simp at h1
  · have h3 : toks = D' ++ t :: R := by rw [h]; simp
    rw [getD_app' h3 (by simp)] at h2
    subst h2
    simp [DOk] at hD

theorem step_sep {toks D R : List Str} {t : Str} {i : ℕ} (h : toks = D ++ t :: R)
    (hi : i = D.length) (ht : isSepTok t = true) (s : PS) :
    step toks i s = (term toks i s).map (fun s' => s'.arrow t) := by
  unfold step
  rw [getD_app' h hi]
  simp [ht]

/-- A name without coefficient. -/
theorem chunk_one {toks D R : List Str} {n t : Str} (h : toks = D ++ n :: t :: R)
    (hD : DOk D) (hn : isSepTok n = false) (ht : isSepTok t = true) {s : PS}
    (hs : s.lu = (D.length : ℤ) - 1) :
    exec toks D.length 2 s = some ((s.use (D.length + 1) n 1).arrow t) := by
  have h2 : toks = (D ++ [n]) ++ t :: R := by rw [h]; simp
  rw [exec, step_not_sep h rfl hn, ]
  simp only
  rw [exec_one, step_sep h2 (by simp) ht]
  have hterm : term toks (D.length + 1) s = some (s.use (D.length + 1) n 1) := by
    unfold term
    rw [show D.length + 1 - 1 = D.length by omega, getD_app' h rfl]
    simp only
    rw [hs, if_neg (not_open h hD n), if_neg, if_pos (by push_cast; ring)]
    rintro ⟨h3, -⟩
    push_cast at h3
    omega
  rw [hterm]
  rfl

/-- A name with coefficient. -/
theorem chunk_two {toks D R : List Str} {c n t : Str} {v : ℝ} (h : toks = D ++ c :: n :: t :: R)
    (hD : DOk D) (hc : isSepTok c = false) (hn : isSepTok n = false) (ht : isSepTok t = true)
    (hv : fpValueCheck c = some v) {s : PS} (hs : s.lu = (D.length : ℤ) - 1) :
    exec toks D.length 3 s = some ((s.use (D.length + 2) n v).arrow t) := by
  have h2 : toks = (D ++ [c]) ++ n :: t :: R := by rw [h]; simp
  have h3 : toks = (D ++ [c, n]) ++ t :: R := by rw [h]; simp
  rw [exec, step_not_sep h rfl hc]
  simp only
  rw [exec, step_not_sep h2 (by simp) hn]
  simp only
  rw [exec_one, step_sep h3 (by simp) ht]
  have hterm : term toks (D.length + 1 + 1) s = some (s.use (D.length + 2) n v) := by
    unfold term
    rw [show D.length + 1 + 1 - 1 = D.length + 1 by omega,
      show D.length + 1 + 1 - 2 = D.length by omega, getD_app' h rfl, getD_app' h2 (by simp)]
    simp only
    rw [hs, if_neg (not_open h hD n), if_neg, if_neg, if_pos (by push_cast; ring), hv]
    · push_cast; omega
    · rintro ⟨h4, -⟩
      push_cast at h4
      omega
  rw [hterm]
  rfl

/-- A third body in parentheses, which was the separator before. -/
theorem chunk_par {toks D R : List Str} {n t : Str}
    (h : toks = (D ++ [['(', '+'] ++ n ++ [')']]) ++ t :: R)
    (ht : isSepTok t = true) {s : PS} (hs : s.lu = (D.length : ℤ)) :
    exec toks (D.length + 1) 1 s =
      some ((s.use (D.length + 1) (['(', '+'] ++ n ++ [')']) 1).arrow t) := by
  have h2 : toks = D ++ (['(', '+'] ++ n ++ [')']) :: t :: R := by rw [h]; simp
  rw [exec_one, step_sep h (by simp) ht]
  have hterm : term toks (D.length + 1) s =
      some (s.use (D.length + 1) (['(', '+'] ++ n ++ [')']) 1) := by
    unfold term
    rw [show D.length + 1 - 1 = D.length by omega, getD_app' h2 rfl]
    simp only
    rw [hs, if_neg, if_pos]
    · refine ⟨by push_cast; ring, by simp [starts, List.isPrefixOf], ?_⟩
      unfold endsPar
      rw [List.getLast?_concat]
      simp
    · rintro ⟨-, h3, -⟩
      rw [Int.toNat_natCast, getD_app' h2 rfl] at h3
      have := congrArg List.length h3
      simp at this
  rw [hterm]
  rfl

/-! ## One side -/

/-- All terms are added. -/
noncomputable def addAll (c d : Comp) : Comp := d.foldl (fun c x => addTo c x.1 x.2) c

/-- The terms are added to the current side; the last token used is `i`. -/
noncomputable def PS.useAll (s : PS) (i : ℤ) (d : Comp) : PS :=
  if s.left then { s with
    lu := i
    reac := addAll s.reac d }
  else { s with
    lu := i
    prod := addAll s.prod d }

theorem useAll_one (s : PS) (i : ℕ) (x : Str × ℝ) : s.useAll i [x] = s.use i x.1 x.2 := rfl

theorem use_useAll (s : PS) (i : ℕ) (j : ℤ) (x : Str × ℝ) (d : Comp) :
    (s.use i x.1 x.2).useAll j d = s.useAll j (x :: d) := by
  unfold PS.use PS.useAll
  by_cases h : s.left = true <;> simp [h, addAll]

theorem use_lu (s : PS) (i : ℕ) (n : Str) (v : ℝ) : (s.use i n v).lu = i := by
  unfold PS.use
  split_ifs <;> rfl

theorem arrow_lu (s : PS) (t : Str) : (s.arrow t).lu = s.lu := by
  unfold PS.arrow
  split_ifs <;> rfl

theorem arrow_plus (s : PS) : s.arrow ['+'] = s := by
  unfold PS.arrow
  rw [if_neg (by decide), if_neg (by decide)]

theorem arrow_par (s : PS) (n : Str) : s.arrow (['(', '+'] ++ n ++ [')']) = s := by
  unfold PS.arrow
  rw [if_neg (by simp), if_neg (by simp)]

theorem useAll_lu (s : PS) (i : ℤ) (d : Comp) : (s.useAll i d).lu = i := by
  unfold PS.useAll
  split_ifs <;> rfl

theorem num_not_sep {t : Str} {v : ℝ} (h : fpValueCheck t = some v) : isSepTok t = false := by
  by_contra hc
  have hs : isSepTok t = true := by simpa using hc
  have hch := accepted_chars h
  have hpar : '(' ∉ t := by
    intro hm
    have := hch '(' (CompString.mem_trim hm (by decide))
    revert this
    decide
  have heq : '=' ∉ t := by
    intro hm
    have := hch '=' (CompString.mem_trim hm (by decide))
    revert this
    decide
  unfold isSepTok at hs
  simp only [Bool.or_eq_true, decide_eq_true_eq] at hs
  rcases hs with (((rfl | hs) | rfl) | rfl) | rfl
  · rw [show fpValueCheck ['+'] = none by simp [fpValueCheck, show fpCheck ['+'] = none by decide]]
      at h
    cases h
  · unfold starts at hs
    rw [List.isPrefixOf_iff_prefix] at hs
    exact hpar (hs.subset (by simp))
  · exact heq (by simp)
  · exact heq (by simp)
  · exact heq (by simp)

theorem term_exec {shw : ℝ → Str} {toks D R : List Str} {x : Str × ℝ} {t : Str}
    (h : toks = D ++ termToks shw x ++ t :: R) (hD : DOk D) (hx : TermOk shw x)
    (ht : isSepTok t = true) {s : PS} (hs : s.lu = (D.length : ℤ) - 1) :
    exec toks D.length ((termToks shw x).length + 1) s =
      some ((s.use (D.length + (termToks shw x).length) x.1 x.2).arrow t) := by
  by_cases h1 : x.2 ≠ 1
  · have he : termToks shw x = [shw x.2, x.1] := by
      unfold termToks; rw [if_pos h1]
    rw [he] at h ⊢
    exact chunk_two (R := R) (by rw [h]; simp) hD (num_not_sep (hx.2 h1).2) hx.1.2.2 ht
      (hx.2 h1).2 hs
  · have he : termToks shw x = [x.1] := by
      unfold termToks; rw [if_neg h1]
    rw [he] at h ⊢
    have h1' : x.2 = 1 := by simpa using h1
    rw [h1']
    exact chunk_one (R := R) (by rw [h]; simp) hD hx.1.2.2 ht hs

/-- The terms of one side, up to the separator after them. -/
theorem side_exec {shw : ℝ → Str} {toks : List Str} {t : Str} (ht : isSepTok t = true) :
    ∀ {c : Comp} {D R : List Str} {s : PS}, c ≠ [] → (∀ x ∈ c, TermOk shw x) →
      toks = D ++ sideToks shw c ++ t :: R → DOk D → s.lu = (D.length : ℤ) - 1 →
      exec toks D.length ((sideToks shw c).length + 1) s =
        some ((s.useAll (D.length + (sideToks shw c).length : ℕ) c).arrow t)
  | [], _, _, _, hne, _, _, _, _ => absurd rfl hne
  | [x], D, R, s, _, hc, h, hD, hs => by
    rw [useAll_one]
    exact term_exec h hD (hc x List.mem_cons_self) ht hs
  | x :: y :: c, D, R, s, _, hc, h, hD, hs => by
    rw [sideToks] at h ⊢
    have h1 : toks = D ++ termToks shw x ++ ['+'] :: (sideToks shw (y :: c) ++ t :: R) := by
      rw [h]; simp
    have e1 := term_exec h1 hD (hc x List.mem_cons_self) (by decide) hs
    rw [arrow_plus] at e1
    have h2 : toks = (D ++ termToks shw x ++ [['+']]) ++ sideToks shw (y :: c) ++ t :: R := by
      rw [h]; simp
    have e2 := side_exec ht (s := s.use (D.length + (termToks shw x).length) x.1 x.2)
      (by simp : y :: c ≠ []) (fun z hz => hc z (List.mem_cons_of_mem _ hz)) h2
      (by simp [DOk]) (by rw [use_lu]; push_cast [List.length_append, List.length_singleton]; ring)
    have hl : (termToks shw x ++ ['+'] :: sideToks shw (y :: c)).length + 1 =
        ((termToks shw x).length + 1) + ((sideToks shw (y :: c)).length + 1) := by
      simp; omega
    rw [hl, exec_add, e1, Option.bind_some]
    have hl2 : (D ++ termToks shw x ++ [['+']]).length = D.length + ((termToks shw x).length + 1) := by
      simp
    rw [hl2] at e2
    rw [e2, use_useAll]
    congr 3
    simp only [List.length_append, List.length_cons]
    push_cast
    ring

/-- The third body as a species of the parsed equation. -/
def thirdComp : Option (Str × Bool) → Comp
  | none => []
  | some (n, true) => [(n, 1)]
  | some (n, false) => [(['(', '+'] ++ n ++ [')'], 1)]

theorem par_sep (n : Str) : isSepTok (['(', '+'] ++ n ++ [')']) = true := by
  simp [isSepTok, starts, List.isPrefixOf]

theorem useAll_useAll (s : PS) (i j : ℤ) (c d : Comp) :
    (s.useAll i c).useAll j d = s.useAll j (c ++ d) := by
  unfold PS.useAll
  by_cases h : s.left = true <;> simp [h, addAll, List.foldl_append]

theorem sideToks_snoc {shw : ℝ → Str} (n : Str) : ∀ {c : Comp}, c ≠ [] →
    sideToks shw (c ++ [(n, 1)]) = sideToks shw c ++ [['+'], n]
  | [], h => absurd rfl h
  | [x], _ => by simp [sideToks, termToks]
  | x :: y :: c, _ => by
    have := sideToks_snoc (shw := shw) n (c := y :: c) (by simp)
    simp only [List.cons_append] at this ⊢
    rw [sideToks, sideToks, this]
    simp

/-- One side with the third body. -/
theorem full_exec {shw : ℝ → Str} {toks D R : List Str} {t : Str} (ht : isSepTok t = true)
    {c : Comp} {third : Option (Str × Bool)} {s : PS} (hne : c ≠ [])
    (hc : ∀ x ∈ c, TermOk shw x) (h3 : ThirdOk third)
    (h : toks = D ++ (sideToks shw c ++ thirdToks third) ++ t :: R) (hD : DOk D)
    (hs : s.lu = (D.length : ℤ) - 1) :
    exec toks D.length ((sideToks shw c ++ thirdToks third).length + 1) s =
      some ((s.useAll (D.length + (sideToks shw c ++ thirdToks third).length : ℕ)
        (c ++ thirdComp third)).arrow t) := by
  match third, h3 with
  | none, _ =>
    simp only [thirdToks, thirdComp, List.append_nil] at h ⊢
    exact side_exec ht hne hc h hD hs
  | some (n, true), h3 =>
    simp only [thirdToks, thirdComp] at h ⊢
    rw [← sideToks_snoc n hne] at h ⊢
    refine side_exec ht (by simp) ?_ h hD hs
    intro x hx
    rcases List.mem_append.mp hx with hx | hx
    · exact hc x hx
    · simp only [List.mem_cons, List.not_mem_nil, or_false] at hx
      subst hx
      exact ⟨h3, fun h => absurd rfl h⟩
  | some (n, false), h3 =>
    simp only [thirdToks, thirdComp] at h ⊢
    have h1 : toks = D ++ sideToks shw c ++ (['(', '+'] ++ n ++ [')']) :: (t :: R) := by
      rw [h]; simp
    have e1 := side_exec (par_sep n) hne hc h1 hD hs
    rw [arrow_par] at e1
    have h2 : toks = ((D ++ sideToks shw c) ++ [['(', '+'] ++ n ++ [')']]) ++ t :: R := by
      rw [h]; simp
    have e2 := chunk_par h2 ht
      (s := s.useAll (D.length + (sideToks shw c).length : ℕ) c) (by rw [useAll_lu]; simp)
    have hl : (sideToks shw c ++ [['(', '+'] ++ n ++ [')']]).length + 1 =
        ((sideToks shw c).length + 1) + 1 := by simp
    rw [hl, exec_add, e1, Option.bind_some]
    have hl2 : (D ++ sideToks shw c).length + 1 = D.length + ((sideToks shw c).length + 1) := by
      simp; omega
    rw [hl2] at e2
    rw [e2, ← useAll_useAll _ (D.length + (sideToks shw c).length : ℕ)]
    have hu := useAll_one (s.useAll (D.length + (sideToks shw c).length : ℕ) c)
      (D.length + ((sideToks shw c).length + 1)) (['(', '+'] ++ n ++ [')'], 1)
    simp only at hu
    rw [← hu]
    congr 3
    simp

theorem first_not_sep {shw : ℝ → Str} : ∀ {c : Comp}, c ≠ [] → (∀ x ∈ c, TermOk shw x) →
    ∃ t l, sideToks shw c = t :: l ∧ isSepTok t = false
  | [], h, _ => absurd rfl h
  | x :: c, _, hc => by
    have hx := hc x List.mem_cons_self
    have key : ∃ t l, termToks shw x = t :: l ∧ isSepTok t = false := by
      unfold termToks
      by_cases h1 : x.2 ≠ 1
      · exact ⟨_, _, if_pos h1, num_not_sep (hx.2 h1).2⟩
      · exact ⟨_, _, if_neg h1, hx.1.2.2⟩
    obtain ⟨t, l, h, ht⟩ := key
    rcases c with _ | ⟨y, c⟩
    · exact ⟨t, l, h, ht⟩
    · refine ⟨t, l ++ ['+'] :: sideToks shw (y :: c), ?_, ht⟩
      rw [sideToks, h]; rfl

/-- Names and coefficients of the reaction can be read. -/
structure Ok (shw : ℝ → Str) (r : Src) : Prop where
  reac_ne : r.reac ≠ []
  prod_ne : r.prod ≠ []
  reac_ok : ∀ x ∈ r.reac, TermOk shw x
  prod_ok : ∀ x ∈ r.prod, TermOk shw x
  third_ok : ThirdOk r.third

theorem arrow_sep (rev : Bool) : isSepTok (arrowTok rev) = true := by cases rev <;> decide

/-- **The text of a reaction is parsed as its coefficients.** -/
theorem parse_print {shw : ℝ → Str} {r : Src} (h : Ok shw r) :
    parse Rxn.new (equation shw r) = some
      { Rxn.new with
        reac := addAll [] (r.reac ++ thirdComp r.third)
        prod := addAll [] (r.prod ++ thirdComp r.third)
        rev := r.rev } := by
  unfold parse
  rw [words_equation h.reac_ok h.prod_ok h.third_ok]
  simp only
  set A := sideToks shw r.reac ++ thirdToks r.third with hA
  set B := sideToks shw r.prod ++ thirdToks r.third with hB
  set toks := A ++ arrowTok r.rev :: B ++ [['+']] with htoks
  set s0 : PS := ⟨-1, true, Rxn.new.reac, Rxn.new.prod, Rxn.new.rev⟩ with hs0
  have h1 : toks = [] ++ A ++ arrowTok r.rev :: (B ++ [['+']]) := by simp [htoks]
  have e1 := full_exec (arrow_sep r.rev) h.reac_ne h.reac_ok h.third_ok h1 (by simp [DOk])
    (s := s0) (by simp [hs0])
  have h2 : toks = (A ++ [arrowTok r.rev]) ++ B ++ ['+'] :: [] := by simp [htoks]
  have hl2 : (A ++ [arrowTok r.rev]).length = A.length + 1 := by simp
  have hD2 : DOk (A ++ [arrowTok r.rev]) := by
    unfold DOk arrowTok
    cases r.rev <;> simp
  have e2 := full_exec (by decide) h.prod_ne h.prod_ok h.third_ok h2 hD2
    (s := (s0.useAll (([] : List Str).length + A.length : ℕ) (r.reac ++ thirdComp r.third)).arrow
      (arrowTok r.rev)) (by rw [arrow_lu, useAll_lu, hl2]; simp)
  rw [← hA] at e1
  rw [← hB, hl2, arrow_plus] at e2
  have hlen : toks.length = (A.length + 1) + (B.length + 1) := by simp [htoks]; omega
  have etot : exec toks 0 toks.length s0 = exec toks 1 (toks.length - 1) s0 := by
    obtain ⟨t, l, hl, ht⟩ := first_not_sep h.reac_ne h.reac_ok
    have hk : toks.length = (toks.length - 1) + 1 := by omega
    rw [hk, exec, step_not_sep (D := []) (t := t) (R := l ++ thirdToks r.third ++
      arrowTok r.rev :: B ++ [['+']]) (by simp [htoks, hA, hl]) (i := 0) rfl ht]
    simp
  rw [← etot, hlen, exec_add]
  simp only [List.length_nil] at e1
  rw [e1, Option.bind_some, Nat.zero_add]
  simp only [List.length_nil] at e2
  rw [e2]
  unfold PS.useAll PS.arrow arrowTok
  cases r.rev <;> simp [hs0, Rxn.new]

end Verif.Equation
