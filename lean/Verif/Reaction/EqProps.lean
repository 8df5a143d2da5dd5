import Verif.Reaction.EqParse
import Mathlib.Tactic.Positivity

/-!
# Round trip of the equation text (C37)
-/

namespace Verif.Equation

open Verif.Fp

/-- Names of a composition. -/
def keys (c : Comp) : List Str := c.map (fun x => x.1)

theorem get_none_iff (c : Comp) (n : Str) : get c n = none ↔ n ∉ keys c := by
  induction c with
  | nil => simp [get, keys]
  | cons x c ih =>
    obtain ⟨m, v⟩ := x
    rw [get]
    by_cases h : m = n
    · simp [h, keys]
    · rw [if_neg h, ih]
      simp only [keys, List.map_cons, List.mem_cons, not_or]
      exact ⟨fun h2 => ⟨fun h3 => h h3.symm, h2⟩, fun h2 => h2.2⟩

theorem get_some_mem {c : Comp} {n : Str} {v : ℝ} (h : get c n = some v) : (n, v) ∈ c := by
  induction c with
  | nil => cases h
  | cons x c ih =>
    obtain ⟨m, w⟩ := x
    rw [get] at h
    by_cases hm : m = n
    · rw [if_pos hm] at h
      cases h; subst hm; simp
    · rw [if_neg hm] at h
      exact List.mem_cons_of_mem _ (ih h)

theorem get_of_mem {c : Comp} (hn : (keys c).Nodup) {n : Str} {v : ℝ} (h : (n, v) ∈ c) :
    get c n = some v := by
  induction c with
  | nil => cases h
  | cons x c ih =>
    obtain ⟨m, w⟩ := x
    simp only [keys, List.map_cons, List.nodup_cons] at hn
    rw [get]
    rcases List.mem_cons.mp h with h | h
    · cases h; simp
    · have : m ≠ n := by
        rintro rfl
        exact hn.1 (List.mem_map.mpr ⟨_, h, rfl⟩)
      rw [if_neg this]
      exact ih hn.2 h

theorem addTo_new {c : Comp} {n : Str} (h : n ∉ keys c) (v : ℝ) : addTo c n v = c ++ [(n, v)] := by
  induction c with
  | nil => rfl
  | cons x c ih =>
    obtain ⟨m, w⟩ := x
    simp only [keys, List.map_cons, List.mem_cons, not_or] at h
    rw [addTo, if_neg (fun h2 => h.1 h2.symm), ih h.2]
    rfl

theorem keys_addTo_mem {c : Comp} {n : Str} (h : n ∈ keys c) (v : ℝ) :
    keys (addTo c n v) = keys c := by
  induction c with
  | nil => cases h
  | cons x c ih =>
    obtain ⟨m, w⟩ := x
    rw [addTo]
    by_cases hm : m = n
    · rw [if_pos hm]; rfl
    · rw [if_neg hm]
      simp only [keys, List.map_cons, List.mem_cons] at h ⊢
      congr 1
      exact ih (h.resolve_left (fun h2 => hm h2.symm))

theorem keys_addTo_nodup {c : Comp} (hc : (keys c).Nodup) (n : Str) (v : ℝ) :
    (keys (addTo c n v)).Nodup := by
  by_cases h : n ∈ keys c
  · rw [keys_addTo_mem h]; exact hc
  · rw [addTo_new h]
    simp only [keys, List.map_append, List.map_cons, List.map_nil]
    exact List.Nodup.append hc (by simp) (by
      intro x hx hy
      simp only [List.mem_cons, List.not_mem_nil, or_false] at hy
      subst hy; exact h hx)

theorem get_addTo_same (c : Comp) (n : Str) (v : ℝ) :
    get (addTo c n v) n = some ((get c n).getD 0 + v) := by
  induction c with
  | nil => simp [addTo, get]
  | cons x c ih =>
    obtain ⟨m, w⟩ := x
    rw [addTo, get]
    by_cases hm : m = n
    · simp [hm, get]
    · rw [if_neg hm, if_neg hm, get, if_neg hm, ih]

theorem get_addTo_other (c : Comp) {n m : Str} (h : m ≠ n) (v : ℝ) :
    get (addTo c n v) m = get c m := by
  induction c with
  | nil => simp [addTo, get, Ne.symm h]
  | cons x c ih =>
    obtain ⟨k, w⟩ := x
    rw [addTo]
    by_cases hk : k = n
    · have : n ≠ m := Ne.symm h
      simp [hk, get, this]
    · rw [if_neg hk, get, get, ih]

theorem addAll_fresh {d : Comp} : ∀ {c : Comp}, (keys (c ++ d)).Nodup → addAll c d = c ++ d := by
  induction d with
  | nil => intro c _; simp [addAll]
  | cons x d ih =>
    intro c h
    obtain ⟨n, v⟩ := x
    have hx : n ∉ keys c := by
      simp only [keys, List.map_append, List.map_cons] at h
      have := List.disjoint_of_nodup_append h
      exact fun hc => this hc (by simp)
    have : addAll c ((n, v) :: d) = addAll (addTo c n v) d := rfl
    rw [this, addTo_new hx, ih]
    · simp
    · simpa using h

theorem addAll_third {c : Comp} (h : (keys c).Nodup) (n : Str) :
    addAll [] (c ++ [(n, 1)]) = addTo c n 1 := by
  have : addAll [] (c ++ [(n, 1)]) = addTo (addAll [] c) n 1 := by
    simp [addAll, List.foldl_append]
  rw [this, addAll_fresh (by simpa using h)]
  rfl

/-! ## Common species -/

theorem commons_mem {reac prod : Comp} {z : Str × ℝ × ℝ} (h : z ∈ commons reac prod) :
    (z.1, z.2.1) ∈ reac ∧ get prod z.1 = some z.2.2 := by
  unfold commons at h
  rw [List.mem_filterMap] at h
  obtain ⟨x, hx, he⟩ := h
  rw [Option.map_eq_some_iff] at he
  obtain ⟨w, hw, rfl⟩ := he
  exact ⟨hx, hw⟩

theorem mem_commons {reac prod : Comp} {n : Str} {v w : ℝ} (h1 : (n, v) ∈ reac)
    (h2 : get prod n = some w) : (n, v, w) ∈ commons reac prod := by
  unfold commons
  rw [List.mem_filterMap]
  exact ⟨(n, v), h1, by simp [h2]⟩

theorem commons_nil {reac prod : Comp} (h : ∀ n ∈ keys reac, n ∉ keys prod) :
    commons reac prod = [] := by
  rw [List.eq_nil_iff_forall_not_mem]
  intro z hz
  obtain ⟨h1, h2⟩ := commons_mem hz
  refine h z.1 (List.mem_map.mpr ⟨_, h1, rfl⟩) ?_
  by_contra hc
  rw [← get_none_iff] at hc
  rw [hc] at h2; cases h2

/-- Only one species is common. -/
theorem commons_single {prod : Comp} {n : Str} {w : ℝ} (hw : get prod n = some w) :
    ∀ {reac : Comp}, (keys reac).Nodup → ∀ {v : ℝ}, get reac n = some v →
      (∀ m ∈ keys reac, m ≠ n → m ∉ keys prod) → commons reac prod = [(n, v, w)]
  | [], _, _, h, _ => by cases h
  | (m, u) :: c, hn, v, h, ho => by
    simp only [keys, List.map_cons, List.nodup_cons] at hn
    have hsplit : commons ((m, u) :: c) prod =
        ((get prod m).map (fun w => (m, u, w))).toList ++ commons c prod := by
      unfold commons
      rw [List.filterMap_cons]
      rcases get prod m with _ | w' <;> rfl
    rw [hsplit]
    by_cases hm : m = n
    · subst hm
      rw [get, if_pos rfl] at h
      cases h
      rw [hw, commons_nil]
      · rfl
      · intro k hk
        refine ho k (List.mem_cons_of_mem _ hk) ?_
        rintro rfl
        exact hn.1 hk
    · rw [get, if_neg hm] at h
      rw [commons_single hw hn.2 h (fun k hk => ho k (List.mem_cons_of_mem _ hk)),
        (get_none_iff prod m).mpr (ho m (by simp [keys]) hm)]
      rfl

/-- A species that is new on both sides. -/
theorem commons_new {reac prod : Comp} {n : Str} (h1 : n ∉ keys reac) (h2 : n ∉ keys prod) :
    commons (reac ++ [(n, 1)]) (prod ++ [(n, 1)]) = commons reac prod ++ [(n, 1, 1)] := by
  have hg : get (prod ++ [(n, 1)]) n = some 1 := by
    rw [← addTo_new h2, get_addTo_same, (get_none_iff prod n).mpr h2]; simp
  unfold commons
  rw [List.filterMap_append]
  congr 1
  · refine List.filterMap_congr fun x hx => ?_
    have hxn : x.1 ≠ n := by
      rintro rfl
      exact h1 (List.mem_map.mpr ⟨x, hx, rfl⟩)
    rw [← addTo_new h2, get_addTo_other _ hxn]
  · simp [hg]

theorem mult_pos (x : Str × ℝ × ℝ) : 1 ≤ mult x := by
  unfold mult
  split_ifs <;> omega

theorem count_append (a b : List (Str × ℝ × ℝ)) : count (a ++ b) = count a + count b := by
  simp [count]

theorem countM_append (a b : List (Str × ℝ × ℝ)) : countM (a ++ b) = countM a + countM b := by
  simp [countM]

theorem length_le_count (l : List (Str × ℝ × ℝ)) : l.length ≤ count l := by
  induction l with
  | nil => simp [count]
  | cons x l ih =>
    have := mult_pos x
    simp only [count, List.map_cons, List.sum_cons, List.length_cons] at ih ⊢
    omega

theorem countM_zero {l : List (Str × ℝ × ℝ)} (h : ∀ x ∈ l, generic x.1 = false) : countM l = 0 := by
  unfold countM
  rw [List.sum_eq_zero]
  intro k hk
  rw [List.mem_map] at hk
  obtain ⟨x, hx, rfl⟩ := hk
  simp [h x hx]

theorem named_not_generic {n : Str} (h : Named n) (hM : n ≠ ['M']) : generic n = false := by
  unfold generic
  have h1 : n ≠ ['(', '+', 'M', ')'] := by
    rintro rfl
    exact absurd h.2.2 (by decide)
  have h2 : n ≠ ['(', '+', ' ', 'M', ')'] := by
    rintro rfl
    exact absurd h.2.2 (by decide)
  simp [hM, h1, h2]

theorem named_not_par {n : Str} (h : Named n) : starts n ['(', '+'] = false := by
  have := h.2.2
  unfold isSepTok at this
  simp only [Bool.or_eq_false_iff] at this
  exact this.1.1.1.2

/-! ## Taking off the third body -/

theorem adjust_new {c : Comp} {n : Str} (h : n ∉ keys c) : adjust (addTo c n 1) n = .ok c := by
  unfold adjust
  rw [get_addTo_same, (get_none_iff c n).mpr h]
  simp only [Option.getD_none, zero_add]
  rw [if_neg (by norm_num), addTo_new h]
  unfold eraseC
  rw [List.filter_append]
  have h1 : c.filter (fun x => decide (x.1 ≠ n)) = c := by
    rw [List.filter_eq_self]
    intro x hx
    simp only [ne_eq, decide_not, Bool.not_eq_eq_eq_not, Bool.not_true, decide_eq_false_iff_not]
    rintro rfl
    exact h (List.mem_map.mpr ⟨x, hx, rfl⟩)
  rw [h1]
  simp

theorem setC_addTo {c : Comp} {n : Str} {v : ℝ} (h : get c n = some v) :
    setC (addTo c n 1) n v = c := by
  induction c with
  | nil => cases h
  | cons x c ih =>
    obtain ⟨m, w⟩ := x
    rw [get] at h
    rw [addTo]
    by_cases hm : m = n
    · rw [if_pos hm] at h ⊢
      cases h
      rw [setC, if_pos hm]
    · rw [if_neg hm] at h ⊢
      rw [setC, if_neg hm, ih h]

theorem adjust_old {c : Comp} {n : Str} {v : ℝ} (h : get c n = some v) (hv : 1 ≤ v) :
    adjust (addTo c n 1) n = .ok c := by
  unfold adjust
  rw [get_addTo_same, h]
  simp only [Option.getD_some]
  rw [if_pos (by intro hc; linarith [hc.2]), add_sub_cancel_right, setC_addTo h]

/-- Coefficients are positive whole numbers. -/
def Whole (c : Comp) : Prop := ∀ x ∈ c, ∃ k : ℕ, 1 ≤ k ∧ x.2 = k

theorem adjust_whole {c : Comp} (hw : Whole c) (n : Str) : adjust (addTo c n 1) n = .ok c := by
  rcases h : get c n with _ | v
  · exact adjust_new ((get_none_iff c n).mp h)
  · obtain ⟨k, hk, he⟩ := hw _ (get_some_mem h)
    refine adjust_old h ?_
    simp only at he
    rw [he]; exact_mod_cast hk

/-- Number of participants. -/
def total (c : Comp) : ℝ := (c.map (fun x => x.2)).sum

theorem sumInt_whole {c : Comp} (h : Whole c) : ∀ a : ℤ, ∃ k : ℤ, sumInt c a = .ok (some k) ∧
    (k : ℝ) = a + total c := by
  induction c with
  | nil => intro a; exact ⟨a, rfl, by simp [total]⟩
  | cons x c ih =>
    intro a
    obtain ⟨n, v⟩ := x
    obtain ⟨j, hj, he⟩ := h _ List.mem_cons_self
    simp only at he
    have hf : ⌊v⌋ = (j : ℤ) := by rw [he]; exact Int.floor_natCast j
    obtain ⟨k, hk, hs⟩ := ih (fun y hy => h y (List.mem_cons_of_mem _ hy)) (a + ⌊v⌋)
    refine ⟨k, ?_, ?_⟩
    · rw [sumInt, if_neg (by rw [hf, he]; simp), if_neg, hk]
      rw [he, not_lt]; positivity
    · rw [hs, hf]
      simp only [total, List.map_cons, List.sum_cons, he]
      push_cast
      ring

theorem total_addTo (c : Comp) (n : Str) (v : ℝ) : total (addTo c n v) = total c + v := by
  induction c with
  | nil => simp [addTo, total]
  | cons x c ih =>
    obtain ⟨m, w⟩ := x
    rw [addTo]
    split_ifs
    · simp [total]; ring
    · simp only [total, List.map_cons, List.sum_cons] at ih ⊢
      rw [ih]; ring

theorem whole_addTo {c : Comp} (h : Whole c) (n : Str) : Whole (addTo c n 1) := by
  induction c with
  | nil =>
    intro x hx
    simp only [addTo, List.mem_cons, List.not_mem_nil, or_false] at hx
    subst hx
    exact ⟨1, le_refl 1, by simp⟩
  | cons y c ih =>
    obtain ⟨m, w⟩ := y
    have hc : Whole c := fun y hy => h y (List.mem_cons_of_mem _ hy)
    obtain ⟨k, hk, he⟩ := h _ List.mem_cons_self
    simp only at he
    rw [addTo]
    split_ifs
    · intro x hx
      rcases List.mem_cons.mp hx with rfl | hx
      · exact ⟨k + 1, by omega, by simp [he]⟩
      · exact hc x hx
    · intro x hx
      rcases List.mem_cons.mp hx with rfl | hx
      · exact ⟨k, hk, he⟩
      · exact ih hc x hx

/-! ## The round trip -/

/-- Reactions considered: readable, every species has one entry per side, and the name `M` is
reserved for the third body. -/
structure WF (shw : ℝ → Str) (r : Src) : Prop extends Ok shw r where
  reac_nodup : (keys r.reac).Nodup
  prod_nodup : (keys r.prod).Nodup
  reac_M : ['M'] ∉ keys r.reac
  prod_M : ['M'] ∉ keys r.prod

/-- No species on both sides. -/
def Disj (r : Src) : Prop := ∀ n ∈ keys r.reac, n ∉ keys r.prod

/-- Two species on both sides, or one of which there is more than one on both sides. -/
def Twice (reac prod : Comp) : Prop :=
  (∃ m n, m ≠ n ∧ m ∈ keys reac ∧ m ∈ keys prod ∧ n ∈ keys reac ∧ n ∈ keys prod) ∨
    ∃ n v w, (n, v) ∈ reac ∧ (n, w) ∈ prod ∧ 1 < v ∧ 1 < w

/-- The rate type, the phase and the species determine the third body. -/
def Recog (cfg : Cfg) (r : Src) : Prop :=
  match r.third with
  | none => cfg.three = false ∧ (cfg.fixed = true ∨ Disj r ∨
      (cfg.effs = none ∧ cfg.dflt = false ∧ (Twice r.reac r.prod ∨
        (Whole r.reac ∧ Whole r.prod ∧ total r.reac ≠ 3 ∧ total r.prod ≠ 3))))
  | some (n, true) => (cfg.three = true ∨ cfg.fixed = false) ∧ (n = ['M'] ∨
      (Disj r ∧ (n ∉ keys r.reac ∨ n ∉ keys r.prod) ∧ Whole r.reac ∧ Whole r.prod ∧
        (cfg.three = true ∨ total r.reac = 2 ∨ total r.prod = 2)) ∨
      (Whole r.reac ∧ Whole r.prod ∧ (∃ k, cfg.effs = some [(n, k)]) ∧
        ((∃ m, m ≠ n ∧ m ∈ keys r.reac ∧ m ∈ keys r.prod) ∨ (n ∈ keys r.reac ∧ n ∈ keys r.prod))))
  | some (_, false) => (cfg.three = true ∨ cfg.fixed = false) ∧ Disj r

/-- Efficiencies of a third body before any are set: all species count, or only the one named. -/
def Plain (tb : TB) : Prop :=
  (tb.name = ['M'] ∧ tb.effs = [] ∧ tb.dflt = 1) ∨
    (tb.name ≠ ['M'] ∧ tb.effs = [(tb.name, 1)] ∧ tb.dflt = 0)

/-- What was printed has been read. -/
def Same (r : Src) (o : Outcome Rxn) : Prop :=
  ∃ q, o = .ok q ∧ q.reac = r.reac ∧ q.prod = r.prod ∧ q.rev = r.rev ∧
    q.tb.map (fun t => (t.name, t.massAction)) = r.third ∧ ∀ t ∈ q.tb, Plain t

/-- The reaction after parsing. -/
noncomputable def parsed (r : Src) (e : Bool) : Rxn :=
  { Rxn.new with
    reac := addAll [] (r.reac ++ thirdComp r.third)
    prod := addAll [] (r.prod ++ thirdComp r.third)
    rev := r.rev
    explicitType := e }

theorem setEquation_detect {shw : ℝ → Str} {r : Src} (h : Ok shw r) {cfg : Cfg}
    (hc : cfg.three = true ∨ cfg.fixed = false) : ∃ e, setEquation cfg Rxn.new (equation shw r) =
      detect cfg (parsed r e) := by
  unfold setEquation
  rw [parse_print h]
  simp only
  by_cases h3 : cfg.three = true
  · exact ⟨true, by rw [if_pos h3]; rfl⟩
  · have hf : cfg.fixed = false := hc.resolve_left h3
    have he : ¬ cfg.rateType = "elementary".toList := by
      intro he
      simp [Cfg.fixed, he] at hf
    exact ⟨false, by rw [if_neg h3, if_neg he, if_neg (by simp [hf])]; rfl⟩

theorem twice_count {reac prod : Comp} (hp : (keys prod).Nodup) (h : Twice reac prod) :
    1 < count (commons reac prod) := by
  rcases h with ⟨m, n, hmn, h1, h2, h3, h4⟩ | ⟨n, v, w, h1, h2, hv, hw⟩
  · obtain ⟨⟨m', v⟩, hm, he⟩ := List.mem_map.mp h1
    obtain ⟨⟨n', u⟩, hn, he'⟩ := List.mem_map.mp h3
    simp only at he he'
    subst he he'
    obtain ⟨w, hw⟩ : ∃ w, get prod m' = some w := by
      rw [← Option.ne_none_iff_exists']
      exact fun h => (get_none_iff _ _).mp h h2
    obtain ⟨w', hw'⟩ : ∃ w, get prod n' = some w := by
      rw [← Option.ne_none_iff_exists']
      exact fun h => (get_none_iff _ _).mp h h4
    have k1 := mem_commons hm hw
    have k2 := mem_commons hn hw'
    have : 1 < (commons reac prod).length := by
      by_contra hc
      rcases hl : commons reac prod with _ | ⟨x, _ | ⟨y, l⟩⟩
      · rw [hl] at k1; cases k1
      · rw [hl] at k1 k2
        simp only [List.mem_cons, List.not_mem_nil, or_false] at k1 k2
        rw [← k1] at k2
        exact hmn (Prod.mk.inj k2).1.symm
      · rw [hl] at hc; simp at hc
    exact lt_of_lt_of_le this (length_le_count _)
  · have k1 := mem_commons h1 (get_of_mem hp h2)
    obtain ⟨a, b, hl⟩ := List.append_of_mem k1
    rw [hl, show (n, v, w) :: b = [(n, v, w)] ++ b from rfl, count_append, count_append]
    have : count [(n, v, w)] = 2 := by
      simp [count, mult, hv, hw]
    omega

theorem commons_not_generic {shw : ℝ → Str} {reac prod : Comp} (h : ∀ x ∈ reac, TermOk shw x)
    (hM : ['M'] ∉ keys reac) : countM (commons reac prod) = 0 := by
  refine countM_zero fun z hz => ?_
  obtain ⟨h1, -⟩ := commons_mem hz
  refine named_not_generic (h _ h1).1 ?_
  intro he
  refine hM (List.mem_map.mpr ⟨_, h1, ?_⟩)
  exact he

theorem setName_new_M : TB.new.setName ['M'] = .ok TB.new := by
  rfl

theorem setName_new_par {n : Str} (hne : n ≠ []) (hs : NoSp n) : ∃ tb,
    TB.new.setName (['(', '+'] ++ n ++ [')']) = .ok tb ∧ tb.name = n ∧ tb.massAction = false ∧
      Plain tb := by
  have h1 : starts (['(', '+'] ++ n ++ [')']) ['(', '+'] = true := by
    simp [starts, List.isPrefixOf]
  have h2 : starts (['(', '+'] ++ n ++ [')']) ['(', '+', ' '] = false := by
    rcases n with _ | ⟨c, n⟩
    · exact absurd rfl hne
    · have hc : isSpace c = false := hs c List.mem_cons_self
      have : c ≠ ' ' := by rintro rfl; revert hc; decide
      simp [starts, List.isPrefixOf, Ne.symm this]
  have h3 : ((['(', '+'] ++ n ++ [')']).drop 2).take ((['(', '+'] ++ n ++ [')']).length - 3) = n := by
    simp
  unfold TB.setName
  simp only [h1, h2, h3, if_true]
  simp only [Bool.false_eq_true, if_false]
  by_cases hM : n = TB.new.name
  · rw [if_pos hM]
    exact ⟨_, rfl, hM.symm, rfl, Or.inl ⟨rfl, rfl, rfl⟩⟩
  · rw [if_neg hM, if_neg, if_neg]
    · exact ⟨_, rfl, rfl, rfl, Or.inr ⟨hM, rfl, rfl⟩⟩
    · simp [TB.new]
    · rintro ⟨-, h⟩
      simp [TB.new] at h

theorem setName_new {n : Str} (h : starts n ['(', '+'] = false) : ∃ tb,
    TB.new.setName n = .ok tb ∧ tb.name = n ∧ tb.massAction = true ∧ Plain tb := by
  have h2 : starts n ['(', '+', ' '] = false := by
    by_contra hc
    have hc' : starts n ['(', '+', ' '] = true := by simpa using hc
    unfold starts at h hc'
    rw [List.isPrefixOf_iff_prefix] at hc'
    have : List.isPrefixOf ['(', '+'] n = true := by
      rw [List.isPrefixOf_iff_prefix]
      exact List.IsPrefix.trans ⟨[' '], rfl⟩ hc'
    rw [this] at h; cases h
  unfold TB.setName
  simp only [h, h2, Bool.false_eq_true, if_false]
  by_cases hM : n = TB.new.name
  · rw [if_pos hM]
    exact ⟨_, rfl, hM.symm, rfl, Or.inl ⟨rfl, rfl, rfl⟩⟩
  · rw [if_neg hM, if_neg, if_neg]
    · exact ⟨_, rfl, rfl, rfl, Or.inr ⟨hM, rfl, rfl⟩⟩
    · simp [TB.new]
    · rintro ⟨-, h⟩
      simp [TB.new] at h

theorem apply_ok {r : Rxn} {t : Str} {tb : TB} {a b : Comp} (h0 : r.tb = none)
    (h1 : TB.new.setName t = .ok tb) (h2 : adjust r.reac t = .ok a)
    (h3 : adjust r.prod t = .ok b) : apply r t = .ok { r with
      reac := a
      prod := b
      tb := some tb } := by
  have : nameTB r t = .ok tb := by
    unfold nameTB
    rw [h0]; exact h1
  unfold apply
  rw [this, h2, h3]
  rfl

/-- Detection with exactly one common species. -/
theorem detect_single {cfg : Cfg} {r : Rxn} {n : Str} {v w : ℝ}
    (h : commons r.reac r.prod = [(n, v, w)]) (hm : ¬ (1 < v ∧ 1 < w)) :
    detect cfg r = single cfg r n := by
  have hmult : mult (n, v, w) = 1 := by
    unfold mult
    rw [if_neg hm]
  have hc : count [(n, v, w)] = 1 := by simp [count, hmult]
  have hM : countM [(n, v, w)] ≤ 1 := by
    unfold countM
    simp only [List.map_cons, List.map_nil, List.sum_cons, List.sum_nil, hmult]
    split_ifs <;> omega
  unfold detect
  simp only [h]
  rw [if_neg (by omega), if_neg (by omega), if_neg (by omega)]
  rfl

theorem single_apply {cfg : Cfg} {r : Rxn} {n : Str}
    (h : n = ['M'] ∨ cfg.three = true ∨ starts n ['(', '+'] = true) :
    single cfg r n = apply r n := by
  unfold single
  rw [if_neg]
  rintro ⟨h1, h2, h3⟩
  rcases h with h | h | h
  · exact h1 h
  · rw [h] at h2; cases h2
  · rw [h] at h3; cases h3

theorem single_whole {cfg : Cfg} {r : Rxn} {n : Str} (h1 : Whole r.reac) (h2 : Whole r.prod)
    (h3 : total r.reac = 3 ∨ total r.prod = 3) : single cfg r n = apply r n := by
  unfold single
  by_cases hc : n ≠ ['M'] ∧ cfg.three = false ∧ starts n ['(', '+'] = false
  · rw [if_pos hc]
    obtain ⟨a, ha, hsa⟩ := sumInt_whole h1 0
    obtain ⟨b, hb, hsb⟩ := sumInt_whole h2 0
    have : ¬ (a ≠ 3 ∧ b ≠ 3) := by
      rintro ⟨q1, q2⟩
      push_cast at hsa hsb
      rcases h3 with h | h
      · apply q1; rw [h] at hsa; norm_num at hsa; exact_mod_cast hsa
      · apply q2; rw [h] at hsb; norm_num at hsb; exact_mod_cast hsb
    rw [ha]
    show (match (some a : Option ℤ) with
      | none => Outcome.ok r
      | some a => (sumInt r.prod 0).bind fun b =>
        match b with
        | none => .ok r
        | some b => if a ≠ 3 ∧ b ≠ 3 then .ok r else apply r n) = _
    simp only
    rw [hb]
    show (if a ≠ 3 ∧ b ≠ 3 then Outcome.ok r else apply r n) = _
    rw [if_neg this]
  · rw [if_neg hc]

theorem single_not_three {cfg : Cfg} {r : Rxn} {n : Str} (h0 : n ≠ ['M']) (hp : starts n ['(', '+'] = false)
    (ht : cfg.three = false) (h1 : Whole r.reac) (h2 : Whole r.prod)
    (h3 : total r.reac ≠ 3) (h4 : total r.prod ≠ 3) : single cfg r n = .ok r := by
  unfold single
  rw [if_pos ⟨h0, ht, hp⟩]
  obtain ⟨a, ha, hsa⟩ := sumInt_whole h1 0
  obtain ⟨b, hb, hsb⟩ := sumInt_whole h2 0
  have : a ≠ 3 ∧ b ≠ 3 := by
    push_cast at hsa hsb
    rw [zero_add] at hsa hsb
    constructor
    · rintro rfl; apply h3; rw [← hsa]; norm_num
    · rintro rfl; apply h4; rw [← hsb]; norm_num
  rw [ha]
  show (match (some a : Option ℤ) with
    | none => Outcome.ok r
    | some a => (sumInt r.prod 0).bind fun b =>
      match b with
      | none => .ok r
      | some b => if a ≠ 3 ∧ b ≠ 3 then .ok r else apply r n) = _
  simp only
  rw [hb]
  show (if a ≠ 3 ∧ b ≠ 3 then Outcome.ok r else apply r n) = _
  rw [if_pos this]

/-- Several common species and nothing that selects one of them. -/
theorem detect_many {cfg : Cfg} {r : Rxn} (h1 : 1 < count (commons r.reac r.prod))
    (h2 : countM (commons r.reac r.prod) = 0) (ht : r.tb = none) (he : cfg.effs = none)
    (hd : cfg.dflt = false) (h3 : cfg.three = false) : detect cfg r = .ok r := by
  unfold detect
  simp only [h2]
  rw [if_neg (by omega), if_neg (by omega), if_pos h1, if_neg (by omega)]
  unfold ambiguous
  rw [ht, he]
  simp [hd, h3]

/-- The generic third body wins. -/
theorem detect_generic {cfg : Cfg} {r : Rxn} {l : List (Str × ℝ × ℝ)} {n : Str}
    (h : commons r.reac r.prod = l ++ [(n, 1, 1)]) (hl : countM l = 0) (hg : generic n = true)
    (hne : l ≠ []) : detect cfg r = apply r ['M'] := by
  have hm : mult (n, 1, 1) = 1 := by
    unfold mult
    rw [if_neg (by norm_num)]
  have h1 : countM (l ++ [(n, 1, 1)]) = 1 := by
    rw [countM_append, hl]
    simp [countM, hg, hm]
  have h2 : 1 < count (l ++ [(n, 1, 1)]) := by
    have := length_le_count (l ++ [(n, (1 : ℝ), (1 : ℝ))])
    have h3 : 0 < l.length := List.length_pos_iff.mpr hne
    simp only [List.length_append, List.length_cons, List.length_nil] at this
    omega
  unfold detect
  simp only [h, h1]
  rw [if_neg (by omega), if_neg (by omega), if_pos h2, if_pos (by omega)]

theorem keys_addTo_other {c : Comp} {m n : Str} (hmn : m ≠ n) :
    m ∈ keys (addTo c n 1) ↔ m ∈ keys c := by
  rw [← not_iff_not, ← get_none_iff, get_addTo_other _ hmn, get_none_iff]

theorem keys_addTo_self (c : Comp) (n : Str) : n ∈ keys (addTo c n 1) := by
  by_contra hc
  rw [← get_none_iff, get_addTo_same] at hc
  cases hc

/-- A named third body together with another species on both sides. -/
theorem twice_third {reac prod : Comp} {n : Str} (h1 : (keys reac).Nodup) (h2 : (keys prod).Nodup)
    (hd : (∃ m, m ≠ n ∧ m ∈ keys reac ∧ m ∈ keys prod) ∨
      ∃ v w, (n, v) ∈ reac ∧ (n, w) ∈ prod ∧ 0 < v ∧ 0 < w) :
    Twice (addTo reac n 1) (addTo prod n 1) := by
  rcases hd with ⟨m, hmn, k1, k2⟩ | ⟨v, w, k1, k2, hv, hw⟩
  · exact Or.inl ⟨m, n, hmn, (keys_addTo_other hmn).mpr k1, (keys_addTo_other hmn).mpr k2,
      keys_addTo_self _ _, keys_addTo_self _ _⟩
  · refine Or.inr ⟨n, v + 1, w + 1, get_some_mem ?_, get_some_mem ?_, by linarith, by linarith⟩
    · rw [get_addTo_same, get_of_mem h1 k1]; rfl
    · rw [get_addTo_same, get_of_mem h2 k2]; rfl

/-- A named third body is not generic. -/
theorem third_not_generic {shw : ℝ → Str} {reac prod : Comp} {n : Str}
    (h : ∀ x ∈ reac, TermOk shw x) (hM : ['M'] ∉ keys reac) (hn : Named n) (hnM : n ≠ ['M']) :
    countM (commons (addTo reac n 1) prod) = 0 := by
  refine countM_zero fun z hz => ?_
  obtain ⟨h1, -⟩ := commons_mem hz
  by_cases hz1 : z.1 = n
  · rw [hz1]; exact named_not_generic hn hnM
  · have hk : z.1 ∈ keys (addTo reac n 1) := List.mem_map.mpr ⟨_, h1, rfl⟩
    rw [keys_addTo_other hz1] at hk
    obtain ⟨x, hx, hxe⟩ := List.mem_map.mp hk
    rw [← hxe]
    refine named_not_generic (h x hx).1 ?_
    intro hc
    exact hM (List.mem_map.mpr ⟨x, hx, hc⟩)

/-- The only efficiency in the input selects the third body. -/
theorem detect_eff {cfg : Cfg} {r : Rxn} {n : Str} {k : ℝ} {tb : TB} {a b : Comp}
    (h1 : 1 < count (commons r.reac r.prod)) (h2 : countM (commons r.reac r.prod) = 0)
    (ht : r.tb = none) (he : cfg.effs = some [(n, k)]) (hn : starts n ['(', '+'] = false)
    (hs : TB.new.setName n = .ok tb) (hname : tb.name = n) (hg : get r.reac n ≠ none)
    (ha : adjust r.reac n = .ok a) (hb : adjust r.prod n = .ok b) :
    ∃ tb', detect cfg r = .ok { r with
        reac := a
        prod := b
        tb := some tb' } ∧ tb'.name = tb.name ∧ tb'.massAction = tb.massAction ∧
      tb'.effs = tb.effs ∧ tb'.dflt = tb.dflt := by
  have hset : ({ tb with explicit := true } : TB).setName n = .ok { tb with explicit := true } := by
    have h2 : starts n ['(', '+', ' '] = false := by
      by_contra hc
      have hc' : starts n ['(', '+', ' '] = true := by simpa using hc
      unfold starts at hn hc'
      rw [List.isPrefixOf_iff_prefix] at hc'
      have : List.isPrefixOf ['(', '+'] n = true := by
        rw [List.isPrefixOf_iff_prefix]
        exact List.IsPrefix.trans ⟨[' '], rfl⟩ hc'
      rw [this] at hn; cases hn
    unfold TB.setName
    simp [hn, h2, hname]
  refine ⟨{ tb with explicit := true }, ?_, rfl, rfl, rfl, rfl⟩
  unfold detect
  simp only [h2]
  rw [if_neg (by omega), if_neg (by omega), if_pos h1, if_neg (by omega)]
  unfold ambiguous
  rw [ht, he]
  simp only
  rw [if_pos hg, hs]
  show apply { r with tb := some { tb with explicit := true } } n = _
  unfold apply nameTB
  simp only
  rw [if_neg (by rintro ⟨h, -⟩; exact h hname), hset]
  show (adjust r.reac n).bind _ = _
  rw [ha]
  show (adjust r.prod n).bind _ = _
  rw [hb]
  rfl

theorem par_not_named {shw : ℝ → Str} {c : Comp} (h : ∀ x ∈ c, TermOk shw x) (n : Str) :
    ['(', '+'] ++ n ++ [')'] ∉ keys c := by
  intro hc
  obtain ⟨x, hx, he⟩ := List.mem_map.mp hc
  have := (h x hx).1.2.2
  rw [he, par_sep] at this
  cases this

/-- **Round trip of the equation**: for every readable reaction whose third body the equation
determines, `setEquation` applied to the printed equation gives the coefficients, the reversibility
and the third body of the reaction. -/
theorem round_trip_partial {shw : ℝ → Str} {cfg : Cfg} {r : Src} (h : WF shw r)
    (hr : Recog cfg r) : Same r (setEquation cfg Rxn.new (equation shw r)) := by
  have hok := h.toOk
  rcases hthird : r.third with _ | ⟨n, _ | _⟩
  · -- no third body
    rw [Recog, hthird] at hr
    obtain ⟨h3, hr⟩ := hr
    have hpr : ∀ e, (parsed r e).reac = r.reac := by
      intro e
      simp only [parsed, hthird, thirdComp, List.append_nil]
      rw [addAll_fresh (by simpa using h.reac_nodup)]; rfl
    have hpp : ∀ e, (parsed r e).prod = r.prod := by
      intro e
      simp only [parsed, hthird, thirdComp, List.append_nil]
      rw [addAll_fresh (by simpa using h.prod_nodup)]; rfl
    have hdone : ∀ e, Same r (.ok (parsed r e)) := fun e =>
      ⟨_, rfl, hpr e, hpp e, rfl, by rw [hthird]; rfl, by rintro t ⟨⟩⟩
    by_cases hf : cfg.fixed = true
    · unfold setEquation
      rw [parse_print hok]
      simp only
      rw [if_neg (by simp [h3])]
      by_cases he : cfg.rateType = "elementary".toList
      · rw [if_pos he]; exact hdone true
      · rw [if_neg he, if_pos hf]; exact hdone false
    · obtain ⟨e, he⟩ := setEquation_detect hok (cfg := cfg) (Or.inr (by simpa using hf))
      rw [he]
      have hnil : commons r.reac r.prod = [] → Same r (detect cfg (parsed r e)) := by
        intro hd
        have : detect cfg (parsed r e) =
            .ok (parsed r e) := by
          unfold detect
          simp only [hpr, hpp, hd]
          rw [if_pos (by simp [count]), if_neg (by simp [h3])]
        rw [this]; exact hdone e
      rcases hr with hr | hr | ⟨heff, hdf, hr⟩
      · exact absurd hr hf
      · exact hnil (commons_nil hr)
      · have hM : countM (commons r.reac r.prod) = 0 := commons_not_generic h.reac_ok h.reac_M
        have hmany : 1 < count (commons r.reac r.prod) →
            Same r (detect cfg (parsed r e)) := by
          intro hc
          rw [detect_many (by rw [hpr, hpp]; exact hc) (by rw [hpr, hpp]; exact hM) rfl heff hdf h3]
          exact hdone e
        rcases hr with hr | ⟨w1, w2, t1, t2⟩
        · exact hmany (twice_count h.prod_nodup hr)
        · rcases hl : commons r.reac r.prod with _ | ⟨⟨n, v, w⟩, _ | ⟨y, l⟩⟩
          · exact hnil hl
          · by_cases hvw : 1 < v ∧ 1 < w
            · refine hmany ?_
              rw [hl]
              simp [count, mult, hvw.1, hvw.2]
            · rw [detect_single (by simp only [hpr, hpp]; exact hl) hvw]
              have hmem : (n, v, w) ∈ commons r.reac r.prod := by rw [hl]; simp
              have hn := (commons_mem hmem).1
              rw [single_not_three]
              · exact hdone e
              · rintro rfl
                exact h.reac_M (List.mem_map.mpr ⟨_, hn, rfl⟩)
              · exact named_not_par (h.reac_ok _ hn).1
              · exact h3
              · rw [hpr]; exact w1
              · rw [hpp]; exact w2
              · rw [hpr]; exact t1
              · rw [hpp]; exact t2
          · refine hmany (lt_of_lt_of_le ?_ (length_le_count _))
            rw [hl]; simp
  · -- `(+X)`
    rw [Recog, hthird] at hr
    obtain ⟨hc, hd⟩ := hr
    have hto := h.third_ok
    rw [hthird] at hto
    obtain ⟨hne, hns⟩ : n ≠ [] ∧ NoSp n := hto
    set f := ['(', '+'] ++ n ++ [')'] with hfdef
    have hfr : f ∉ keys r.reac := par_not_named h.reac_ok n
    have hfp : f ∉ keys r.prod := par_not_named h.prod_ok n
    have hpr : ∀ e, (parsed r e).reac = addTo r.reac f 1 := by
      intro e
      simp only [parsed, hthird, thirdComp]
      rw [addAll_third h.reac_nodup]
    have hpp : ∀ e, (parsed r e).prod = addTo r.prod f 1 := by
      intro e
      simp only [parsed, hthird, thirdComp]
      rw [addAll_third h.prod_nodup]
    obtain ⟨e, he⟩ := setEquation_detect hok hc
    have hcom : commons (parsed r e).reac (parsed r e).prod = [(f, 1, 1)] := by
      rw [hpr, hpp, addTo_new hfr, addTo_new hfp, commons_new hfr hfp, commons_nil hd]; rfl
    obtain ⟨tb, htb, hname, hma, hpl⟩ := setName_new_par hne hns
    rw [he, detect_single (n := f) (v := 1) (w := 1) hcom (by norm_num),
      single_apply (Or.inr (Or.inr (by simp [hfdef, starts, List.isPrefixOf]))),
      apply_ok (tb := tb) (a := r.reac) (b := r.prod) rfl htb]
    · refine ⟨_, rfl, rfl, rfl, rfl, ?_, ?_⟩
      · rw [hthird]
        simp [hname, hma]
      · rintro t ⟨⟩; exact hpl
    · show adjust (parsed r e).reac f = _
      rw [hpr]; exact adjust_new hfr
    · show adjust (parsed r e).prod f = _
      rw [hpp]; exact adjust_new hfp
  · -- `+ X`
    rw [Recog, hthird] at hr
    obtain ⟨hc, hr⟩ := hr
    have hnamed : Named n := by
      have := h.third_ok
      rw [hthird] at this
      exact this
    have hpr : ∀ e, (parsed r e).reac = addTo r.reac n 1 := by
      intro e
      simp only [parsed, hthird, thirdComp]
      rw [addAll_third h.reac_nodup]
    have hpp : ∀ e, (parsed r e).prod = addTo r.prod n 1 := by
      intro e
      simp only [parsed, hthird, thirdComp]
      rw [addAll_third h.prod_nodup]
    obtain ⟨e, he⟩ := setEquation_detect hok hc
    obtain ⟨tb, htb, hname, hma, hpl⟩ := setName_new (named_not_par hnamed)
    have hfin : adjust (addTo r.reac n 1) n = .ok r.reac → adjust (addTo r.prod n 1) n = .ok r.prod →
        Same r (apply (parsed r e) n) := by
      intro ha hb
      rw [apply_ok (tb := tb) (a := r.reac) (b := r.prod) rfl htb]
      · refine ⟨_, rfl, rfl, rfl, rfl, ?_, ?_⟩
        · rw [hthird]
          simp [hname, hma]
        · rintro t ⟨⟩; exact hpl
      · show adjust (parsed r e).reac n = _
        rw [hpr]; exact ha
      · show adjust (parsed r e).prod n = _
        rw [hpp]; exact hb
    rw [he]
    have hcase : n = ['M'] → Same r (detect cfg (parsed r e)) := by
      rintro rfl
      have hcom : commons (parsed r e).reac (parsed r e).prod =
          commons r.reac r.prod ++ [(['M'], 1, 1)] := by
        rw [hpr, hpp, addTo_new h.reac_M, addTo_new h.prod_M, commons_new h.reac_M h.prod_M]
      have hA := hfin (adjust_new h.reac_M) (adjust_new h.prod_M)
      rcases hl : commons r.reac r.prod with _ | ⟨x, l⟩
      · rw [hl] at hcom
        rw [detect_single (n := ['M']) (v := 1) (w := 1) hcom (by norm_num),
          single_apply (Or.inl rfl)]
        exact hA
      · rw [detect_generic hcom (commons_not_generic h.reac_ok h.reac_M) (by decide)
          (by rw [hl]; simp)]
        exact hA
    by_cases hnM : n = ['M']
    · exact hcase hnM
    rcases hr with hr | ⟨hd, hx, w1, w2, ht⟩ | ⟨w1, w2, ⟨k, hk⟩, hd⟩
    · exact hcase hr
    · have hg1 : get (addTo r.reac n 1) n = some ((get r.reac n).getD 0 + 1) := get_addTo_same _ _ _
      have hg2 : get (addTo r.prod n 1) n = some ((get r.prod n).getD 0 + 1) := get_addTo_same _ _ _
      have hcom : commons (parsed r e).reac (parsed r e).prod =
          [(n, (get r.reac n).getD 0 + 1, (get r.prod n).getD 0 + 1)] := by
        rw [hpr, hpp]
        refine commons_single hg2 (keys_addTo_nodup h.reac_nodup _ _) hg1 ?_
        intro m hm hmn
        rw [← get_none_iff, get_addTo_other _ hmn, get_none_iff]
        refine hd m ?_
        by_contra hmr
        rw [← get_none_iff, ← get_addTo_other _ hmn 1, get_none_iff] at hmr
        exact hmr hm
      rw [detect_single hcom]
      · have hA := hfin (adjust_whole w1 n) (adjust_whole w2 n)
        rcases ht with ht | ht
        · rw [single_apply (Or.inr (Or.inl ht))]; exact hA
        · rw [single_whole]
          · exact hA
          · show Whole (parsed r e).reac
            rw [hpr]; exact whole_addTo w1 n
          · show Whole (parsed r e).prod
            rw [hpp]; exact whole_addTo w2 n
          · show total (parsed r e).reac = 3 ∨ total (parsed r e).prod = 3
            rw [hpr, hpp, total_addTo, total_addTo]
            rcases ht with ht | ht
            · left; rw [ht]; norm_num
            · right; rw [ht]; norm_num
      · rintro ⟨q1, q2⟩
        rcases hx with hx | hx
        · rw [(get_none_iff _ _).mpr hx] at q1
          norm_num at q1
        · rw [(get_none_iff _ _).mpr hx] at q2
          norm_num at q2
    · have hpos : ∀ {c : Comp}, Whole c → n ∈ keys c → ∃ v, (n, v) ∈ c ∧ 0 < v := by
        intro c hw hc
        obtain ⟨⟨m, v⟩, hm, he⟩ := List.mem_map.mp hc
        simp only at he
        subst he
        obtain ⟨j, hj, hv⟩ := hw _ hm
        simp only at hv
        exact ⟨v, hm, by rw [hv]; exact_mod_cast hj⟩
      have htw : Twice (addTo r.reac n 1) (addTo r.prod n 1) := by
        refine twice_third h.reac_nodup h.prod_nodup ?_
        rcases hd with hd | ⟨d1, d2⟩
        · exact Or.inl hd
        · obtain ⟨v, hv, hv0⟩ := hpos w1 d1
          obtain ⟨w, hw, hw0⟩ := hpos w2 d2
          exact Or.inr ⟨v, w, hv, hw, hv0, hw0⟩
      obtain ⟨tb', hdet, t1, t2, t3, t4⟩ := detect_eff (cfg := cfg) (r := parsed r e) (n := n)
        (a := r.reac) (b := r.prod)
        (by rw [hpr, hpp]; exact twice_count (keys_addTo_nodup h.prod_nodup _ _) htw)
        (by rw [hpr]; exact third_not_generic h.reac_ok h.reac_M hnamed hnM) rfl hk
        (named_not_par hnamed) htb hname
        (by rw [hpr, get_addTo_same]; simp) (by rw [hpr]; exact adjust_whole w1 n)
        (by rw [hpp]; exact adjust_whole w2 n)
      rw [hdet]
      refine ⟨_, rfl, rfl, rfl, rfl, ?_, ?_⟩
      · rw [hthird]
        simp [t1, t2, hname, hma]
      · rintro t ⟨⟩
        unfold Plain
        rw [t1, t3, t4]; exact hpl

end Verif.Equation
