import Verif.Kinetics.ImplicitSurf
import Mathlib.Algebra.BigOperators.Field

/-!
# C99: theorems on eval, the layout of the phases and the pseudo steady state problem
-/

namespace Verif.ISurf

open Verif Finset

theorem put_self (a : ℕ → ℝ) (i : ℕ) (v : ℝ) : put a i v i = v := by simp [put]
theorem put_ne {a : ℕ → ℝ} {i j : ℕ} {v : ℝ} (h : j ≠ i) : put a i v j = a j := by simp [put, h]

variable {f : Surf} {w : ℕ → ℝ}

theorem evalLoop_fst (loc : ℕ) (yd : ℕ → ℝ) (m j : ℕ) : (evalLoop f w loc yd m).1 j =
    if loc < j ∧ j ≤ loc + m then w (j - loc) * (1 / f.n0) * f.size (j - loc) else yd j := by
  induction m with
  | zero => rw [if_neg (by omega)]; rfl
  | succ m ih =>
    simp only [evalLoop, evalStep]
    rcases eq_or_ne j (m + 1 + loc) with h | h
    · subst h
      rw [put_self, if_pos (by omega), show m + 1 + loc - loc = m + 1 by omega]
    · rw [put_ne h, ih]
      by_cases h2 : loc < j ∧ j ≤ loc + m
      · rw [if_pos h2, if_pos (by omega)]
      · rw [if_neg h2, if_neg (by omega)]

theorem evalLoop_snd (loc : ℕ) (yd : ℕ → ℝ) (m : ℕ) : (evalLoop f w loc yd m).2 =
    -∑ k ∈ Ico 1 (m + 1), if loc < k then w (k - loc) * (1 / f.n0) * f.size (k - loc) else yd k := by
  induction m with
  | zero => simp [evalLoop]
  | succ m ih =>
    rw [sum_Ico_succ_top (by omega)]
    have h := evalLoop_fst (f := f) (w := w) loc yd (m + 1) (m + 1)
    simp only [evalLoop, evalStep] at h ⊢
    rw [h, ih]
    by_cases h2 : loc < m + 1
    · rw [if_pos ⟨h2, by omega⟩, if_pos h2]; ring
    · rw [if_neg (fun q => h2 q.1), if_neg h2]; ring

/-- What the body of the loop over surfaces writes: the rates of all species but the first are right; the
first entry subtracts `ydot[k]` with `k` counted from the start of the whole vector, so only for `loc = 0`
(the first surface) these are the entries just written. -/
theorem evalSurf_get (loc : ℕ) (yd : ℕ → ℝ) (j : ℕ) : evalSurf f w loc yd j =
    if j = loc then -∑ k ∈ Ico 1 f.nsp, (if loc < k then w (k - loc) * (1 / f.n0) * f.size (k - loc) else yd k)
    else if loc < j ∧ j < loc + f.nsp then w (j - loc) * (1 / f.n0) * f.size (j - loc) else yd j := by
  unfold evalSurf
  rcases eq_or_ne j loc with h | h
  · rw [h, put_self, if_pos rfl, evalLoop_snd]
    rcases Nat.eq_zero_or_pos f.nsp with h0 | h0
    · rw [h0]; rfl
    · rw [Nat.sub_add_cancel h0]
  · rw [put_ne h, if_neg h, evalLoop_fst]
    by_cases h2 : loc < j ∧ j < loc + f.nsp
    · rw [if_pos h2, if_pos (by omega)]
    · rw [if_neg h2, if_neg (by omega)]

/-- Number of variables of a list of surfaces. -/
def total (l : List (Surf × (ℕ → ℝ))) : ℕ := (l.map fun q => q.1.nsp).sum

theorem total_cons (q : Surf × (ℕ → ℝ)) (l) : total (q :: l) = q.1.nsp + total l := by simp [total]

theorem eval_below : ∀ (l : List (Surf × (ℕ → ℝ))) (loc : ℕ) (yd : ℕ → ℝ) {j : ℕ}, j < loc →
    eval l loc yd j = yd j := by
  intro l
  induction l with
  | nil => intros; rfl
  | cons q l ih =>
    intro loc yd j h
    rw [eval, ih _ _ (by omega), evalSurf_get, if_neg (by omega), if_neg (by omega)]

theorem eval_above : ∀ (l : List (Surf × (ℕ → ℝ))) (loc : ℕ) (yd : ℕ → ℝ) {j : ℕ},
    (∀ q ∈ l, 0 < q.1.nsp) → loc + total l ≤ j → eval l loc yd j = yd j := by
  intro l
  induction l with
  | nil => intros; rfl
  | cons q l ih =>
    intro loc yd j hp h
    rw [total_cons] at h
    have h1 := hp q (by simp)
    rw [eval, ih _ _ (fun q hq => hp q (by simp [hq])) (by omega), evalSurf_get, if_neg (by omega),
      if_neg (by omega)]

theorem eval_append : ∀ (a b : List (Surf × (ℕ → ℝ))) (loc : ℕ) (yd : ℕ → ℝ),
    eval (a ++ b) loc yd = eval b (loc + total a) (eval a loc yd) := by
  intro a
  induction a with
  | nil => intros; simp [eval, total]
  | cons q a ih => intro b loc yd; simp only [List.cons_append, eval, ih, total_cons, Nat.add_assoc]

/-- Every entry but the first of every surface is its rate times size over site density. -/
theorem eval_species (a b : List (Surf × (ℕ → ℝ))) (yd : ℕ → ℝ) {k : ℕ} (h1 : 1 ≤ k) (h2 : k < f.nsp) :
    eval (a ++ (f, w) :: b) 0 yd (total a + k) = w k * f.size k / f.n0 := by
  rw [eval_append, eval, eval_below _ _ _ (by omega), evalSurf_get, if_neg (by omega), if_pos (by omega),
    show total a + k - (0 + total a) = k by omega]
  ring

/-- On the first surface the derivatives sum to zero, so its coverages keep their sum. -/
theorem eval_conserves (b : List (Surf × (ℕ → ℝ))) (yd : ℕ → ℝ) (h : 0 < f.nsp) :
    ∑ k ∈ range f.nsp, eval ((f, w) :: b) 0 yd k = 0 := by
  have e : ∀ j, j < f.nsp → eval ((f, w) :: b) 0 yd j = evalSurf f w 0 yd j := by
    intro j hj
    rw [eval, eval_below _ _ _ (by omega)]
  rw [sum_congr rfl (fun j hj => e j (mem_range.1 hj)), range_eq_Ico, sum_eq_sum_Ico_succ_bot h,
    evalSurf_get, if_pos rfl]
  rw [neg_add_eq_zero]
  apply sum_congr rfl
  intro k hk
  rw [mem_Ico] at hk
  rw [if_pos (show 0 < k by omega), evalSurf_get, if_neg (by omega), if_pos (by omega)]

/-- The first entry of the first surface. -/
theorem eval_first (b : List (Surf × (ℕ → ℝ))) (yd : ℕ → ℝ) :
    0 < f.nsp → eval ((f, w) :: b) 0 yd 0 = -∑ k ∈ Ico 1 f.nsp, w k * f.size k / f.n0 := by
  intro h
  rw [eval, eval_below _ _ _ (by omega), evalSurf_get, if_pos rfl]
  congr 1
  apply sum_congr rfl
  intro k hk
  rw [mem_Ico] at hk
  rw [if_pos (by omega), Nat.sub_zero]
  ring

/-- It is the rate of the first species if the reactions conserve sites. -/
theorem eval_first_rate (b : List (Surf × (ℕ → ℝ))) (yd : ℕ → ℝ) (h : 0 < f.nsp)
    (hc : ∑ k ∈ range f.nsp, w k * f.size k = 0) :
    eval ((f, w) :: b) 0 yd 0 = w 0 * f.size 0 / f.n0 := by
  rw [eval_first _ _ h, ← Finset.sum_div]
  rw [range_eq_Ico, sum_eq_sum_Ico_succ_bot h] at hc
  rw [show ∑ k ∈ Ico 1 f.nsp, w k * f.size k = -(w 0 * f.size 0) by linarith]
  ring

/-- On a later surface with no more species than there are entries before it the first entry is minus
the sum of the first entries of the whole vector: it does not depend on the rates of this surface. -/
theorem eval_later (a b : List (Surf × (ℕ → ℝ))) (yd : ℕ → ℝ) (hp : 0 < f.nsp)
    (h : f.nsp ≤ total a) : eval (a ++ (f, w) :: b) 0 yd (total a) =
      -∑ k ∈ Ico 1 f.nsp, eval (a ++ (f, w) :: b) 0 yd k := by
  have e : ∀ k, k < total a → eval (a ++ (f, w) :: b) 0 yd k = eval a 0 yd k := by
    intro k hk
    rw [eval_append, eval_below _ _ _ (by omega)]
  have e2 : eval (a ++ (f, w) :: b) 0 yd (total a) = evalSurf f w (0 + total a) (eval a 0 yd) (total a) := by
    rw [eval_append, eval, eval_below _ _ _ (by omega)]
  rw [e2, evalSurf_get, if_pos (by omega)]
  congr 1
  apply sum_congr rfl
  intro k hk
  rw [mem_Ico] at hk
  rw [if_neg (by omega), e k (by omega)]

/-- Two surfaces: the sites of the second are not conserved. -/
theorem second_surface_wrong : ∃ (l : List (Surf × (ℕ → ℝ))), l.length = 2 ∧ (∀ q ∈ l, q.1.nsp = 2 ∧
    ∑ k ∈ range 2, q.2 k * q.1.size k = 0) ∧ ∀ yd, eval l 0 yd 2 + eval l 0 yd 3 ≠ 0 := by
  refine ⟨[({ nsp := 2, n0 := 1, size := fun _ => 1 }, fun k => if k = 0 then -1 else 1),
    ({ nsp := 2, n0 := 1, size := fun _ => 1 }, fun _ => 0)], rfl, by simp [sum_range_succ], ?_⟩
  intro yd
  simp only [eval, evalSurf_get]
  norm_num

/-- A surface of one species before a surface of two: the derivative of the second surface reads an entry
of `ydot` that the call has not yet written. -/
theorem stale_entry {g : Surf} {v : ℕ → ℝ} (hf : f.nsp = 1) (hg : g.nsp = 2) (yd : ℕ → ℝ) :
    eval [(f, w), (g, v)] 0 yd 1 = -yd 1 := by
  simp only [eval, evalSurf_get, hf, hg]
  norm_num

example : eval [({ nsp := 3, n0 := 2, size := fun _ => 1 }, fun k => (k : ℝ) - 1)] 0 (fun _ => 7) 0 = -(1 / 2) := by
  rw [eval_first _ _ (by norm_num)]
  norm_num [sum_Ico_succ_top]

/-! ## Layout -/

/-- The variables of the surfaces follow each other without gap. -/
theorem start_spec (l : List ℕ) (n : ℕ) (h : n < l.length) : start l n + l[n] = start l (n + 1) := by
  induction l generalizing n with
  | nil => simp at h
  | cons a l ih =>
    cases n with
    | zero => simp [start]
    | succ n =>
      have := ih n (by simpa using h)
      simp only [start, List.getElem_cons_succ]
      rw [Nat.add_assoc, this]

theorem start_zero (l : List ℕ) : start l 0 = 0 := by cases l <;> rfl

theorem start_length (l : List ℕ) : start l l.length = l.sum := by
  induction l with
  | nil => rfl
  | cons a l ih => simp [start, ih]

example : start [2, 3, 4] 2 = 5 := rfl

theorem prefix_get {a b : List ℕ} (h : a <+: b) {i x : ℕ} (g : a[i]? = some x) : b[i]? = some x := by
  obtain ⟨t, rfl⟩ := h
  rw [List.getElem?_append_left (List.getElem?_eq_some_iff.1 g).1, g]

theorem addBulk_spec : ∀ (ps b : List ℕ), b.Nodup → (addBulk ps b).1.Nodup ∧
    (∀ p, p ∈ (addBulk ps b).1 ↔ p ∈ b ∨ p ∈ ps) ∧ b <+: (addBulk ps b).1 ∧
    (addBulk ps b).2.length = ps.length ∧
    ∀ i (h : i < ps.length) (h' : i < (addBulk ps b).2.length),
      (addBulk ps b).1[(addBulk ps b).2[i]]? = some ps[i] := by
  intro ps
  induction ps with
  | nil => intro b hb; simp [addBulk, hb]
  | cons p ps ih =>
    intro b hb
    have hb' : (if p ∈ b then b else b ++ [p]).Nodup := by
      split_ifs with h
      · exact hb
      · exact List.nodup_append.2 ⟨hb, by simp, fun a ha c hc => by
          simp only [List.mem_singleton] at hc
          rintro rfl
          exact h (hc ▸ ha)⟩
    have hpb : p ∈ (if p ∈ b then b else b ++ [p]) := by
      split_ifs with h
      · exact h
      · simp
    obtain ⟨g1, g2, g3, g4, g5⟩ := ih _ hb'
    simp only [addBulk]
    refine ⟨g1, fun q => ?_, ?_, by simp [g4], ?_⟩
    · rw [g2 q]
      by_cases h : p ∈ b
      · rw [if_pos h, List.mem_cons]
        constructor
        · rintro (q1 | q1)
          · exact .inl q1
          · exact .inr (.inr q1)
        · rintro (q1 | q1 | q1)
          · exact .inl q1
          · exact .inl (q1 ▸ h)
          · exact .inr q1
      · rw [if_neg h, List.mem_append, List.mem_singleton, List.mem_cons, or_assoc]
    · refine List.IsPrefix.trans ?_ g3
      split_ifs with h
      · exact List.prefix_rfl
      · exact List.prefix_append _ _
    · intro i h h'
      cases i with
      | zero =>
        simp only [List.getElem_cons_zero]
        have hl := List.idxOf_lt_length_of_mem hpb
        have e1 : (if p ∈ b then b else b ++ [p])[List.idxOf p (if p ∈ b then b else b ++ [p])]? = some p := by
          rw [List.getElem?_eq_getElem hl, List.getElem_idxOf]
        exact prefix_get g3 e1
      | succ i =>
        simp only [List.getElem_cons_succ]
        exact g5 i (by simpa using h) (by simpa using h')

theorem collect_prefix : ∀ (ks : List (List ℕ)) (n : ℕ) (b : List ℕ), b.Nodup →
    b <+: (collect ks n b).1 ∧ (collect ks n b).1.Nodup := by
  intro ks
  induction ks with
  | nil => intro n b hb; exact ⟨List.prefix_rfl, hb⟩
  | cons ps ks ih =>
    intro n b hb
    obtain ⟨g1, g2, g3, g4, g5⟩ := addBulk_spec ps b hb
    obtain ⟨q1, q2⟩ := ih (n + 1) _ g1
    exact ⟨g3.trans q1, q2⟩

/-- The bulk phases are collected once each; they are exactly the phases after the first of all kinetics
objects, and pLocVec points to them. -/
theorem collect_spec : ∀ (ks : List (List ℕ)) (n : ℕ) (b : List ℕ), b.Nodup →
    (∀ p, p ∈ (collect ks n b).1 ↔ p ∈ b ∨ ∃ ps ∈ ks, p ∈ ps) ∧
    (collect ks n b).2.length = ks.length ∧
    ∀ i (h : i < ks.length) (h' : i < (collect ks n b).2.length), ∃ row : List ℕ,
      (collect ks n b).2[i] = (-((n + i : ℕ) : ℤ)) :: row.map (fun (i : ℕ) => (i : ℤ)) ∧
      row.map (fun j => (collect ks n b).1[j]?) = ks[i].map some := by
  intro ks
  induction ks with
  | nil => intro n b hb; simp [collect]
  | cons ps ks ih =>
    intro n b hb
    obtain ⟨g1, g2, g3, g4, g5⟩ := addBulk_spec ps b hb
    obtain ⟨q1, q2⟩ := collect_prefix ks (n + 1) _ g1
    obtain ⟨r1, r2, r3⟩ := ih (n + 1) _ g1
    refine ⟨fun p => ?_, ?_, ?_⟩
    · simp only [collect]
      rw [r1 p, g2 p]
      simp [or_assoc]
    · simp [collect, r2]
    · intro i h h'
      cases i with
      | zero =>
        refine ⟨(addBulk ps b).2, by simp [collect], ?_⟩
        simp only [collect, List.getElem_cons_zero]
        apply List.ext_getElem
        · simp [g4]
        · intro i h1 h2
          simp only [List.length_map] at h1 h2
          simp only [List.getElem_map]
          exact prefix_get q1 (g5 i h2 h1)
      | succ i =>
        obtain ⟨row, s1, s2⟩ := r3 i (by simpa using h) (by simpa [collect] using h')
        refine ⟨row, ?_, ?_⟩
        · simp only [collect, List.getElem_cons_succ]
          rw [s1]
          congr 2
          push_cast
          ring
        · simpa [collect] using s2

example : collect [[5, 6], [6, 7]] 0 [] = ([5, 6, 7], [[0, 0, 1], [-1, 1, 2]]) := by decide

/-- The number of the first surface and of the first bulk phase are the same. -/
theorem pLoc_ambiguous (p : ℕ) (ps : List ℕ) (r : List (List ℕ)) :
    ∃ row, (collect ((p :: ps) :: r) 0 []).2.head? = some (0 :: 0 :: row) := by
  simp [collect, addBulk]

/-- integrate: the largest step is the interval if that is smaller than the limit or there is no limit,
the limit otherwise; a negative limit leaves whatever was set before. -/
theorem integrateLimit_spec (ms t0 t1 cur : ℝ) :
    (ms = 0 → integrateLimit ms t0 t1 cur = t1 - t0) ∧
    (0 < ms → integrateLimit ms t0 t1 cur = if |t1 - t0| < ms then t1 - t0 else ms) ∧
    (0 < ms → t0 ≤ t1 → integrateLimit ms t0 t1 cur = min (t1 - t0) ms) ∧
    (ms < 0 → integrateLimit ms t0 t1 cur = cur) := by
  unfold integrateLimit
  refine ⟨fun h => by simp [h], fun h => by simp [h, h.ne'], fun h h2 => ?_, fun h => ?_⟩
  · simp only [h, if_true, h.ne', or_false]
    rw [abs_of_nonneg (by linarith)]
    split_ifs with h3
    · rw [min_eq_left h3.le]
    · rw [min_eq_right (not_lt.1 h3)]
  · have h3 : ¬|t1 - t0| < ms := by
      have := abs_nonneg (t1 - t0)
      linarith
    simp [h3, h.ne, not_lt.2 h.le]

/-! ## Pseudo steady state -/

variable {new common : Bool} {ov : ℤ} {solve : ℤ → ℝ → ℝ → Sys → Sys × ℤ}

theorem ifunc_spec (new : Bool) (ov : ℤ) : (0 ≤ ov → ifunc new ov = ov) ∧
    (ov < 0 → ifunc true ov = 1 ∧ ifunc false ov = 2) := by
  unfold ifunc
  exact ⟨fun h => by simp [h], fun h => by simp [not_le.2 h]⟩

theorem setCommon_surf (T P : ℝ) (s : Sys) : (setCommon T P s).surf = [] ↔ s.surf = [] := by
  simp [setCommon]

/-- A negative concentration on a surface makes the call throw before anything is solved: the filter that
should replace it by zero calls a setter surfaces do not have. -/
theorem negative_refused {s : Sys} {f : SurfSt} {r : List SurfSt} (h : s.surf = f :: r)
    (hn : ∃ g ∈ s.surf, ∃ x ∈ g.c, x < 0) :
    pss new ov common solve s = (if common then setCommon f.T f.P s else s, .throw) := by
  have h1 : (if common then setCommon f.T f.P s else s).surf ≠ [] := by
    split_ifs <;> simp [setCommon, h]
  rw [h] at hn
  unfold pss
  simp only [h, if_pos hn, setConc, if_pos h1, if_true]

/-- Otherwise the outcome is that of the first attempt alone: the second attempt is never made. -/
theorem pss_spec {s : Sys} {f : SurfSt} {r : List SurfSt} (h : s.surf = f :: r)
    (hn : ∀ g ∈ s.surf, ∀ x ∈ g.c, 0 ≤ x) (hs : ∀ a t p u, (solve a t p u).1.surf = [] → u.surf = []) :
    pss new ov common solve s =
      ((solve (if 0 ≤ ov then ov else if new then 1 else 2) f.T f.P
        (if common then setCommon f.T f.P s else s)).1,
      if (solve (if 0 ≤ ov then ov else if new then 1 else 2) f.T f.P
        (if common then setCommon f.T f.P s else s)).2 = 1 then .ok () else .throw) := by
  have h1 : (if common then setCommon f.T f.P s else s).surf ≠ [] := by
    split_ifs <;> simp [setCommon, h]
  have hn' : ¬∃ g ∈ s.surf, ∃ x ∈ g.c, x < 0 := by
    rintro ⟨g, g1, x, g2, g3⟩
    exact absurd (hn g g1 x g2) (not_le.2 g3)
  rw [h] at hn'
  unfold pss
  simp only [h, if_neg hn', ifunc, Bool.false_eq_true, if_false]
  generalize hu : (if common then setCommon f.T f.P s else s) = u at *
  generalize hg : (if 0 ≤ ov then ov else if new then 1 else 2) = a at *
  have h2 : (solve a f.T f.P u).1.surf ≠ [] := fun q => h1 (hs _ _ _ _ q)
  by_cases q : (solve a f.T f.P u).2 = 1
  · simp only [q, if_true]
  · simp only [q, if_false, setConc, if_pos h2, if_true]

/-- Without a kinetics object the first element of an empty vector is read. -/
theorem pss_empty {s : Sys} (h : s.surf = []) : pss new ov common solve s = (s, .ub) := by
  unfold pss
  rw [h]

/-- setState_TP gives the gas the temperature and pressure. -/
theorem setTP_P {T P : ℝ} {g : GasSt} (hT : T ≠ 0) (hc : g.c.sum ≠ 0) :
    (g.setTP T P).P = P ∧ (g.setTP T P).T = T := by
  refine ⟨?_, rfl⟩
  have hR : Rg ≠ 0 := by norm_num [Rg]
  have e : ∀ (l : List ℝ) (a : ℝ), (l.map (· * a)).sum = l.sum * a := by
    intro l a
    induction l with
    | nil => simp
    | cons x l ih => rw [List.map_cons, List.sum_cons, ih, List.sum_cons]; ring
  simp only [GasSt.P, GasSt.setTP, e]
  field_simp

/-- The pressure of the gas phases is replaced by the pressure stored with the first surface, whatever the
gas pressure was. -/
theorem gas_pressure_replaced {s s' : Sys} {f : SurfSt} {r : List SurfSt} (h : s.surf = f :: r)
    (hn : ∀ g ∈ s.surf, ∀ x ∈ g.c, 0 ≤ x) (hs : ∀ a t p u, (solve a t p u).1.surf = [] → u.surf = [])
    (hg : ∀ a t p u, (solve a t p u).1.gas = u.gas) (hT : f.T ≠ 0) (hc : ∀ g ∈ s.gas, g.c.sum ≠ 0)
    (hp : pss new ov true solve s = (s', .ok ())) : ∀ g ∈ s'.gas, g.P = f.P ∧ g.T = f.T := by
  rw [pss_spec h hn hs, Prod.mk.injEq] at hp
  rw [← hp.1, hg]
  intro g hgm
  simp only [if_true, setCommon, List.mem_map] at hgm
  obtain ⟨g0, g1, rfl⟩ := hgm
  exact setTP_P hT (hc g0 g1)

/-- A gas at twice the pressure of the surface. -/
example : ∃ (s s' : Sys) (g g' : GasSt), s.gas = [g] ∧ s'.gas = [g'] ∧ g.P = 200000 ∧ g'.P = 100000 ∧
    pss true (-1) true (fun _ _ _ u => (u, 1)) s = (s', .ok ()) := by
  have hR : Rg ≠ 0 := by norm_num [Rg]
  refine ⟨{ surf := [{ T := 300, P := 100000, c := [1] }], gas := [{ T := 300, c := [200000 / (300 * Rg)] }] },
    setCommon 300 100000
      { surf := [{ T := 300, P := 100000, c := [1] }], gas := [{ T := 300, c := [200000 / (300 * Rg)] }] },
    _, _, rfl, rfl, ?_, ?_, ?_⟩
  · simp only [GasSt.P, List.sum_singleton]
    field_simp
  · exact (setTP_P (by norm_num) (by simp [hR])).1
  · rw [pss_spec rfl (by simp) (fun _ _ _ _ h => h)]
    simp

end Verif.ISurf
