import Verif.Thermo.CovSurf
import Mathlib.Analysis.SpecialFunctions.Log.Deriv
import Mathlib.Analysis.Calculus.Deriv.Mul
import Mathlib.Analysis.Calculus.Deriv.Add
import Mathlib.Data.List.Pairwise
import Mathlib.Tactic.Linarith
import Mathlib.Tactic.NormNum
import Mathlib.Tactic.FieldSimp
import Mathlib.Tactic.Ring
import Mathlib.Tactic.Positivity

/-!
# C73: theorems on the surface phase with coverage-dependent properties
-/

namespace Verif.Thermo.CovSurf

open Finset

/-! ## Interpolation -/

/-- Ordered keys. -/
def Sorted (m : Map) : Prop := m.Pairwise fun p q => p.1 < q.1

theorem bracket_skip (x : ℝ) (a b : ℝ × ℝ) (r : Map) (ha : a.1 ≤ x) (hb : x < b.1) :
    ∀ (l : Map) (lo : Option (ℝ × ℝ)), (∀ p ∈ l, p.1 ≤ x) → bracket x lo (l ++ a :: b :: r) = some (a, b)
  | [], lo, _ => by simp [bracket, not_lt.2 ha, hb]
  | p :: l, lo, h => by
    rw [List.cons_append, bracket, if_neg (not_lt.2 (h p (by simp)))]
    exact bracket_skip x a b r ha hb l _ fun q hq => h q (by simp [hq])

/-- Between two neighbouring entries the value is interpolated linearly. -/
theorem interp_between {l r : Map} {a b : ℝ × ℝ} {x : ℝ} (hs : Sorted (l ++ a :: b :: r)) (ha : a.1 ≤ x) (hb : x < b.1) :
    interp (l ++ a :: b :: r) x = some (a.2 + (b.2 - a.2) * ((x - a.1) / (b.1 - a.1))) := by
  rw [interp, bracket_skip x a b r ha hb l none ?_]
  · simp only [Option.map_some, Option.some.injEq]; ring
  · intro p hp
    have := (List.pairwise_append.1 hs).2.2 p hp a (by simp)
    linarith

/-- At an entry that is not the last one the value is the given one. -/
theorem interp_node {m : Map} (hs : Sorted m) {p q : ℝ × ℝ} (hp : p ∈ m) (hq : q ∈ m) (hpq : p.1 < q.1) :
    interp m p.1 = some p.2 := by
  obtain ⟨l, r, rfl⟩ := List.append_of_mem hp
  cases r with
  | nil =>
    exfalso
    rcases List.mem_append.1 hq with h | h
    · have := (List.pairwise_append.1 hs).2.2 q h p (by simp)
      linarith
    · simp only [List.mem_singleton] at h
      rw [h] at hpq
      exact lt_irrefl _ hpq
  | cons b r =>
    have hb : p.1 < b.1 := by
      have := (List.pairwise_append.1 hs).2.1
      exact List.rel_of_pairwise_cons this (by simp)
    rw [interp_between hs le_rfl hb]
    simp

theorem bracket_none {x : ℝ} : ∀ {m : Map} {lo : Option (ℝ × ℝ)}, (∀ p ∈ m, p.1 ≤ x) → bracket x lo m = none
  | [], _, _ => rfl
  | p :: m, lo, h => by
    rw [bracket, if_neg (not_lt.2 (h p (by simp)))]
    exact bracket_none fun q hq => h q (by simp [hq])

/-- At and beyond the last entry there is no value. -/
theorem interp_none {m : Map} {x : ℝ} (h : ∀ p ∈ m, p.1 ≤ x) : interp m x = none := by
  rw [interp, bracket_none h]; rfl

theorem bracket_some {x : ℝ} : ∀ {m : Map} {lo : ℝ × ℝ}, (∃ p ∈ m, x < p.1) → (bracket x (some lo) m).isSome
  | [], _, h => by simp at h
  | p :: m, lo, h => by
    rw [bracket]
    by_cases c : x < p.1
    · rw [if_pos c]; rfl
    · rw [if_neg c]
      obtain ⟨q, hq, hx⟩ := h
      refine bracket_some ⟨q, ?_, hx⟩
      rcases List.mem_cons.1 hq with rfl | h
      · exact absurd hx c
      · exact h

/-- For maps that pass the checks the value exists exactly for coverages from zero to below one. -/
theorem interp_isSome_iff {m : Map} (hs : Sorted m) (h0 : m.head?.map Prod.fst = some 0) (h1 : m.getLast?.map Prod.fst = some 1)
    (x : ℝ) : (interp m x).isSome ↔ 0 ≤ x ∧ x < 1 := by
  have one : ∃ p ∈ m, p.1 = 1 := by
    cases hl : m.getLast? with
    | none => rw [hl] at h1; simp at h1
    | some p => rw [hl] at h1; exact ⟨p, List.mem_of_getLast? hl, by simpa using h1⟩
  have le1 : ∀ p ∈ m, p.1 ≤ 1 := by
    intro p hp
    cases hl : m.getLast? with
    | none => rw [hl] at h1; simp at h1
    | some q =>
      rw [hl] at h1
      have q1 : q.1 = 1 := by simpa using h1
      obtain ⟨l, rfl⟩ := List.getLast?_eq_some_iff.1 hl
      rcases List.mem_append.1 hp with h | h
      · rw [← q1]; exact ((List.pairwise_append.1 hs).2.2 p h q (by simp)).le
      · simp only [List.mem_singleton] at h; rw [h, q1]
  cases m with
  | nil => simp at h0
  | cons p m =>
    have p0 : p.1 = 0 := by simpa using h0
    constructor
    · intro h
      refine ⟨not_lt.1 fun c => ?_, not_le.1 fun c => ?_⟩
      · rw [interp, bracket, if_pos (by rw [p0]; exact c)] at h
        simp at h
      · rw [interp_none fun q hq => le_trans (le1 q hq) c] at h
        simp at h
    · rintro ⟨a, b⟩
      rw [interp, bracket, if_neg (by rw [p0]; exact not_lt.2 a), Option.isSome_map]
      obtain ⟨q, hq, q1⟩ := one
      refine bracket_some ⟨q, ?_, by rw [q1]; exact b⟩
      rcases List.mem_cons.1 hq with rfl | h
      · rw [p0] at q1; norm_num at q1
      · exact h

theorem mem_put {k v : ℝ} {p : ℝ × ℝ} : ∀ {m : Map}, p ∈ put k v m → p = (k, v) ∨ p ∈ m
  | [], h => by simp [put] at h; exact .inl h
  | (a, b) :: m, h => by
    rw [put] at h
    split_ifs at h
    · rcases List.mem_cons.1 h with h | h
      · exact .inl h
      · exact .inr h
    · rcases List.mem_cons.1 h with h | h
      · exact .inl h
      · exact .inr (by simp [h])
    · rcases List.mem_cons.1 h with h | h
      · exact .inr (by simp [h])
      · rcases mem_put h with h | h
        · exact .inl h
        · exact .inr (by simp [h])

theorem put_self (k v : ℝ) : ∀ m : Map, (k, v) ∈ put k v m
  | [] => by simp [put]
  | (a, b) :: m => by
    rw [put]
    split_ifs
    · simp
    · simp
    · simp [put_self k v m]

theorem put_keep {k v : ℝ} {p : ℝ × ℝ} (hne : p.1 ≠ k) : ∀ {m : Map}, p ∈ m → p ∈ put k v m
  | (a, b) :: m, h => by
    rw [put]
    split_ifs with h1 h2
    · simp only [List.mem_cons] at h ⊢; exact .inr h
    · rcases List.mem_cons.1 h with h | h
      · rw [h] at hne; exact absurd h2.symm hne
      · simp [h]
    · rcases List.mem_cons.1 h with h | h
      · simp [h]
      · simp [put_keep hne h]

/-- Assigning keeps the order. -/
theorem put_sorted (k v : ℝ) : ∀ {m : Map}, Sorted m → Sorted (put k v m)
  | [], _ => by simp [put, Sorted]
  | (a, b) :: m, h => by
    have h' := List.pairwise_cons.1 h
    rw [put]
    split_ifs with h1 h2
    · refine List.pairwise_cons.2 ⟨fun q hq => ?_, h⟩
      rcases List.mem_cons.1 hq with rfl | hq
      · exact h1
      · exact lt_trans h1 (h'.1 q hq)
    · refine List.pairwise_cons.2 ⟨fun q hq => ?_, h'.2⟩
      subst h2
      exact h'.1 q hq
    · refine List.pairwise_cons.2 ⟨fun q hq => ?_, put_sorted k v h'.2⟩
      rcases mem_put hq with rfl | hq
      · exact lt_of_le_of_ne (not_lt.1 h1) (Ne.symm h2)
      · exact h'.1 q hq

theorem start_sorted : Sorted start := by simp [Sorted, start]

theorem fold_sorted (l : List (ℝ × ℝ)) : ∀ {m : Map}, Sorted m → Sorted (l.foldl (fun m p => put p.1 p.2 m) m) := by
  induction l with
  | nil => exact fun h => h
  | cons p l ih => exact fun h => ih (put_sorted _ _ h)

theorem fold_keep {q : ℝ × ℝ} (l : List (ℝ × ℝ)) (hl : ∀ p ∈ l, p.1 ≠ q.1) :
    ∀ {m : Map}, q ∈ m → q ∈ l.foldl (fun m p => put p.1 p.2 m) m := by
  induction l with
  | nil => exact fun h => h
  | cons p l ih =>
    intro m h
    exact ih (fun r hr => hl r (by simp [hr])) (put_keep (Ne.symm (hl p (by simp))) h)

theorem fold_mem (l : List (ℝ × ℝ)) (hn : (l.map Prod.fst).Nodup) :
    ∀ (m : Map), ∀ q ∈ l, q ∈ l.foldl (fun m p => put p.1 p.2 m) m := by
  induction l with
  | nil => simp
  | cons p l ih =>
    intro m q hq
    rw [List.map_cons, List.nodup_cons] at hn
    rcases List.mem_cons.1 hq with rfl | hq
    · refine fold_keep l (fun r hr c => hn.1 ?_) (put_self _ _ m)
      rw [← c]; exact List.mem_map_of_mem hr
    · exact ih hn.2 _ q hq

/-- Model `interpolative`: the value at each given coverage below one is the given value. -/
theorem table_node {x v : List ℝ} {m : Map} (h : table x v = some m) (hn : x.Nodup) {i : ℕ} (hi : i < x.length)
    (hx : x[i] < 1) : ∃ hv : i < v.length, interp m x[i] = some v[i] := by
  rw [table] at h
  split_ifs at h with hl
  simp only [ne_eq, not_not] at hl
  have hv : i < v.length := by omega
  refine ⟨hv, ?_⟩
  simp only [Option.some.injEq] at h
  have hnz : ((x.zip v).map Prod.fst).Nodup := by rwa [List.map_fst_zip (by omega)]
  have hp : (x[i], v[i]) ∈ x.zip v := by
    refine List.mem_iff_getElem.2 ⟨i, by simp; omega, by simp⟩
  have hm : (x[i], v[i]) ∈ m := by rw [← h]; exact fold_mem _ hnz _ _ hp
  have hsm : Sorted m := by rw [← h]; exact fold_sorted _ start_sorted
  have h1 : ∃ q ∈ m, q.1 = 1 := by
    by_cases c : ∃ p ∈ x.zip v, p.1 = 1
    · obtain ⟨p, hp, p1⟩ := c
      exact ⟨p, by rw [← h]; exact fold_mem _ hnz _ _ hp, p1⟩
    · push Not at c
      exact ⟨(1, 0), by rw [← h]; exact fold_keep _ c (by simp [start]), rfl⟩
  obtain ⟨q, hq, q1⟩ := h1
  exact interp_node hsm hm hq (by simp only [q1]; exact hx)

/-- Different lengths are rejected. -/
theorem table_length (x v : List ℝ) : table x v = none ↔ x.length ≠ v.length := by
  rw [table]; split_ifs with h <;> simp [h]

/-- The demand that the coverages begin with zero and end with one is not enforced: the map starts with zeros there. -/
theorem endpoints_not_checked : ∃ m, table [1 / 2] [5] = some m ∧ Accept ⟨0, 0, m, m⟩ ∧ interp m 0 = some 0 := by
  refine ⟨[(0, 0), (1 / 2, 5), (1, 0)], ?_, ?_, ?_⟩
  · norm_num [table, start, put]
  · simp [Accept]
  · norm_num [interp, bracket]

/-- The map of model `piecewise-linear`. -/
theorem piecewise_eq {low c high : ℝ} (h0 : 0 < c) (h1 : c < 1) :
    piecewise low c high = [(0, 0), (c, low * c), (1, (1 - c) * high + low * c)] := by
  have n0 : ¬ c < 0 := not_lt.2 h0.le
  have e0 : c ≠ 0 := h0.ne'
  have n1 : ¬ (1 : ℝ) < c := not_lt.2 h1.le
  have e1 : (1 : ℝ) ≠ c := h1.ne'
  have a1 : ¬ (1 : ℝ) < 0 := by norm_num
  simp [piecewise, start, put, get, n0, e0, n1, e1, h1, a1]

theorem piecewise_zero (low high : ℝ) : piecewise low 0 high = [(0, 0), (1, high)] := by
  have a1 : ¬ (1 : ℝ) < 0 := by norm_num
  simp [piecewise, start, put, get, a1]

theorem piecewise_one (low high : ℝ) : piecewise low 1 high = [(0, 0), (1, low)] := by
  have a1 : ¬ (1 : ℝ) < 0 := by norm_num
  simp [piecewise, start, put, get, a1]

/-- Model `piecewise-linear`: slopes below and above the change. -/
theorem piecewise_value {low c high x : ℝ} (h0 : 0 ≤ c) (h1 : c ≤ 1) (x0 : 0 ≤ x) (x1 : x < 1) :
    interp (piecewise low c high) x = some (if x ≤ c then low * x else high * (x - c) + low * c) := by
  have nx : ¬ x < 0 := not_lt.2 x0
  rcases eq_or_lt_of_le h0 with rfl | c0
  · rw [piecewise_zero]
    simp only [interp, bracket, nx, x1, if_true, if_false, Option.map_some, Option.some.injEq]
    split_ifs with h
    · have : x = 0 := le_antisymm h x0
      simp [this]
    · ring
  rcases eq_or_lt_of_le h1 with rfl | c1
  · rw [piecewise_one]
    simp only [interp, bracket, nx, x1, if_true, if_false, Option.map_some, Option.some.injEq]
    rw [if_pos x1.le]; ring
  · rw [piecewise_eq c0 c1]
    have d1 : (1 : ℝ) - c ≠ 0 := by linarith
    rcases lt_or_ge x c with h | h
    · simp only [interp, bracket, nx, h, if_true, if_false, Option.map_some, Option.some.injEq]
      rw [if_pos h.le]; field_simp; ring
    · simp only [interp, bracket, nx, not_lt.2 h, x1, if_true, if_false, Option.map_some, Option.some.injEq]
      split_ifs with h'
      · have : x = c := le_antisymm h' h
        subst this; simp
      · field_simp; ring

/-- The parameters of a piecewise-linear dependency are returned as given. -/
theorem piecewise_params {low c high : ℝ} (h0 : 0 < c) (h1 : c < 1) :
    piecewiseParams (piecewise low c high) = .ok (c, low, high) := by
  rw [piecewise_eq h0 h1]
  have d1 : (1 : ℝ) - c ≠ 0 := by linarith
  simp only [piecewiseParams, Outcome.ok.injEq, Prod.mk.injEq]
  have c0 : c ≠ 0 := h0.ne'
  refine ⟨trivial, by field_simp; ring, by field_simp; ring⟩

/-- If only the enthalpy or only the entropy depends on coverage, or if the change is at zero or one, the parameters cannot be
read back: the vectors are read beyond their ends. -/
theorem piecewise_params_ub (low high : ℝ) :
    piecewiseParams start = .ub ∧ piecewiseParams (piecewise low 0 high) = .ub ∧
    piecewiseParams (piecewise low 1 high) = .ub := by
  rw [piecewise_zero, piecewise_one]
  exact ⟨rfl, rfl, rfl⟩

/-! ## Polynomials -/

theorem poly4_eq {c : List ℝ} (h : 5 ≤ c.length) (x : ℝ) :
    poly4 c x = .ok (c.getD 0 0 + c.getD 1 0 * x + c.getD 2 0 * x ^ 2 + c.getD 3 0 * x ^ 3 + c.getD 4 0 * x ^ 4) := by
  rw [poly4, if_neg (by omega)]
  congr 1; ring

/-- Model `linear`. -/
theorem linear_value (k j : ℕ) (h s x : ℝ) :
    poly4 (linear k j (some h) (some s)).h x = .ok (h * x) ∧ poly4 (linear k j (some h) (some s)).s x = .ok (s * x) ∧
    poly4 (linear k j none none).h x = .ok 0 ∧ poly4 (linear k j none none).s x = .ok 0 := by
  simp only [linear]
  refine ⟨?_, ?_, ?_, ?_⟩ <;> (rw [poly4_eq (by simp)]; simp)

/-- Model `polynomial` with four coefficients. -/
theorem polynomial_value (k j : ℕ) (a b c d x : ℝ) (s : Option (List ℝ)) :
    poly4 (polynomial k j (some [a, b, c, d]) s).h x = .ok (a * x + b * x ^ 2 + c * x ^ 3 + d * x ^ 4) ∧
    poly4 (polynomial k j s (some [a, b, c, d])).s x = .ok (a * x + b * x ^ 2 + c * x ^ 3 + d * x ^ 4) ∧
    poly4 (polynomial k j none s).h x = .ok 0 ∧ poly4 (polynomial k j s none).s x = .ok 0 := by
  simp only [polynomial]
  refine ⟨?_, ?_, ?_, ?_⟩ <;> (rw [poly4_eq (by simp)]; simp)

/-- Fewer than four coefficients: the vector is read beyond its end. -/
theorem polynomial_short (k j : ℕ) (c : List ℝ) (hc : c.length < 4) (x : ℝ) (s : Option (List ℝ)) :
    poly4 (polynomial k j (some c) s).h x = .ub := by
  simp only [polynomial, Option.map_some, Option.getD_some]
  rw [poly4, if_pos (by simp; omega)]

/-! ## Coverage-dependent parts -/

/-- Polynomial of degree four. -/
noncomputable def pv (c : List ℝ) (x : ℝ) : ℝ :=
  c.getD 0 0 + c.getD 1 0 * x + c.getD 2 0 * x ^ 2 + c.getD 3 0 * x ^ 3 + c.getD 4 0 * x ^ 4

/-- Contributions to one species. -/
noncomputable def forK {α : Type} (key : α → ℕ) (f : α → ℝ) (k : ℕ) (l : List α) : ℝ :=
  (l.map fun p => if k = key p then f p else 0).sum

/-- Heat capacity that depends on coverages. -/
noncomputable def specCp (d : Data) (T : ℝ) (θ : ℕ → ℝ) (k : ℕ) : ℝ :=
  forK Heat.k (fun p => (p.a * Real.log T + p.b) * θ p.j ^ 2) k d.heats

/-- Enthalpy that depends on coverages. -/
noncomputable def specH (d : Data) (T : ℝ) (θ : ℕ → ℝ) (k : ℕ) : ℝ :=
  forK Poly.k (fun p => pv p.h (θ p.j)) k d.polys + forK Interp.k (fun p => (interp p.h (θ p.j)).getD 0) k d.interps +
  forK Heat.k (fun p => (T * (p.a * Real.log T - p.a + p.b) - 298.15 * (p.a * Real.log 298.15 - p.a + p.b)) * θ p.j ^ 2) k d.heats

/-- Entropy that depends on coverages. -/
noncomputable def specS (d : Data) (T : ℝ) (θ : ℕ → ℝ) (k : ℕ) : ℝ :=
  forK Poly.k (fun p => pv p.s (θ p.j)) k d.polys + forK Interp.k (fun p => (interp p.s (θ p.j)).getD 0) k d.interps +
  forK Heat.k (fun p => (Real.log T * (p.a * Real.log T + 2 * p.b) - Real.log 298.15 * (p.a * Real.log 298.15 + 2 * p.b)) / 2 *
    θ p.j ^ 2) k d.heats

/-- Enough coefficients, and coverages in the range of the tables. -/
structure Dom (d : Data) (θ : ℕ → ℝ) : Prop where
  poly : ∀ p ∈ d.polys, 5 ≤ p.h.length ∧ 5 ≤ p.s.length
  interp : ∀ p ∈ d.interps, (interp p.h (θ p.j)).isSome ∧ (interp p.s (θ p.j)).isSome

theorem forK_cons {α : Type} (key : α → ℕ) (f : α → ℝ) (k : ℕ) (p : α) (l : List α) :
    forK key f k (p :: l) = (if k = key p then f p else 0) + forK key f k l := by
  simp [forK]

theorem addAt_eq (f : ℕ → ℝ) (k : ℕ) (x : ℝ) (i : ℕ) : addAt f k x i = f i + if i = k then x else 0 := by
  rw [addAt]; split_ifs <;> simp

theorem loopPoly_eq (θ : ℕ → ℝ) : ∀ (ps : List Poly) (f : (ℕ → ℝ) × (ℕ → ℝ)),
    (∀ p ∈ ps, 5 ≤ p.h.length ∧ 5 ≤ p.s.length) →
    loopPoly θ ps f = .ok (fun k => f.1 k + forK Poly.k (fun p => pv p.h (θ p.j)) k ps,
      fun k => f.2 k + forK Poly.k (fun p => pv p.s (θ p.j)) k ps)
  | [], f, _ => by simp [loopPoly, forK]
  | p :: ps, f, h => by
    rw [loopPoly, poly4_eq (h p (by simp)).1, poly4_eq (h p (by simp)).2]
    simp only [Outcome.bind_ok]
    rw [loopPoly_eq θ ps _ fun q hq => h q (by simp [hq])]
    simp only [forK_cons, addAt_eq, pv, Outcome.ok.injEq, Prod.mk.injEq]
    exact ⟨funext fun k => by ring, funext fun k => by ring⟩

theorem loopInterp_eq (nd : Bool) (θ : ℕ → ℝ) : ∀ (ps : List Interp) (f : (ℕ → ℝ) × (ℕ → ℝ)),
    (∀ p ∈ ps, (interp p.h (θ p.j)).isSome ∧ (interp p.s (θ p.j)).isSome) →
    loopInterp nd θ ps f = .ok (fun k => f.1 k + forK Interp.k (fun p => (interp p.h (θ p.j)).getD 0) k ps,
      fun k => f.2 k + forK Interp.k (fun p => (interp p.s (θ p.j)).getD 0) k ps)
  | [], f, _ => by simp [loopInterp, forK]
  | p :: ps, f, h => by
    obtain ⟨a, b⟩ := h p (by simp)
    obtain ⟨x, hx⟩ := Option.isSome_iff_exists.1 a
    obtain ⟨y, hy⟩ := Option.isSome_iff_exists.1 b
    rw [loopInterp]
    simp only [hx, hy]
    rw [loopInterp_eq nd θ ps _ fun q hq => h q (by simp [hq])]
    simp only [forK_cons, addAt_eq, hx, hy, Option.getD_some, Outcome.ok.injEq, Prod.mk.injEq]
    exact ⟨funext fun k => by ring, funext fun k => by ring⟩

theorem loopInterp_fail (nd : Bool) (θ : ℕ → ℝ) : ∀ (ps : List Interp) (f : (ℕ → ℝ) × (ℕ → ℝ)),
    (¬ ∀ p ∈ ps, (interp p.h (θ p.j)).isSome ∧ (interp p.s (θ p.j)).isSome) →
    loopInterp nd θ ps f = if nd then .ub else .throw
  | [], f, h => by simp at h
  | p :: ps, f, h => by
    rw [loopInterp]
    cases hx : interp p.h (θ p.j) with
    | none => rfl
    | some x =>
      cases hy : interp p.s (θ p.j) with
      | none => rfl
      | some y =>
        refine loopInterp_fail nd θ ps _ fun c => h fun q hq => ?_
        rcases List.mem_cons.1 hq with rfl | hq
        · simp [hx, hy]
        · exact c q hq

theorem loopHeat_eq (T : ℝ) (θ : ℕ → ℝ) : ∀ (ps : List Heat) (h s cp : ℕ → ℝ),
    loopHeat T θ ps (h, s, cp) =
      (fun k => h k + forK Heat.k (fun p => (T * (p.a * Real.log T - p.a + p.b) -
          298.15 * (p.a * Real.log 298.15 - p.a + p.b)) * θ p.j ^ 2) k ps,
       fun k => s k + forK Heat.k (fun p => (Real.log T * (p.a * Real.log T + 2 * p.b) -
          Real.log 298.15 * (p.a * Real.log 298.15 + 2 * p.b)) / 2 * θ p.j ^ 2) k ps,
       fun k => cp k + forK Heat.k (fun p => (p.a * Real.log T + p.b) * θ p.j ^ 2) k ps)
  | [], h, s, cp => by simp [loopHeat, forK]
  | p :: ps, h, s, cp => by
    rw [loopHeat, loopHeat_eq T θ ps]
    simp only [forK_cons, addAt_eq, Prod.mk.injEq]
    refine ⟨funext fun k => ?_, funext fun k => ?_, funext fun k => ?_⟩
    · split_ifs <;> ring
    · split_ifs <;> ring
    · split_ifs <;> ring

/-- The coverage-dependent parts computed by an update. -/
theorem updateCov_spec (nd : Bool) {o : Obj} (hne : o.numLast ≠ o.num ∨ o.tlast ≠ o.T) (hd : Dom o.d (coverages o.d o.X)) :
    updateCov nd o = .ok { o with
      cov := coverages o.d o.X, hCov := specH o.d o.T (coverages o.d o.X), sCov := specS o.d o.T (coverages o.d o.X),
      cpCov := specCp o.d o.T (coverages o.d o.X),
      muCov := fun k => specH o.d o.T (coverages o.d o.X) k - o.T * specS o.d o.T (coverages o.d o.X) k, numLast := o.num } := by
  rw [updateCov, if_pos hne]
  simp only [loopPoly_eq _ _ _ hd.poly, loopInterp_eq _ _ _ _ hd.interp, Outcome.bind_ok, loopHeat_eq, zero_add]
  rfl

/-- A coverage outside the tables stops the update: an exception, or undefined behaviour if assertions are disabled. In
particular a coverage of one is outside. -/
theorem update_outside (nd : Bool) {o : Obj} (hne : o.numLast ≠ o.num ∨ o.tlast ≠ o.T)
    (hp : ∀ p ∈ o.d.polys, 5 ≤ p.h.length ∧ 5 ≤ p.s.length)
    (hi : ¬ ∀ p ∈ o.d.interps, (interp p.h (coverages o.d o.X p.j)).isSome ∧ (interp p.s (coverages o.d o.X p.j)).isSome) :
    update nd o = if nd then .ub else .throw := by
  rw [update, updateCov, if_pos hne]
  simp only [loopPoly_eq _ _ _ hp, loopInterp_fail _ _ _ _ hi, Outcome.bind_ok]
  cases nd <;> rfl

/-! ## Results belong to the current state -/

/-- The sums belong to temperature `T` and the current composition. -/
structure At (o : Obj) (T : ℝ) : Prop where
  cov : ∀ k, o.cov k = coverages o.d o.X k
  h : ∀ k, o.enthalpy k = o.d.h0 T k + specH o.d T (coverages o.d o.X) k
  s : ∀ k, o.entropy k = o.d.s0 T k + specS o.d T (coverages o.d o.X) k
  cp : ∀ k, o.heatCapacity k = o.d.cp0 T k + specCp o.d T (coverages o.d o.X) k
  mu : ∀ k, o.chempot k = o.d.h0 T k - T * o.d.s0 T k + (specH o.d T (coverages o.d o.X) k -
    T * specS o.d T (coverages o.d o.X) k)

/-- Reference functions of the stored temperature. -/
def RefOk (o : Obj) : Prop :=
  o.tlast = 0 ∨ ((∀ k, o.h0 k = o.d.h0 o.tlast k) ∧ (∀ k, o.s0 k = o.d.s0 o.tlast k) ∧ (∀ k, o.cp0 k = o.d.cp0 o.tlast k) ∧
    ∀ k, o.mu0 k = o.d.h0 o.tlast k - o.tlast * o.d.s0 o.tlast k)

/-- Coverage-dependent parts of temperature `t`. -/
def CovOk (o : Obj) (t : ℝ) : Prop :=
  (∀ k, o.cov k = coverages o.d o.X k) ∧ (∀ k, o.hCov k = specH o.d t (coverages o.d o.X) k) ∧
  (∀ k, o.sCov k = specS o.d t (coverages o.d o.X) k) ∧ (∀ k, o.cpCov k = specCp o.d t (coverages o.d o.X) k) ∧
  ∀ k, o.muCov k = specH o.d t (coverages o.d o.X) k - t * specS o.d t (coverages o.d o.X) k

/-- Invariant of all calls but `add` and `invalidate`. -/
structure Inv (o : Obj) : Prop where
  T : 0 < o.T
  num : o.numLast ≤ o.num
  ref : RefOk o
  cov : o.numLast = o.num → ∃ t, CovOk o t

/-- Invariant without queries of reference properties. -/
structure Inv' (o : Obj) : Prop extends Inv o where
  cov' : o.numLast = o.num → CovOk o o.tlast

theorem updateRef_spec {o : Obj} (hT : 0 < o.T) (h : RefOk o) : ∃ h0 s0 cp0 mu0,
    updateRef o = { o with h0 := h0, s0 := s0, cp0 := cp0, mu0 := mu0, tlast := o.T } ∧
    (∀ k, h0 k = o.d.h0 o.T k) ∧ (∀ k, s0 k = o.d.s0 o.T k) ∧ (∀ k, cp0 k = o.d.cp0 o.T k) ∧
    ∀ k, mu0 k = o.d.h0 o.T k - o.T * o.d.s0 o.T k := by
  rw [updateRef]
  by_cases c : o.tlast = o.T
  · rw [if_neg (not_not.2 c)]
    rcases h with h | ⟨a, b, e, f⟩
    · rw [h] at c; exact absurd c hT.ne
    · rw [c] at a b e f
      refine ⟨o.h0, o.s0, o.cp0, o.mu0, ?_, a, b, e, f⟩
      cases o
      simp only at c
      subst c
      rfl
  · rw [if_pos c]
    exact ⟨_, _, _, _, rfl, fun _ => rfl, fun _ => rfl, fun _ => rfl, fun _ => rfl⟩

/-- What an update does: the current reference functions, and coverage-dependent parts that are new or kept. -/
theorem update_cases (nd : Bool) {o o' : Obj} (i : Inv o) (hd : Dom o.d (coverages o.d o.X)) (h : update nd o = .ok o') :
    ∃ t, (o.numLast ≠ o.num ∨ o.tlast ≠ o.T → t = o.T) ∧ (¬ (o.numLast ≠ o.num ∨ o.tlast ≠ o.T) → CovOk o t) ∧ CovOk o' t ∧
      o'.d = o.d ∧ o'.T = o.T ∧ o'.X = o.X ∧ o'.num = o.num ∧ o'.numLast = o.num ∧ o'.tlast = o.T ∧
      (∀ k, o'.h0 k = o.d.h0 o.T k) ∧ (∀ k, o'.s0 k = o.d.s0 o.T k) ∧ (∀ k, o'.cp0 k = o.d.cp0 o.T k) ∧
      ∀ k, o'.mu0 k = o.d.h0 o.T k - o.T * o.d.s0 o.T k := by
  by_cases c : o.numLast ≠ o.num ∨ o.tlast ≠ o.T
  · rw [update, updateCov_spec nd c hd] at h
    simp only [Outcome.bind_ok, Outcome.ok.injEq] at h
    obtain ⟨h0, s0, cp0, mu0, e, r⟩ := updateRef_spec (o := { o with
      cov := coverages o.d o.X, hCov := specH o.d o.T (coverages o.d o.X), sCov := specS o.d o.T (coverages o.d o.X),
      cpCov := specCp o.d o.T (coverages o.d o.X),
      muCov := fun k => specH o.d o.T (coverages o.d o.X) k - o.T * specS o.d o.T (coverages o.d o.X) k, numLast := o.num })
      i.T i.ref
    rw [e] at h
    subst h
    exact ⟨o.T, fun _ => rfl, fun n => absurd c n, ⟨fun _ => rfl, fun _ => rfl, fun _ => rfl, fun _ => rfl, fun _ => rfl⟩,
      rfl, rfl, rfl, rfl, rfl, rfl, r.1, r.2.1, r.2.2.1, r.2.2.2⟩
  · have c' := c
    push Not at c'
    obtain ⟨t, ht⟩ := i.cov c'.1
    rw [update, updateCov, if_neg c] at h
    simp only [Outcome.bind_ok, Outcome.ok.injEq] at h
    obtain ⟨h0, s0, cp0, mu0, e, r⟩ := updateRef_spec i.T i.ref
    rw [e] at h
    subst h
    exact ⟨t, fun n => absurd n c, fun _ => ht, ht, rfl, rfl, rfl, rfl, c'.1, rfl, r.1, r.2.1, r.2.2.1, r.2.2.2⟩

/-- With enough coefficients an update returns exactly if the coverages are in range or nothing is to be updated. -/
theorem update_dom (nd : Bool) {o o' : Obj} (hp : ∀ p ∈ o.d.polys, 5 ≤ p.h.length ∧ 5 ≤ p.s.length)
    (c : o.numLast ≠ o.num ∨ o.tlast ≠ o.T) (h : update nd o = .ok o') : Dom o.d (coverages o.d o.X) := by
  refine ⟨hp, ?_⟩
  by_contra n
  rw [update_outside nd c hp n] at h
  cases nd <;> simp at h

/-- No addition of dependencies and no invalidation. -/
def Op.Fixed : Op → Prop
  | .add _ => False
  | .invalidate => False
  | _ => True

/-- As before, and no query of reference state properties. -/
def Op.Plain : Op → Prop
  | .add _ => False
  | .invalidate => False
  | .ref => False
  | _ => True

/-- Enough coefficients. -/
def Long (d : Data) : Prop := ∀ p ∈ d.polys, 5 ≤ p.h.length ∧ 5 ≤ p.s.length

theorem step_ref_inv {o : Obj} (i : Inv o) : Inv (updateRef o) := by
  obtain ⟨h0, s0, cp0, mu0, e, a, b, c, f⟩ := updateRef_spec i.T i.ref
  rw [e]
  exact ⟨i.T, i.num, .inr ⟨a, b, c, f⟩, fun q => i.cov q⟩

theorem step_inv (nd : Bool) {o o' : Obj} (hl : Long o.d) (i : Inv o) {op : Op} (hf : op.Fixed) (h : step nd o op = .ok o') :
    Inv o' ∧ o'.d = o.d := by
  cases op with
  | add d => exact absurd hf id
  | invalidate => exact absurd hf id
  | setT T =>
    rw [step] at h
    split_ifs at h with hT
    simp only [Outcome.ok.injEq] at h
    subst h
    exact ⟨⟨hT, i.num, i.ref, i.cov⟩, rfl⟩
  | setX X =>
    simp only [step, Outcome.ok.injEq] at h
    subst h
    refine ⟨⟨i.T, by have := i.num; simp only; omega, i.ref, fun q => ?_⟩, rfl⟩
    have := i.num
    simp only at q
    omega
  | ref =>
    simp only [step, Outcome.ok.injEq] at h
    subst h
    refine ⟨step_ref_inv i, ?_⟩
    rw [updateRef]; split_ifs <;> rfl
  | query =>
    rw [step] at h
    by_cases c : o.numLast ≠ o.num ∨ o.tlast ≠ o.T
    · obtain ⟨t, _, _, cv, hd, hT, hX, hn, hl', ht, a, b, e, f⟩ := update_cases nd i (update_dom nd hl c h) h
      refine ⟨⟨by rw [hT]; exact i.T, by rw [hl', hn], .inr ⟨?_, ?_, ?_, ?_⟩, fun _ => ⟨t, cv⟩⟩, hd⟩
      · rw [hd, ht]; exact a
      · rw [hd, ht]; exact b
      · rw [hd, ht]; exact e
      · rw [hd, ht]; exact f
    · rw [update, updateCov, if_neg c] at h
      simp only [Outcome.bind_ok, Outcome.ok.injEq] at h
      subst h
      refine ⟨step_ref_inv i, ?_⟩
      rw [updateRef]; split_ifs <;> rfl

theorem run_inv (nd : Bool) : ∀ {ops : List Op} {o o' : Obj}, Long o.d → Inv o → (∀ op ∈ ops, op.Fixed) →
    run nd o ops = .ok o' → Inv o' ∧ o'.d = o.d
  | [], o, o', _, i, _, h => by simp only [run, Outcome.ok.injEq] at h; subst h; exact ⟨i, rfl⟩
  | op :: ops, o, o', hl, i, hf, h => by
    rw [run] at h
    cases hs : step nd o op with
    | ok o1 =>
      rw [hs] at h
      obtain ⟨i1, d1⟩ := step_inv nd hl i (hf op (by simp)) hs
      obtain ⟨i2, d2⟩ := run_inv nd (by rw [d1]; exact hl) i1 (fun p hp => hf p (by simp [hp])) h
      exact ⟨i2, by rw [d2, d1]⟩
    | throw =>
      rw [hs] at h
      exact run_inv nd hl i (fun p hp => hf p (by simp [hp])) h
    | ub => rw [hs] at h; simp at h

theorem fresh_inv {d : Data} {T : ℝ} (hT : 0 < T) (X : ℕ → ℝ) {num : ℤ} (hn : 0 ≤ num) : Inv' (fresh d T X num) := by
  refine ⟨⟨hT, by simp only [fresh]; omega, .inl rfl, fun q => ?_⟩, fun q => ?_⟩ <;> (simp only [fresh] at q; omega)

theorem step_inv' (nd : Bool) {o o' : Obj} (hl : Long o.d) (i : Inv' o) {op : Op} (hf : op.Plain) (h : step nd o op = .ok o') :
    Inv' o' ∧ o'.d = o.d := by
  have hf' : op.Fixed := by cases op <;> simp_all [Op.Plain, Op.Fixed]
  obtain ⟨i', d'⟩ := step_inv nd hl i.toInv hf' h
  refine ⟨⟨i', ?_⟩, d'⟩
  cases op with
  | add d => exact absurd hf id
  | invalidate => exact absurd hf id
  | ref => exact absurd hf id
  | setT T =>
    rw [step] at h
    split_ifs at h with hT
    simp only [Outcome.ok.injEq] at h
    subst h
    exact i.cov'
  | setX X =>
    simp only [step, Outcome.ok.injEq] at h
    subst h
    intro q
    have := i.num
    simp only at q
    omega
  | query =>
    rw [step] at h
    by_cases c : o.numLast ≠ o.num ∨ o.tlast ≠ o.T
    · obtain ⟨t, he, _, cv, _, _, _, _, _, ht, _⟩ := update_cases nd i.toInv (update_dom nd hl c h) h
      intro _
      rw [ht, ← he c]
      exact cv
    · have c' := c
      push Not at c'
      rw [update, updateCov, if_neg c] at h
      simp only [Outcome.bind_ok, Outcome.ok.injEq] at h
      subst h
      rw [updateRef, if_neg (not_not.2 c'.2)]
      exact i.cov'

theorem run_inv' (nd : Bool) : ∀ {ops : List Op} {o o' : Obj}, Long o.d → Inv' o → (∀ op ∈ ops, op.Plain) →
    run nd o ops = .ok o' → Inv' o' ∧ o'.d = o.d
  | [], o, o', _, i, _, h => by simp only [run, Outcome.ok.injEq] at h; subst h; exact ⟨i, rfl⟩
  | op :: ops, o, o', hl, i, hf, h => by
    rw [run] at h
    cases hs : step nd o op with
    | ok o1 =>
      rw [hs] at h
      obtain ⟨i1, d1⟩ := step_inv' nd hl i (hf op (by simp)) hs
      obtain ⟨i2, d2⟩ := run_inv' nd (by rw [d1]; exact hl) i1 (fun p hp => hf p (by simp [hp])) h
      exact ⟨i2, by rw [d2, d1]⟩
    | throw =>
      rw [hs] at h
      exact run_inv' nd hl i (fun p hp => hf p (by simp [hp])) h
    | ub => rw [hs] at h; simp at h

theorem at_of {o' : Obj} (T : ℝ) (cv : CovOk o' T) (a : ∀ k, o'.h0 k = o'.d.h0 T k) (b : ∀ k, o'.s0 k = o'.d.s0 T k)
    (c : ∀ k, o'.cp0 k = o'.d.cp0 T k) (e : ∀ k, o'.mu0 k = o'.d.h0 T k - T * o'.d.s0 T k) : At o' T := by
  obtain ⟨c1, c2, c3, c4, c5⟩ := cv
  refine ⟨c1, fun k => ?_, fun k => ?_, fun k => ?_, fun k => ?_⟩
  · rw [Obj.enthalpy, a, c2]
  · rw [Obj.entropy, b, c3]
  · rw [Obj.heatCapacity, c, c4]
  · rw [Obj.chempot, e, c5]

/-- Without queries of reference state properties all results belong to the current temperature and composition. -/
theorem current (nd : Bool) {d : Data} (hl : Long d) {T : ℝ} (hT : 0 < T) (X : ℕ → ℝ) {num : ℤ} (hn : 0 ≤ num) {ops : List Op}
    (hf : ∀ op ∈ ops, op.Plain) {o o' : Obj} (hr : run nd (fresh d T X num) ops = .ok o) (hq : update nd o = .ok o') :
    At o' o.T ∧ o'.T = o.T ∧ o'.X = o.X ∧ o'.d = d := by
  obtain ⟨i, hd⟩ := run_inv' nd hl (fresh_inv hT X hn) hf hr
  have hl' : Long o.d := by rw [hd]; exact hl
  by_cases c : o.numLast ≠ o.num ∨ o.tlast ≠ o.T
  · obtain ⟨t, he, _, cv, hd', hT', hX, _, _, _, a, b, e, f⟩ := update_cases nd i.toInv (update_dom nd hl' c hq) hq
    rw [he c] at cv
    exact ⟨at_of o.T cv (by rw [hd']; exact a) (by rw [hd']; exact b) (by rw [hd']; exact e) (by rw [hd']; exact f), hT', hX,
      by rw [hd', hd]; rfl⟩
  · have c' := c
    push Not at c'
    rw [update, updateCov, if_neg c] at hq
    simp only [Outcome.bind_ok, Outcome.ok.injEq] at hq
    rw [updateRef, if_neg (not_not.2 c'.2)] at hq
    subst hq
    have cv := i.cov' c'.1
    rw [c'.2] at cv
    rcases i.ref with r | ⟨a, b, e, f⟩
    · rw [c'.2] at r; exact absurd r i.T.ne'
    · rw [c'.2] at a b e f
      exact ⟨at_of o.T cv a b e f, rfl, rfl, hd⟩

/-- With queries of reference state properties: enthalpies, entropies and heat capacities belong to the current state if no
heat capacity depends on coverage. -/
theorem current_no_heat (nd : Bool) {d : Data} (hl : Long d) (hh : d.heats = []) {T : ℝ} (hT : 0 < T) (X : ℕ → ℝ) {num : ℤ}
    (hn : 0 ≤ num) {ops : List Op} (hf : ∀ op ∈ ops, op.Fixed) {o o' : Obj} (hr : run nd (fresh d T X num) ops = .ok o)
    (hq : update nd o = .ok o') (k : ℕ) :
    o'.cov k = coverages d o.X k ∧
    o'.enthalpy k = d.h0 o.T k + specH d o.T (coverages d o.X) k ∧ o'.entropy k = d.s0 o.T k + specS d o.T (coverages d o.X) k ∧
    o'.heatCapacity k = d.cp0 o.T k := by
  obtain ⟨i, hd⟩ := run_inv nd hl (fresh_inv hT X hn).toInv hf hr
  have hd : o.d = d := hd
  have hl' : Long o.d := by rw [hd]; exact hl
  have indH : ∀ t θ, specH d t θ k = specH d o.T θ k := fun t θ => by simp [specH, hh, forK]
  have indS : ∀ t θ, specS d t θ k = specS d o.T θ k := fun t θ => by simp [specS, hh, forK]
  have indC : ∀ t θ, specCp d t θ k = 0 := fun t θ => by simp [specCp, hh, forK]
  have fin : ∀ (o' : Obj) (t : ℝ), CovOk o' t → o'.d = d → o'.X = o.X → o'.h0 k = d.h0 o.T k → o'.s0 k = d.s0 o.T k →
      o'.cp0 k = d.cp0 o.T k → (o'.cov k = coverages d o.X k ∧ o'.enthalpy k = d.h0 o.T k + specH d o.T (coverages d o.X) k ∧
      o'.entropy k = d.s0 o.T k + specS d o.T (coverages d o.X) k ∧ o'.heatCapacity k = d.cp0 o.T k) := by
    intro o' t cv e x a b c
    obtain ⟨c1, c2, c3, c4, _⟩ := cv
    rw [e, x] at c1 c2 c3 c4
    refine ⟨c1 k, ?_, ?_, ?_⟩
    · rw [Obj.enthalpy, a, c2, indH]
    · rw [Obj.entropy, b, c3, indS]
    · rw [Obj.heatCapacity, c, c4, indC, add_zero]
  by_cases c : o.numLast ≠ o.num ∨ o.tlast ≠ o.T
  · obtain ⟨t, he, _, cv, hd', hT', hX, _, _, _, a, b, e, f⟩ := update_cases nd i (update_dom nd hl' c hq) hq
    rw [hd] at a b e
    exact fin o' t cv (by rw [hd', hd]) hX (a k) (b k) (e k)
  · have c' := c
    push Not at c'
    obtain ⟨t, cv⟩ := i.cov c'.1
    rw [update, updateCov, if_neg c] at hq
    simp only [Outcome.bind_ok, Outcome.ok.injEq] at hq
    rw [updateRef, if_neg (not_not.2 c'.2)] at hq
    subst hq
    rcases i.ref with r | ⟨a, b, e, f⟩
    · rw [c'.2] at r; exact absurd r i.T.ne'
    · rw [c'.2, hd] at a b e
      exact fin o t cv hd rfl (a k) (b k) (e k)

/-- After a change of composition all results belong to the current state, whatever was queried before. -/
theorem current_new_composition (nd : Bool) {d : Data} (hl : Long d) {T : ℝ} (hT : 0 < T) (X : ℕ → ℝ) {num : ℤ} (hn : 0 ≤ num)
    {ops : List Op} (hf : ∀ op ∈ ops, op.Fixed) {o o1 o' : Obj} (hr : run nd (fresh d T X num) ops = .ok o) (X' : ℕ → ℝ)
    (h1 : step nd o (.setX X') = .ok o1) (hq : update nd o1 = .ok o') : At o' o.T ∧ o'.X = X' := by
  obtain ⟨i, hd⟩ := run_inv nd hl (fresh_inv hT X hn).toInv hf hr
  obtain ⟨i1, hd1⟩ := step_inv nd (by rw [hd]; exact hl) i (op := .setX X') trivial h1
  have hl' : Long o1.d := by rw [hd1, hd]; exact hl
  simp only [step, Outcome.ok.injEq] at h1
  have c : o1.numLast ≠ o1.num ∨ o1.tlast ≠ o1.T := by
    left
    have := i.num
    rw [← h1]
    simp only
    omega
  obtain ⟨t, he, _, cv, hd', hT', hX, _, _, _, a, b, e, f⟩ := update_cases nd i1 (update_dom nd hl' c hq) hq
  rw [he c] at cv
  have hT1 : o1.T = o.T := by rw [← h1]
  have hX1 : o1.X = X' := by rw [← h1]
  rw [hT1] at cv a b e f
  exact ⟨at_of o.T cv (by rw [hd']; exact a) (by rw [hd']; exact b) (by rw [hd']; exact e) (by rw [hd']; exact f),
    by rw [hX, hX1]⟩

/-! ## Thermodynamic relations -/

/-- Chemical potentials, enthalpies and entropies are consistent when the results belong to the current temperature. -/
theorem chemPot_eq {o : Obj} (h : At o o.T) (k : ℕ) : o.chemPot k = o.pmEnthalpy k - o.T * o.pmEntropy k := by
  rw [Obj.chemPot, Obj.pmEnthalpy, Obj.pmEntropy, h.mu, h.h, h.s]; ring

theorem gibbsRT_eq {o : Obj} (h : At o o.T) (hR : o.d.R ≠ 0) (hT : o.T ≠ 0) (k : ℕ) :
    o.gibbsRT k = o.enthalpyRT k - o.entropyR k := by
  rw [Obj.gibbsRT, Obj.enthalpyRT, Obj.entropyR, h.mu, h.h, h.s]
  split_ifs <;> (field_simp; ring)

theorem pureGibbs_eq {o : Obj} (hR : o.d.R ≠ 0) (hT : o.T ≠ 0) (k : ℕ) : o.pureGibbs k = o.stdChemPot k := by
  rw [Obj.pureGibbs, Obj.gibbsRT, Obj.stdChemPot]
  split_ifs <;> (field_simp)

theorem cpR_eq (o : Obj) (hR : o.d.R ≠ 0) (k : ℕ) : o.cpR k * o.d.R = o.pmCp k := by
  rw [Obj.cpR, Obj.pmCp]; field_simp

/-- The chemical potential is that of the standard state plus `RT` times the logarithm of the coverage. -/
theorem chemPot_std {o : Obj} (h : At o o.T) (hr : 0 < o.d.thetaRef) {k : ℕ} (hc : Obj.small ≤ coverages o.d o.X k) :
    o.chemPot k = o.stdChemPot k + o.d.R * o.T * Real.log (coverages o.d o.X k) := by
  have hp : 0 < coverages o.d o.X k := lt_of_lt_of_le (by rw [Obj.small]; positivity) hc
  rw [Obj.chemPot, Obj.stdChemPot, h.cov, max_eq_left hc, Real.log_div hp.ne' hr.ne']
  split_ifs with c
  · ring
  · rw [not_not] at c
    rw [c, Real.log_one]; ring

theorem enthalpyRT_eq (o : Obj) (hR : o.d.R ≠ 0) (hT : o.T ≠ 0) (k : ℕ) :
    o.enthalpyRT k * (o.d.R * o.T) = o.pmEnthalpy k ∧ o.pmEnthalpy k = o.h0 k + o.hCov k := by
  refine ⟨?_, rfl⟩
  rw [Obj.enthalpyRT, Obj.pmEnthalpy]; field_simp

/-- The partial molar entropy is that of the standard state minus `R` times the logarithm of the coverage. -/
theorem pmEntropy_std {o : Obj} (h : At o o.T) (hR : o.d.R ≠ 0) (hr : 0 < o.d.thetaRef) {k : ℕ}
    (hc : Obj.small ≤ coverages o.d o.X k) :
    o.pmEntropy k = o.d.R * o.entropyR k - o.d.R * Real.log (coverages o.d o.X k) ∧
    o.d.R * o.entropyR k = o.s0 k + o.sCov k - o.d.R * Real.log (1 / o.d.thetaRef) := by
  have hp : 0 < coverages o.d o.X k := lt_of_lt_of_le (by rw [Obj.small]; positivity) hc
  rw [Obj.pmEntropy, Obj.entropyR, h.cov, max_eq_left hc, Real.log_div hp.ne' hr.ne', one_div o.d.thetaRef, Real.log_inv,
    Obj.entropy]
  split_ifs with c
  · constructor
    · field_simp; ring
    · field_simp
  · rw [not_not] at c
    rw [c, Real.log_one]
    constructor
    · field_simp; ring
    · field_simp; ring

/-- Coverages: share of the sites occupied, times the sum of the mole fractions. -/
theorem coverages_eq (d : Data) (X : ℕ → ℝ) (k : ℕ) :
    coverages d X k = X k * d.size k / (∑ i ∈ range d.n, X i * d.size i) * ∑ i ∈ range d.n, X i := by
  rw [coverages]; ring

/-- Species that occupy one site: the activity is the coverage. -/
theorem activity_single {o : Obj} (hs : ∀ k < o.d.n, o.d.size k = 1) (hX : ∑ k ∈ range o.d.n, o.X k = 1) {n0 : ℝ} (hn : n0 ≠ 0)
    {k : ℕ} (hk : k < o.d.n) : o.activity n0 k = coverages o.d o.X k := by
  have : ∑ i ∈ range o.d.n, o.X i * o.d.size i = 1 := by
    rw [← hX]; exact Finset.sum_congr rfl fun i hi => by rw [hs i (mem_range.1 hi), mul_one]
  rw [Obj.activity, coverages, hs k hk, this, hX]
  field_simp

/-- In general activities and coverages differ by the mean number of sites. -/
theorem activity_coverage {o : Obj} (hX : ∑ k ∈ range o.d.n, o.X k = 1) (hs : ∑ i ∈ range o.d.n, o.X i * o.d.size i ≠ 0) {n0 : ℝ}
    (hn : n0 ≠ 0) {k : ℕ} (hk : o.d.size k ≠ 0) :
    o.activity n0 k = coverages o.d o.X k * ∑ i ∈ range o.d.n, o.X i * o.d.size i := by
  rw [Obj.activity, coverages, hX]
  field_simp

/-- Gibbs energy: enthalpy minus `T` times entropy is the sum of the chemical potentials. -/
theorem gibbs_mole {o : Obj} (h : At o o.T) :
    o.enthalpyMole - o.T * o.entropyMole = ∑ k ∈ range o.d.n, o.X k * o.chemPot k := by
  rw [Obj.enthalpyMole, Obj.entropyMole, Finset.mul_sum, ← Finset.sum_sub_distrib]
  refine Finset.sum_congr rfl fun k _ => ?_
  rw [Obj.chemPot, h.mu, h.h, h.s]; ring

theorem entropy_mole (o : Obj) : o.entropyMole = ∑ k ∈ range o.d.n, o.X k * o.pmEntropy k := rfl
theorem enthalpy_mole (o : Obj) : o.enthalpyMole = ∑ k ∈ range o.d.n, o.X k * o.pmEnthalpy k := rfl
theorem cp_mole (o : Obj) : o.cpMole = ∑ k ∈ range o.d.n, o.X k * o.pmCp k := rfl

theorem forK_deriv {α : Type} (key : α → ℕ) (f f' : α → ℝ → ℝ) (k : ℕ) {T : ℝ} : ∀ (l : List α),
    (∀ p ∈ l, HasDerivAt (f p) (f' p T) T) →
    HasDerivAt (fun T => forK key (fun p => f p T) k l) (forK key (fun p => f' p T) k l) T
  | [], _ => by simp only [forK, List.map_nil, List.sum_nil]; exact hasDerivAt_const _ _
  | p :: l, h => by
    simp only [forK_cons]
    refine HasDerivAt.add ?_ (forK_deriv key f f' k l fun q hq => h q (by simp [hq]))
    split_ifs
    · exact h p (by simp)
    · exact hasDerivAt_const _ _

/-- The heat capacity is the temperature derivative of the enthalpy at fixed composition. -/
theorem specH_deriv (d : Data) (θ : ℕ → ℝ) (k : ℕ) {T : ℝ} (hT : 0 < T) :
    HasDerivAt (fun T => specH d T θ k) (specCp d T θ k) T := by
  simp only [specH, specCp]
  refine HasDerivAt.const_add _ ?_
  refine forK_deriv Heat.k (fun p T => (T * (p.a * Real.log T - p.a + p.b) - 298.15 * (p.a * Real.log 298.15 - p.a + p.b)) *
    θ p.j ^ 2) (fun p T => (p.a * Real.log T + p.b) * θ p.j ^ 2) k d.heats fun p _ => ?_
  have l := Real.hasDerivAt_log hT.ne'
  have := (((hasDerivAt_id' T).mul (((l.const_mul p.a).sub_const p.a).add_const p.b)).sub_const
    (298.15 * (p.a * Real.log 298.15 - p.a + p.b))).mul_const (θ p.j ^ 2)
  refine this.congr_deriv ?_
  field_simp
  ring

/-- The heat capacity over temperature is the temperature derivative of the entropy at fixed composition. -/
theorem specS_deriv (d : Data) (θ : ℕ → ℝ) (k : ℕ) {T : ℝ} (hT : 0 < T) :
    HasDerivAt (fun T => specS d T θ k) (specCp d T θ k / T) T := by
  have e : specCp d T θ k / T = forK Heat.k (fun p => (p.a * Real.log T + p.b) * θ p.j ^ 2 / T) k d.heats := by
    rw [specCp]
    generalize d.heats = l
    induction l with
    | nil => simp [forK]
    | cons p l ih => rw [forK_cons, forK_cons, add_div, ih]; congr 1; split_ifs <;> simp
  rw [e]
  simp only [specS]
  refine HasDerivAt.const_add _ ?_
  refine forK_deriv Heat.k (fun p T => (Real.log T * (p.a * Real.log T + 2 * p.b) -
    Real.log 298.15 * (p.a * Real.log 298.15 + 2 * p.b)) / 2 * θ p.j ^ 2)
    (fun p T => (p.a * Real.log T + p.b) * θ p.j ^ 2 / T) k d.heats fun p _ => ?_
  have l := Real.hasDerivAt_log hT.ne'
  have := (((l.mul ((l.const_mul p.a).add_const (2 * p.b))).sub_const
    (Real.log 298.15 * (p.a * Real.log 298.15 + 2 * p.b))).div_const 2).mul_const (θ p.j ^ 2)
  refine this.congr_deriv ?_
  field_simp
  ring

/-- At 298.15 K the heat capacity contributes nothing. -/
theorem spec_298 (d : Data) (θ : ℕ → ℝ) (k : ℕ) :
    specH d 298.15 θ k = forK Poly.k (fun p => pv p.h (θ p.j)) k d.polys +
      forK Interp.k (fun p => (interp p.h (θ p.j)).getD 0) k d.interps ∧
    specS d 298.15 θ k = forK Poly.k (fun p => pv p.s (θ p.j)) k d.polys +
      forK Interp.k (fun p => (interp p.s (θ p.j)).getD 0) k d.interps := by
  simp [specH, specS, forK]

/-- Enthalpy, entropy and chemical potential as functions of temperature at fixed composition: the derivatives are heat capacity,
heat capacity over temperature, and minus the entropy, if this holds for the reference state. -/
theorem temperature_derivatives (d : Data) (θ : ℕ → ℝ) (k : ℕ) {T : ℝ} (hT : 0 < T)
    (rh : HasDerivAt (fun T => d.h0 T k) (d.cp0 T k) T) (rs : HasDerivAt (fun T => d.s0 T k) (d.cp0 T k / T) T) :
    HasDerivAt (fun T => d.h0 T k + specH d T θ k) (d.cp0 T k + specCp d T θ k) T ∧
    HasDerivAt (fun T => d.s0 T k + specS d T θ k) ((d.cp0 T k + specCp d T θ k) / T) T ∧
    HasDerivAt (fun T => d.h0 T k - T * d.s0 T k + (specH d T θ k - T * specS d T θ k)) (-(d.s0 T k + specS d T θ k)) T := by
  have a := specH_deriv d θ k hT
  have b := specS_deriv d θ k hT
  refine ⟨rh.add a, (rs.add b).congr_deriv (by ring), ?_⟩
  refine ((rh.sub ((hasDerivAt_id' T).mul rs)).add (a.sub ((hasDerivAt_id' T).mul b))).congr_deriv ?_
  field_simp
  ring

/-! ## Counterexamples -/

/-- One linear dependence of species 0 on species 1. -/
noncomputable def demo (h s : ℝ) : Data where
  n := 2
  size := fun _ => 1
  R := 1
  thetaRef := 1
  h0 := fun _ _ => 0
  s0 := fun _ _ => 0
  cp0 := fun _ _ => 0
  polys := [linear 0 1 (some h) (some s)]
  interps := []
  heats := []

/-- Half coverage by each species. -/
noncomputable def half : ℕ → ℝ := fun _ => 1 / 2

theorem demo_dom (h s : ℝ) (θ : ℕ → ℝ) : Dom (demo h s) θ := by
  refine ⟨fun p hp => ?_, fun p hp => by simp [demo] at hp⟩
  simp only [demo, List.mem_singleton] at hp
  rw [hp]
  simp [linear]

theorem demo_cov (h s : ℝ) (k : ℕ) : coverages (demo h s) half k = 1 / 2 := by
  simp [coverages, demo, half]

theorem demo_H (h s T : ℝ) (θ : ℕ → ℝ) : specH (demo h s) T θ 0 = h * θ 1 ∧ specS (demo h s) T θ 0 = s * θ 1 := by
  simp [specH, specS, demo, forK, linear, pv]

/-- The object after a query at 300 K, with the temperature and stored temperature changed afterwards. -/
noncomputable def after (T tlast : ℝ) : Obj where
  d := demo 0 2
  T := T
  X := half
  num := 0
  tlast := tlast
  numLast := 0
  cov := coverages (demo 0 2) half
  hCov := specH (demo 0 2) 300 (coverages (demo 0 2) half)
  sCov := specS (demo 0 2) 300 (coverages (demo 0 2) half)
  cpCov := specCp (demo 0 2) 300 (coverages (demo 0 2) half)
  muCov := fun k => specH (demo 0 2) 300 (coverages (demo 0 2) half) k - 300 * specS (demo 0 2) 300 (coverages (demo 0 2) half) k
  h0 := (demo 0 2).h0 tlast
  s0 := (demo 0 2).s0 tlast
  cp0 := (demo 0 2).cp0 tlast
  mu0 := fun k => (demo 0 2).h0 tlast k - tlast * (demo 0 2).s0 tlast k

theorem after_query (nd : Bool) : update nd (fresh (demo 0 2) 300 half 0) = .ok (after 300 300) := by
  have hd := demo_dom 0 2 (coverages (demo 0 2) half)
  have t3 : (0 : ℝ) ≠ 300 := by norm_num
  rw [update, updateCov_spec nd (.inl (by simp [fresh])) hd]
  simp only [Outcome.bind_ok, updateRef, fresh, ne_eq, t3, not_false_eq_true, if_true]
  rfl

/-- Refuted: after a query at one temperature and a query of reference state properties at another, the chemical potential is
that of the first temperature. -/
theorem stale_chemPot (nd : Bool) : ∃ o o', run nd (fresh (demo 0 2) 300 half 0) [.query, .setT 400, .ref] = .ok o ∧
    update nd o = .ok o' ∧ o'.T = 400 ∧ o'.chempot 0 = -300 ∧ ¬ At o' 400 := by
  have t4 : (300 : ℝ) ≠ 400 := by norm_num
  have p4 : (0 : ℝ) < 400 := by norm_num
  refine ⟨after 400 400, after 400 400, ?_, ?_, rfl, ?_, ?_⟩
  · simp only [run, step, after_query, if_pos p4]
    simp only [after, updateRef, ne_eq, t4, not_false_eq_true, if_true]
  · rw [update, updateCov, if_neg (by simp [after]), Outcome.bind_ok, updateRef, if_neg (by simp [after])]
  · simp only [Obj.chempot, after, (demo_H 0 2 _ _).1, (demo_H 0 2 _ _).2, demo_cov]
    norm_num [demo]
  · intro h
    have := h.mu 0
    simp only [Obj.chempot, after, (demo_H 0 2 _ _).1, (demo_H 0 2 _ _).2, demo_cov] at this
    norm_num [demo] at this

/-- Without the query of reference state properties the result is right. -/
example (nd : Bool) : ∃ o', update nd (after 400 300) = .ok o' ∧ o'.chempot 0 = -400 := by
  have i : Inv (after 400 300) := ⟨by simp [after], le_rfl, .inr ⟨fun _ => rfl, fun _ => rfl, fun _ => rfl, fun _ => rfl⟩,
    fun _ => ⟨300, fun _ => rfl, fun _ => rfl, fun _ => rfl, fun _ => rfl, fun _ => rfl⟩⟩
  have c : (after 400 300).numLast ≠ (after 400 300).num ∨ (after 400 300).tlast ≠ (after 400 300).T := by
    right; norm_num [after]
  have hd := demo_dom 0 2 (coverages (demo 0 2) half)
  have e : ∃ o', update nd (after 400 300) = .ok o' := by
    rw [update, updateCov_spec nd c hd]; exact ⟨_, rfl⟩
  obtain ⟨o', e⟩ := e
  refine ⟨o', e, ?_⟩
  obtain ⟨t, ht, _, cv, hd', _, hX, _, _, _, _, _, _, f⟩ := update_cases nd i hd e
  rw [Obj.chempot, f, cv.2.2.2.2, hd', hX, ht c]
  simp only [after, (demo_H 0 2 _ _).1, (demo_H 0 2 _ _).2, demo_cov]
  norm_num [demo]

/-- A constant dependency. -/
noncomputable def extra : Interp := ⟨0, 1, [(0, 7), (1, 7)], [(0, 0), (1, 0)]⟩

/-- Refuted: a dependency added after a query has no effect until the state changes. -/
theorem stale_added (nd : Bool) : ∃ o o', run nd (fresh (demo 0 2) 300 half 0) [.query, .add extra] = .ok o ∧
    update nd o = .ok o' ∧ extra ∈ o'.d.interps ∧ o'.enthalpy 0 = 0 ∧ ¬ At o' 300 := by
  have acc : Accept extra := by simp [Accept, extra]
  refine ⟨{ after 300 300 with d := { demo 0 2 with interps := [extra] } },
    { after 300 300 with d := { demo 0 2 with interps := [extra] } }, ?_, ?_, ?_, ?_, ?_⟩
  · simp only [run, step, after_query, if_pos acc]
    rfl
  · rw [update, updateCov, if_neg (by simp [after]), Outcome.bind_ok, updateRef, if_neg (by simp [after])]
  · simp
  · simp only [Obj.enthalpy, after, (demo_H 0 2 _ _).1]
    simp [demo]
  · intro h
    have := h.h 0
    have c : coverages { demo 0 2 with interps := [extra] } half 1 = 1 / 2 := by simp [coverages, demo, half]
    simp only [Obj.enthalpy, after, (demo_H 0 2 _ _).1] at this
    simp only [specH, forK, extra, demo, linear, pv, List.map_cons, List.map_nil, List.sum_cons, List.sum_nil] at this
    norm_num [interp, bracket, coverages, half] at this

/-- Refuted: a coverage of one. The update throws, or reads beyond the end of the table if assertions are disabled. -/
theorem full_coverage (nd : Bool) {o : Obj} (hne : o.numLast ≠ o.num ∨ o.tlast ≠ o.T) (hl : Long o.d) {p : Interp}
    (hp : p ∈ o.d.interps) (hs : Sorted p.h) (ha : Accept p) (h1 : coverages o.d o.X p.j = 1) :
    update nd o = if nd then .ub else .throw := by
  refine update_outside nd hne hl fun h => ?_
  have := ((interp_isSome_iff hs ha.1 ha.2.1 _).1 (h p hp).1).2
  rw [h1] at this
  exact lt_irrefl _ this

/-- A coverage of one occurs: the species alone on the surface. -/
example : coverages (demo 0 2) (fun k => if k = 1 then 1 else 0) 1 = 1 := by
  simp [coverages, demo]

/-- Reference functions of a constant heat capacity. -/
noncomputable def demo2 : Data := { demo 0 0 with h0 := fun T _ => T, s0 := fun T _ => Real.log T, cp0 := fun _ _ => 1, polys := [] }

/-- Refuted: invalidation adds a constant to the stored temperature. If the temperature was raised by this constant the reference
functions are not updated. -/
theorem invalidate_stale (nd : Bool) : ∃ o o', run nd (fresh demo2 300 half 0) [.query, .setT 300.1234, .invalidate] = .ok o ∧
    update nd o = .ok o' ∧ o'.T = 300.1234 ∧ o'.enthalpy 0 = 300 ∧ ¬ At o' 300.1234 := by
  have z : ∀ T θ k, specH demo2 T θ k = 0 := fun T θ k => by simp [specH, demo2, demo, forK]
  have z2 : ∀ T θ k, specS demo2 T θ k = 0 := fun T θ k => by simp [specS, demo2, demo, forK]
  have hd : ∀ θ, Dom demo2 θ := fun θ => ⟨fun p hp => by simp [demo2] at hp, fun p hp => by simp [demo2, demo] at hp⟩
  have t3 : (0 : ℝ) ≠ 300 := by norm_num
  have p4 : (0 : ℝ) < 300.1234 := by norm_num
  have e1 : ∃ o1, update nd (fresh demo2 300 half 0) = .ok o1 ∧ o1.d = demo2 ∧ o1.X = half ∧ o1.T = 300 ∧ o1.tlast = 300 ∧
      o1.num = 0 ∧ o1.numLast = 0 ∧ o1.h0 0 = 300 := by
    rw [update, updateCov_spec nd (.inl (by simp [fresh])) (hd _)]
    simp only [Outcome.bind_ok, updateRef, fresh, ne_eq, t3, not_false_eq_true, if_true]
    exact ⟨_, rfl, rfl, rfl, rfl, rfl, rfl, rfl, rfl⟩
  obtain ⟨o1, e1, d1, x1, T1, tl1, n1, nl1, h1⟩ := e1
  set o2 : Obj := { o1 with T := 300.1234, num := o1.num + 1, tlast := o1.tlast + 0.1234 } with ho2
  have r : run nd (fresh demo2 300 half 0) [.query, .setT 300.1234, .invalidate] = .ok o2 := by
    simp only [run, step, e1, if_pos p4]
    rfl
  have hd2 : Dom o2.d (coverages o2.d o2.X) := by
    have : o2.d = demo2 := d1
    rw [this]; exact hd _
  have c : o2.numLast ≠ o2.num ∨ o2.tlast ≠ o2.T := by
    left
    simp only [ho2, nl1, n1]; norm_num
  have tt : o2.tlast = o2.T := by simp only [ho2, tl1]; norm_num
  have e2 := updateCov_spec nd c hd2
  have dd : o2.d = demo2 := d1
  have hh : o2.h0 0 = 300 := h1
  have u : ∃ o3, update nd o2 = .ok o3 ∧ o3.T = 300.1234 ∧ o3.d = demo2 ∧ o3.h0 0 = 300 ∧ o3.hCov 0 = 0 := by
    rw [update, e2, Outcome.bind_ok, updateRef, if_neg (not_not.2 tt)]
    refine ⟨_, rfl, rfl, dd, hh, ?_⟩
    simp only [dd, z]
  obtain ⟨o3, u, T3, d3, h3, v3⟩ := u
  have en : o3.enthalpy 0 = 300 := by rw [Obj.enthalpy, h3, v3]; norm_num
  refine ⟨o2, o3, r, u, T3, en, fun h => ?_⟩
  have q := h.h 0
  rw [en, d3, z] at q
  norm_num [demo2] at q

/-- Chemical potentials of the two species of `demo` at mole fractions `x` and `1 - x` and unit temperature. -/
theorem demo_chemPot {c x : ℝ} (h0 : Obj.small ≤ x) (h1 : Obj.small ≤ 1 - x) {o : Obj} (hd : o.d = demo c 0) (hT : o.T = 1)
    (hX : o.X = fun k => if k = 0 then x else 1 - x) (h : At o o.T) :
    o.chemPot 0 = c * (1 - x) + Real.log x ∧ o.chemPot 1 = Real.log (1 - x) := by
  have cv : ∀ k, k < 2 → coverages (demo c 0) (fun k => if k = 0 then x else 1 - x) k = if k = 0 then x else 1 - x := by
    intro k _
    simp [coverages, demo, Finset.sum_range_succ]
  rw [hT] at h
  have m0 := h.mu 0
  have m1 := h.mu 1
  have c0 := h.cov 0
  have c1 := h.cov 1
  rw [hd, hX, cv _ (by norm_num)] at c0 c1
  rw [hd, hX] at m0 m1
  rw [(demo_H c 0 _ _).1, (demo_H c 0 _ _).2, cv _ (by norm_num)] at m0
  simp only [specH, specS, forK, demo, linear, List.map_cons, List.map_nil, List.sum_cons, List.sum_nil] at m1
  norm_num [demo] at m0 m1 c0 c1
  rw [Obj.chemPot, Obj.chemPot, c0, c1, m0, m1, hd, hT, max_eq_left h0, max_eq_left h1]
  simp [demo]

/-- Refuted: the Gibbs-Duhem relation. The chemical potentials are not derivatives of a Gibbs energy. -/
theorem gibbs_duhem_fails {c x : ℝ} (hc : c ≠ 0) (h0 : 0 < x) (h1 : x < 1) : ∃ a b,
    HasDerivAt (fun x => c * (1 - x) + Real.log x) a x ∧ HasDerivAt (fun x => Real.log (1 - x)) b x ∧ x * a + (1 - x) * b ≠ 0 := by
  have d1 : (1 : ℝ) - x ≠ 0 := by linarith
  have l := (hasDerivAt_id' x).const_sub 1
  refine ⟨c * -1 + x⁻¹, -1 / (1 - x), (l.const_mul c).add (Real.hasDerivAt_log h0.ne'), l.log d1, ?_⟩
  have : x * (c * -1 + x⁻¹) + (1 - x) * (-1 / (1 - x)) = -(c * x) := by field_simp; ring
  rw [this, neg_ne_zero]
  exact mul_ne_zero hc h0.ne'

/-- The assumptions of `current` can be met. -/
example (nd : Bool) : run nd (fresh (demo 0 2) 300 half 0) [.query, .setX half, .setT 400] =
    .ok { after 400 300 with num := 1 } := by
  have p4 : (0 : ℝ) < 400 := by norm_num
  simp only [run, step, after_query, if_pos p4]
  rfl

end Verif.Thermo.CovSurf
