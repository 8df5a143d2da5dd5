import Verif.Basic
import Mathlib.Analysis.Calculus.Deriv.Add
import Mathlib.Analysis.Calculus.Deriv.Mul
import Mathlib.Tactic.Linarith
import Mathlib.Tactic.FieldSimp
import Mathlib.Tactic.Ring
import Mathlib.Tactic.NormNum
import Mathlib.Tactic.SplitIfs

/-!
# Tabulated functor (C21)

Model of `Tabulated1` (src/numerics/Func1.cpp:313-411).  A table of `n` nodes is given by
`T F : ℕ → ℝ`; only the entries below `n` matter.
-/

namespace Verif.Func1Tab

/-- A tabulated functor: `m_tvec`, `m_fvec`, `m_isLinear`
(include/cantera/numerics/Func1.h:336-385). -/
structure Tab where
  lin : Bool
  n : ℕ
  T : ℕ → ℝ
  F : ℕ → ℝ

open Classical in
/-- The check of the constructors (src/numerics/Func1.cpp:318-323, 342-347): an exception if some
time is larger than the next one; equal times pass. -/
noncomputable def make (lin : Bool) (n : ℕ) (T F : ℕ → ℝ) : Outcome Tab :=
  if n = 0 then .ub      -- begin()+1 of an empty vector
  else if ∃ i, i + 1 < n ∧ T (i + 1) < T i then .throw
  else .ok { lin := lin, n := n, T := T, F := F }

open Classical in
/-- The loop `while (t > m_tvec[ix+1]) ix++` (src/numerics/Func1.cpp:372-375), at most `fuel`
steps; it is entered only with `t` below the last node, so `fuel = n` is never used up
(`scan_spec`). -/
noncomputable def scan (T : ℕ → ℝ) (t : ℝ) : ℕ → ℕ → ℕ
  | 0, ix => ix
  | fuel + 1, ix => if T (ix + 1) < t then scan T t fuel (ix + 1) else ix

open Classical in
/-- `Tabulated1::eval` (src/numerics/Func1.cpp:364-385). -/
noncomputable def Tab.eval (b : Tab) (t : ℝ) : ℝ :=
  if t ≤ b.T 0 then b.F 0
  else if b.T (b.n - 1) ≤ t then b.F (b.n - 1)
  else
    let ix := scan b.T t b.n 0
    if b.lin then b.F ix + (b.F (ix + 1) - b.F ix) / (b.T (ix + 1) - b.T ix) * (t - b.T ix)
    else b.F ix

open Classical in
/-- `Tabulated1::derivative` (src/numerics/Func1.cpp:387-411): a table of the kind "previous".
(For two equal times the C++ slope is infinite or NaN; the theorems are about strictly increasing
tables.) -/
noncomputable def Tab.deriv (b : Tab) : Tab :=
  if b.lin then
    { lin := false
      n := b.n
      T := b.T
      F := fun i => if i + 1 < b.n then (b.F (i + 1) - b.F i) / (b.T (i + 1) - b.T i) else 0 }
  else
    { lin := false
      n := 2
      T := fun i => if i = 0 then b.T 0 else b.T (b.n - 1)
      F := fun _ => 0 }

/-! ## Proofs -/

/-- Times strictly increase. -/
def Tab.Strict (b : Tab) : Prop := 0 < b.n ∧ ∀ i, i + 1 < b.n → b.T i < b.T (i + 1)

theorem strict_lt {b : Tab} (h : b.Strict) {i j : ℕ} (hij : i < j) (hj : j < b.n) :
    b.T i < b.T j := by
  induction j with
  | zero => omega
  | succ j ih =>
    rcases Nat.lt_succ_iff_lt_or_eq.mp hij with h1 | h1
    · exact (ih h1 (by omega)).trans (h.2 j hj)
    · subst h1; exact h.2 i hj

theorem strict_le {b : Tab} (h : b.Strict) {i j : ℕ} (hij : i ≤ j) (hj : j < b.n) :
    b.T i ≤ b.T j := by
  rcases hij.lt_or_eq with h1 | h1
  · exact (strict_lt h h1 hj).le
  · rw [h1]

/-- Whatever table: the constructor accepts exactly the tables with non-decreasing times. -/
theorem make_ok_iff (lin : Bool) (n : ℕ) (T F : ℕ → ℝ) (hn : 0 < n) :
    make lin n T F = .ok { lin := lin, n := n, T := T, F := F } ↔
      ∀ i, i + 1 < n → T i ≤ T (i + 1) := by
  unfold make
  rw [if_neg (by omega)]
  split_ifs with h
  · constructor
    · intro h'; cases h'
    · intro h'
      obtain ⟨i, hi, hlt⟩ := h
      exact absurd (h' i hi) (not_le.mpr hlt)
  · simp only [true_iff]
    intro i hi
    by_contra hc
    exact h ⟨i, hi, not_le.mp hc⟩

example : make true 2 (fun _ => 1) (fun i => (i : ℝ)) =
    .ok { lin := true, n := 2, T := fun _ => 1, F := fun i => (i : ℝ) } :=
  (make_ok_iff true 2 _ _ (by norm_num)).mpr (fun _ _ => le_refl _)

theorem scan_spec (T : ℕ → ℝ) (t : ℝ) (m : ℕ) (hm : t ≤ T m) :
    ∀ fuel ix, ix < m → m ≤ ix + fuel → T ix < t →
      scan T t fuel ix < m ∧ T (scan T t fuel ix) < t ∧ t ≤ T (scan T t fuel ix + 1)
  | 0, ix, h1, h2, _ => by omega
  | fuel + 1, ix, h1, h2, h3 => by
    rw [scan]
    by_cases h : T (ix + 1) < t
    · rw [if_pos h]
      rcases Nat.lt_or_ge (ix + 1) m with h4 | h4
      · exact scan_spec T t m hm fuel (ix + 1) h4 (by omega) h
      · have : ix + 1 = m := by omega
        rw [this] at h
        exact absurd h (not_lt.mpr hm)
    · rw [if_neg h]
      exact ⟨h1, h3, not_lt.mp h⟩

/-- Inside the table (whatever the order of the times), the loop stops at an interval which
contains the argument: no read past the table and no division by zero. -/
theorem scan_interval (b : Tab) (t : ℝ) (h0 : b.T 0 < t) (h1 : t < b.T (b.n - 1)) :
    scan b.T t b.n 0 + 1 < b.n ∧ b.T (scan b.T t b.n 0) < t ∧ t ≤ b.T (scan b.T t b.n 0 + 1) := by
  have hn : 0 < b.n - 1 := by
    rcases Nat.eq_zero_or_pos (b.n - 1) with h | h
    · rw [h] at h1; exact absurd h0 (not_lt.mpr h1.le)
    · exact h
  obtain ⟨h2, h3, h4⟩ := scan_spec b.T t (b.n - 1) h1.le b.n 0 hn (by omega) h0
  exact ⟨by omega, h3, h4⟩

example : ∃ b : Tab, ∃ t, b.T 0 < t ∧ t < b.T (b.n - 1) :=
  ⟨{ lin := true, n := 2, T := fun i => (i : ℝ), F := fun _ => 0 }, 1 / 2, by norm_num,
    by norm_num⟩

/-- In a strictly increasing table the interval found is the only one containing the argument. -/
theorem scan_eq {b : Tab} (h : b.Strict) {t : ℝ} {i : ℕ} (hi : i + 1 < b.n) (h0 : b.T i < t)
    (h1 : t ≤ b.T (i + 1)) (hl : t < b.T (b.n - 1)) : scan b.T t b.n 0 = i := by
  have h00 : b.T 0 < t := lt_of_le_of_lt (strict_le h (Nat.zero_le i) (by omega)) h0
  obtain ⟨k1, k2, k3⟩ := scan_interval b t h00 hl
  generalize scan b.T t b.n 0 = k at *
  rcases lt_trichotomy k i with hk | hk | hk
  · have := strict_le h (show k + 1 ≤ i by omega) (by omega)
    linarith
  · exact hk
  · have := strict_le h (show i + 1 ≤ k by omega) (by omega)
    linarith

/-- Left of the table the value is the first one. -/
theorem eval_left (b : Tab) {t : ℝ} (h : t ≤ b.T 0) : b.eval t = b.F 0 := by
  unfold Tab.eval; rw [if_pos h]

example : ∃ b : Tab, ∃ t, t ≤ b.T 0 :=
  ⟨{ lin := true, n := 1, T := fun _ => 0, F := fun _ => 0 }, -1, by norm_num⟩

/-- Right of the table the value is the last one. -/
theorem eval_right {b : Tab} (h : b.Strict) {t : ℝ} (ht : b.T (b.n - 1) ≤ t) :
    b.eval t = b.F (b.n - 1) := by
  unfold Tab.eval
  by_cases h0 : t ≤ b.T 0
  · rw [if_pos h0]
    have h1 : b.T (b.n - 1) ≤ b.T 0 := ht.trans h0
    have hn := h.1
    rcases Nat.eq_zero_or_pos (b.n - 1) with h2 | h2
    · rw [h2]
    · exact absurd (strict_lt h h2 (by omega)) (not_lt.mpr h1)
  · rw [if_neg h0, if_pos ht]

/-- A concrete strictly increasing table with the nodes (0,1), (1,3), (2,0). -/
noncomputable def ex (lin : Bool) : Tab :=
  { lin := lin
    n := 3
    T := fun i => (i : ℝ)
    F := fun i => if i = 0 then 1 else if i = 1 then 3 else 0 }

theorem ex_strict (lin : Bool) : (ex lin).Strict := by
  refine ⟨by norm_num [ex], fun i _ => ?_⟩
  simp [ex]

example : (ex true).eval 5 = 0 := by
  have h := eval_right (ex_strict true) (t := 5) (by norm_num [ex])
  rw [h]; norm_num [ex]

/-- Within an interval (its left end excluded) the value is the linear interpolation between the
two nodes for a linear table, and the value of the left node for a "previous" table. -/
theorem eval_inside {b : Tab} (h : b.Strict) {t : ℝ} {i : ℕ} (hi : i + 1 < b.n) (h0 : b.T i < t)
    (h1 : t ≤ b.T (i + 1)) (hl : t < b.T (b.n - 1)) :
    b.eval t = if b.lin then
        b.F i + (b.F (i + 1) - b.F i) / (b.T (i + 1) - b.T i) * (t - b.T i)
      else b.F i := by
  unfold Tab.eval
  have h00 : b.T 0 < t := lt_of_le_of_lt (strict_le h (Nat.zero_le i) (by omega)) h0
  rw [if_neg (not_le.mpr h00), if_neg (not_le.mpr hl)]
  simp only [scan_eq h hi h0 h1 hl]

/-- The linear formula holds on the whole closed interval. -/
theorem eval_lin {b : Tab} (h : b.Strict) (hlin : b.lin = true) {t : ℝ} {i : ℕ}
    (hi : i + 1 < b.n) (h0 : b.T i ≤ t) (h1 : t ≤ b.T (i + 1)) :
    b.eval t = b.F i + (b.F (i + 1) - b.F i) / (b.T (i + 1) - b.T i) * (t - b.T i) := by
  have hd : b.T (i + 1) - b.T i ≠ 0 := sub_ne_zero.mpr (h.2 i hi).ne'
  rcases h0.lt_or_eq with h0 | h0
  · rcases lt_or_ge t (b.T (b.n - 1)) with hl | hl
    · rw [eval_inside h hi h0 h1 hl, hlin, if_pos rfl]
    · -- the right end of the last interval
      have hi1 : i + 1 = b.n - 1 := by
        by_contra hc
        have := strict_lt h (show i + 1 < b.n - 1 by omega) (by omega)
        linarith
      have ht : t = b.T (i + 1) := by rw [hi1] at h1 ⊢; exact le_antisymm h1 hl
      rw [eval_right h hl, ← hi1, ht, div_mul_cancel₀ _ hd]; ring
  · -- the left end
    subst h0
    rw [sub_self, mul_zero, add_zero]
    rcases Nat.eq_zero_or_pos i with h2 | h2
    · subst h2; exact eval_left b (le_refl _)
    · obtain ⟨k, rfl⟩ : ∃ k, i = k + 1 := ⟨i - 1, by omega⟩
      have hk := h.2 k (by omega)
      have hl : b.T (k + 1) < b.T (b.n - 1) := strict_lt h (by omega) (by omega)
      rw [eval_inside h (i := k) (by omega) hk (le_refl _) hl, hlin, if_pos rfl,
        div_mul_cancel₀ _ (sub_ne_zero.mpr hk.ne')]
      ring

example : (ex true).eval (1 / 2) = 2 := by
  rw [eval_lin (ex_strict true) rfl (i := 0) (by norm_num [ex]) (by norm_num [ex])
    (by norm_num [ex])]
  norm_num [ex]

/-- A linear table passes through all of its nodes. -/
theorem eval_node {b : Tab} (h : b.Strict) (hlin : b.lin = true) {i : ℕ} (hi : i < b.n) :
    b.eval (b.T i) = b.F i := by
  rcases Nat.lt_or_ge (i + 1) b.n with h1 | h1
  · rw [eval_lin h hlin h1 (le_refl _) (h.2 i h1).le]; ring
  · have : i = b.n - 1 := by omega
    subst this
    exact eval_right h (le_refl _)

example : (ex true).eval 1 = 3 := by
  have h := eval_node (ex_strict true) rfl (i := 1) (by norm_num [ex])
  have h1 : (ex true).T 1 = 1 := by norm_num [ex]
  rw [h1] at h
  rw [h]; norm_num [ex]

/-- Inside the table the value of a linear or "previous" table lies between the values of the two
neighbouring nodes. -/
theorem eval_between {b : Tab} (h : b.Strict) {t : ℝ} {i : ℕ} (hi : i + 1 < b.n)
    (h0 : b.T i < t) (h1 : t ≤ b.T (i + 1)) :
    min (b.F i) (b.F (i + 1)) ≤ b.eval t ∧ b.eval t ≤ max (b.F i) (b.F (i + 1)) := by
  rcases Bool.eq_false_or_eq_true b.lin with hlin | hlin
  · rw [eval_lin h hlin hi h0.le h1]
    have hd : 0 < b.T (i + 1) - b.T i := sub_pos.mpr (h.2 i hi)
    have hs0 : 0 ≤ (t - b.T i) / (b.T (i + 1) - b.T i) := div_nonneg (by linarith) hd.le
    have hs1 : (t - b.T i) / (b.T (i + 1) - b.T i) ≤ 1 := (div_le_one hd).mpr (by linarith)
    have e : b.F i + (b.F (i + 1) - b.F i) / (b.T (i + 1) - b.T i) * (t - b.T i) =
        b.F i + (b.F (i + 1) - b.F i) * ((t - b.T i) / (b.T (i + 1) - b.T i)) := by ring
    rw [e]
    generalize (t - b.T i) / (b.T (i + 1) - b.T i) = s at *
    have a1 := min_le_left (b.F i) (b.F (i + 1))
    have a2 := min_le_right (b.F i) (b.F (i + 1))
    have a3 := le_max_left (b.F i) (b.F (i + 1))
    have a4 := le_max_right (b.F i) (b.F (i + 1))
    generalize min (b.F i) (b.F (i + 1)) = m at *
    generalize max (b.F i) (b.F (i + 1)) = M at *
    have p1 := mul_le_mul_of_nonneg_left a1 (sub_nonneg.mpr hs1)
    have p2 := mul_le_mul_of_nonneg_left a2 hs0
    have p3 := mul_le_mul_of_nonneg_left a3 (sub_nonneg.mpr hs1)
    have p4 := mul_le_mul_of_nonneg_left a4 hs0
    constructor <;> nlinarith
  · rcases lt_or_ge t (b.T (b.n - 1)) with hl | hl
    · rw [eval_inside h hi h0 h1 hl, hlin, if_neg (by simp)]
      exact ⟨min_le_left _ _, le_max_left _ _⟩
    · have hi1 : i + 1 = b.n - 1 := by
        by_contra hc
        have := strict_lt h (show i + 1 < b.n - 1 by omega) (by omega)
        linarith
      rw [eval_right h hl, ← hi1]
      exact ⟨min_le_right _ _, le_max_right _ _⟩

example : ∃ t, (ex true).T 0 < t ∧ t ≤ (ex true).T (0 + 1) := ⟨1, by norm_num [ex], by norm_num [ex]⟩

/-- Every argument strictly inside the table lies in one of its intervals. -/
theorem inside_cases (b : Tab) {t : ℝ} (h0 : b.T 0 < t) (h1 : t < b.T (b.n - 1)) :
    ∃ i, i + 1 < b.n ∧ b.T i < t ∧ t ≤ b.T (i + 1) :=
  ⟨_, scan_interval b t h0 h1⟩

example : ∃ i, i + 1 < (ex true).n ∧ (ex true).T i < 3 / 2 ∧ 3 / 2 ≤ (ex true).T (i + 1) :=
  inside_cases (ex true) (by norm_num [ex]) (by norm_num [ex])

/-- A "previous" table does not pass through its interior nodes: at a node it still returns the
value of the node before. -/
theorem previous_node {b : Tab} (h : b.Strict) (hlin : b.lin = false) {i : ℕ}
    (hi : i + 2 < b.n) : b.eval (b.T (i + 1)) = b.F i := by
  rw [eval_inside h (by omega) (h.2 i (by omega)) (le_refl _)
    (strict_lt h (by omega) (by omega)), hlin, if_neg (by simp)]

/-- The node (1,3) of the example table is missed: the value at 1 is 1. -/
theorem previous_misses_node : (ex false).eval 1 = 1 ∧ (ex false).F 1 = 3 ∧ (ex false).T 1 = 1 := by
  have h := previous_node (ex_strict false) rfl (i := 0) (by norm_num [ex])
  have h1 : (ex false).T (0 + 1) = 1 := by norm_num [ex]
  rw [h1] at h
  refine ⟨?_, by norm_num [ex], by norm_num [ex]⟩
  rw [h]; norm_num [ex]

/-- The derivative of a "previous" table is zero everywhere. -/
theorem deriv_previous {b : Tab} (hlin : b.lin = false) (t : ℝ) : b.deriv.eval t = 0 := by
  unfold Tab.deriv
  rw [hlin, if_neg (by simp)]
  unfold Tab.eval
  simp

example : (ex false).lin = false := rfl

/-- Inside an interval the derivative functor of a linear table returns the slope. -/
theorem deriv_inside {b : Tab} (h : b.Strict) (hlin : b.lin = true) {t : ℝ} {i : ℕ}
    (hi : i + 1 < b.n) (h0 : b.T i < t) (h1 : t ≤ b.T (i + 1)) (hl : t < b.T (b.n - 1)) :
    b.deriv.eval t = (b.F (i + 1) - b.F i) / (b.T (i + 1) - b.T i) := by
  have e : b.deriv = { lin := false
                       n := b.n
                       T := b.T
                       F := fun i => if i + 1 < b.n then
                          (b.F (i + 1) - b.F i) / (b.T (i + 1) - b.T i) else 0 } := by
    unfold Tab.deriv; rw [hlin, if_pos rfl]
  have hs : b.deriv.Strict := by rw [e]; exact h
  have hT : b.deriv.T = b.T := by rw [e]
  have hN : b.deriv.n = b.n := by rw [e]
  rw [eval_inside hs (i := i) (by rw [hN]; exact hi) (by rw [hT]; exact h0)
    (by rw [hT]; exact h1) (by rw [hT, hN]; exact hl)]
  rw [e]
  simp only [Bool.false_eq_true, if_false]
  rw [if_pos hi]

/-- Right of the table the derivative functor of a linear table returns zero. -/
theorem deriv_right {b : Tab} (h : b.Strict) (hlin : b.lin = true) {t : ℝ}
    (ht : b.T (b.n - 1) ≤ t) : b.deriv.eval t = 0 := by
  have e : b.deriv = { lin := false
                       n := b.n
                       T := b.T
                       F := fun i => if i + 1 < b.n then
                          (b.F (i + 1) - b.F i) / (b.T (i + 1) - b.T i) else 0 } := by
    unfold Tab.deriv; rw [hlin, if_pos rfl]
  have hs : b.deriv.Strict := by rw [e]; exact h
  have hT : b.deriv.T = b.T := by rw [e]
  have hN : b.deriv.n = b.n := by rw [e]
  rw [eval_right hs (by rw [hT, hN]; exact ht), e]
  have := h.1
  simp only
  rw [if_neg (by omega)]

example : (ex true).T ((ex true).n - 1) ≤ 2 := by norm_num [ex]

/-- Where the derivative functor is right: inside the open intervals and to the right of the
table, and for a "previous" table also to the left of it. -/
def Tab.Reg (b : Tab) (t : ℝ) : Prop :=
  b.Strict ∧ ((∃ i, i + 1 < b.n ∧ b.T i < t ∧ t < b.T (i + 1)) ∨ b.T (b.n - 1) < t ∨
    (b.lin = false ∧ t < b.T 0))

/-- There the derivative functor returns the derivative of the interpolant. -/
theorem hasDerivAt_tab {b : Tab} {t : ℝ} (hr : b.Reg t) :
    HasDerivAt b.eval (b.deriv.eval t) t := by
  obtain ⟨h, hc⟩ := hr
  rcases hc with ⟨i, hi, h0, h1⟩ | h1 | ⟨hlin, h1⟩
  · have hl : t < b.T (b.n - 1) := lt_of_lt_of_le h1 (strict_le h (by omega) (by have := h.1; omega))
    rcases Bool.eq_false_or_eq_true b.lin with hlin | hlin
    · rw [deriv_inside h hlin hi h0 h1.le hl]
      have hd : HasDerivAt (fun s => b.F i +
          (b.F (i + 1) - b.F i) / (b.T (i + 1) - b.T i) * (s - b.T i))
          ((b.F (i + 1) - b.F i) / (b.T (i + 1) - b.T i)) t := by
        have := (((hasDerivAt_id t).sub_const (b.T i)).const_mul
          ((b.F (i + 1) - b.F i) / (b.T (i + 1) - b.T i))).const_add (b.F i)
        simpa using this
      refine hd.congr_of_eventuallyEq ?_
      filter_upwards [Ioo_mem_nhds h0 h1] with s hs
      exact eval_lin h hlin hi hs.1.le hs.2.le
    · rw [deriv_previous hlin]
      refine (hasDerivAt_const t (b.F i)).congr_of_eventuallyEq ?_
      filter_upwards [Ioo_mem_nhds h0 h1] with s hs
      have hl' : s < b.T (b.n - 1) :=
        lt_of_lt_of_le hs.2 (strict_le h (by omega) (by have := h.1; omega))
      rw [eval_inside h hi hs.1 hs.2.le hl', hlin, if_neg (by simp)]
  · have e0 : b.deriv.eval t = 0 := by
      rcases Bool.eq_false_or_eq_true b.lin with hlin | hlin
      · exact deriv_right h hlin h1.le
      · exact deriv_previous hlin t
    rw [e0]
    refine (hasDerivAt_const t (b.F (b.n - 1))).congr_of_eventuallyEq ?_
    filter_upwards [Ioi_mem_nhds h1] with s hs
    exact eval_right h (le_of_lt hs)
  · rw [deriv_previous hlin]
    refine (hasDerivAt_const t (b.F 0)).congr_of_eventuallyEq ?_
    filter_upwards [Iio_mem_nhds h1] with s hs
    exact eval_left b (le_of_lt hs)

example : (ex true).Reg (1 / 2) :=
  ⟨ex_strict true, Or.inl ⟨0, by norm_num [ex], by norm_num [ex], by norm_num [ex]⟩⟩

/-- Left of a linear table the interpolant is constant, but its derivative functor returns the
slope of the first interval. -/
theorem deriv_left {b : Tab} (hlin : b.lin = true) (hn : 1 < b.n) {t : ℝ} (ht : t < b.T 0) :
    HasDerivAt b.eval 0 t ∧ b.deriv.eval t = (b.F 1 - b.F 0) / (b.T 1 - b.T 0) := by
  constructor
  · refine (hasDerivAt_const t (b.F 0)).congr_of_eventuallyEq ?_
    filter_upwards [Iio_mem_nhds ht] with s hs
    exact eval_left b (le_of_lt hs)
  · have hT : b.deriv.T = b.T := by unfold Tab.deriv; rw [hlin, if_pos rfl]
    rw [eval_left b.deriv (by rw [hT]; exact ht.le)]
    unfold Tab.deriv; rw [hlin, if_pos rfl]
    simp only
    rw [if_pos (by omega)]

/-- The derivative of the example table left of it: true slope 0, returned slope 2. -/
theorem deriv_left_wrong : HasDerivAt (ex true).eval 0 (-1) ∧ (ex true).deriv.eval (-1) = 2 := by
  have h := deriv_left (b := ex true) rfl (by norm_num [ex]) (t := -1) (by norm_num [ex])
  refine ⟨h.1, ?_⟩
  rw [h.2]; norm_num [ex]

end Verif.Func1Tab
