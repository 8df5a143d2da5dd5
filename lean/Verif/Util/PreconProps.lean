import Verif.Util.Precon
import Mathlib.Algebra.BigOperators.Ring.Finset
import Mathlib.Tactic.NormNum

/-!
# C88: Properties of sparse Jacobians and preconditioners
-/

namespace Verif.Precon

open Finset

/-! ## Triplets -/

theorem entry_nil (i j : ℕ) : entry [] i j = 0 := rfl

theorem entry_append (l l' : List Trip) (i j : ℕ) :
    entry (l ++ l') i j = entry l i j + entry l' i j := by simp [entry]

theorem entry_single (t : Trip) (i j : ℕ) :
    entry [t] i j = if t.row = i ∧ t.col = j then t.val else 0 := by simp [entry]

theorem entry_zero (l : List Trip) (i j : ℕ) (h : ∀ t ∈ l, ¬(t.row = i ∧ t.col = j)) :
    entry l i j = 0 := by
  induction l with
  | nil => rfl
  | cons t l ih =>
    have h1 := h t (by simp)
    have h2 := ih fun t' ht' => h t' (by simp [ht'])
    unfold entry at h2 ⊢
    simp [h1, h2]

theorem entry_shift (l : List Trip) (s i j : ℕ) :
    entry (l.map fun t => ⟨t.row + s, t.col + s, t.val⟩) (i + s) (j + s) = entry l i j := by
  simp [entry, Function.comp_def]

/-- A list that contains an index pair once gives that value; values of equal pairs are added. -/
theorem entry_spec (l1 l2 : List Trip) (t : Trip) :
    (∀ t' ∈ l1 ++ l2, ¬(t'.row = t.row ∧ t'.col = t.col)) →
      entry (l1 ++ t :: l2) t.row t.col = t.val := by
  intro h
  have h1 := entry_zero l1 t.row t.col fun t' ht => h t' (by simp [ht])
  have h2 := entry_zero l2 t.row t.col fun t' ht => h t' (by simp [ht])
  rw [show l1 ++ t :: l2 = l1 ++ ([t] ++ l2) by simp, entry_append, entry_append, entry_single, h1, h2]
  simp

theorem setValue_adds (s : Jac) (r c : ℕ) (v : ℝ) :
    entry (setValue s r c v).trips r c = entry s.trips r c + v ∧
    (∀ i j, ¬(i = r ∧ j = c) → entry (setValue s r c v).trips i j = entry s.trips i j) ∧
    (setValue s r c v).matrix = s.matrix ∧ (setValue s r c v).factored = s.factored := by
  refine ⟨?_, ?_, rfl, rfl⟩
  · simp [setValue, entry_append, entry_single]
  · intro i j h
    rw [setValue, entry_append, entry_single, if_neg, add_zero]
    intro h'
    exact h ⟨h'.1.symm, h'.2.symm⟩

/-- A fresh object. -/
noncomputable def fresh (a : Bool) : Jac :=
  ⟨a, 0, [], fun _ _ => 0, 1, 0, 0, true, 0, 0, 0, 10, none⟩

example : entry (setValue (setValue (fresh true) 1 2 3) 1 2 4).trips 1 2 = 7 := by
  rw [(setValue_adds _ _ _ _).1, (setValue_adds _ _ _ _).1]
  norm_num [fresh, entry]

/-! ## Initialization -/

theorem init_spec (s : Jac) (n : ℕ) :
    (initObj s n).dim = n ∧ (initObj s n).trips = [] ∧ (∀ i j, (initObj s n).matrix i j = 0) ∧
    (initObj s n).gamma = s.gamma ∧ (initObj s n).atol = s.atol ∧
    (initObj s n).threshold = s.threshold ∧ (initObj s n).prune = s.prune ∧
    (initObj s n).factored = s.factored ∧ (initObj s n).adaptive = s.adaptive := by
  unfold initObj initBase setDropTol setFill
  dsimp only
  split
  · by_cases h : s.dropTol = 0
    · simp [h]
    · simp [h]
  · exact ⟨rfl, rfl, fun _ _ => rfl, rfl, rfl, rfl, rfl, rfl, rfl⟩

theorem init_drop (s : Jac) (n : ℕ) (ha : s.adaptive = true) :
    (s.dropTol = 0 → (initObj s n).dropTol = 1 / 10 ^ 12 ∧ (initObj s n).solverDrop = 1 / 10 ^ 12) ∧
    (s.dropTol ≠ 0 → (initObj s n).dropTol = s.dropTol ∧ (initObj s n).solverDrop = s.solverDrop) := by
  constructor
  · intro h
    simp [initObj, initBase, ha, h, setDropTol]
  · intro h
    simp [initObj, initBase, ha, h]

/-- The default fill factor (half of the number of variables) is never set. -/
theorem init_fill (s : Jac) (n : ℕ) :
    (initObj s n).fill = s.fill ∧ (initObj s n).solverFill = s.solverFill := by
  unfold initObj
  dsimp only
  by_cases ha : (initBase s n).adaptive = true
  · rw [if_pos ha]
    by_cases h : (initBase s n).dropTol = 0
    · rw [if_pos h, if_neg (by norm_num [setDropTol])]
      exact ⟨rfl, rfl⟩
    · rw [if_neg h, if_neg h]
      exact ⟨rfl, rfl⟩
  · rw [if_neg ha]
    exact ⟨rfl, rfl⟩

/-- So the number reported is not the number used by the solver. -/
theorem fill_mismatch (n : ℕ) : (initObj (fresh true) n).fill = 0 ∧
    (initObj (fresh true) n).solverFill = 10 := init_fill (fresh true) n

theorem setFill_spec (s : Jac) (x : ℝ) (n : ℕ) : (initObj (setFill s x) n).fill = x ∧
    (initObj (setFill s x) n).solverFill = x := init_fill (setFill s x) n

/-! ## The matrix -/

theorem update_eq (ok : (ℕ → ℕ → ℝ) → Bool) (s : Jac)
    (hr : ∀ t ∈ s.trips, t.row < s.dim ∧ t.col < s.dim) :
    update ok s = .ok ((factorize ok { s with
      matrix := fun i j => (if i = j then 1 else 0) - s.gamma * entry s.trips i j }).1,
      (factorize ok { s with
        matrix := fun i j => (if i = j then 1 else 0) - s.gamma * entry s.trips i j }).2) := by
  unfold update
  exact if_pos hr

theorem transient_eq (ok : (ℕ → ℕ → ℝ) → Bool) (s : Jac) (rdt : ℝ) (mask : ℕ → ℤ)
    (hr : ∀ t ∈ s.trips, t.row < s.dim ∧ t.col < s.dim) :
    transient ok s rdt mask = .ok ((factorize ok { s with
      matrix := fun i j => entry s.trips i j - rdt * (if i = j then (mask i : ℝ) else 0) }).1,
      (factorize ok { s with
        matrix := fun i j => entry s.trips i j - rdt * (if i = j then (mask i : ℝ) else 0) }).2) := by
  unfold transient
  exact if_pos hr

/-- Direct solver: I - γ J. -/
theorem update_direct (ok : (ℕ → ℕ → ℝ) → Bool) (s : Jac) (ha : s.adaptive = false)
    (hr : ∀ t ∈ s.trips, t.row < s.dim ∧ t.col < s.dim) :
    ∃ s' b, update ok s = .ok (s', b) ∧ (∀ i j, s'.matrix i j =
        (if i = j then 1 else 0) - s.gamma * entry s.trips i j) ∧
      b = ok s'.matrix ∧ s'.factored = (if b then some s'.matrix else none) ∧ s'.trips = s.trips ∧
      s'.dim = s.dim := by
  refine ⟨_, _, update_eq ok s hr, ?_, ?_, ?_, rfl, rfl⟩
  · intro i j; simp [factorize, ha]
  · simp [factorize, ha]
  · simp [factorize, ha]

/-- Adaptive: elements off the diagonal below the threshold are zero. -/
theorem update_adaptive (ok : (ℕ → ℕ → ℝ) → Bool) (s : Jac) (ha : s.adaptive = true)
    (hp : s.prune = true) (hr : ∀ t ∈ s.trips, t.row < s.dim ∧ t.col < s.dim) :
    ∃ s' b, update ok s = .ok (s', b) ∧
      (∀ i, s'.matrix i i = 1 - s.gamma * entry s.trips i i) ∧
      (∀ i j, i ≠ j → s.threshold ≤ |s.gamma * entry s.trips i j| →
        s'.matrix i j = -(s.gamma * entry s.trips i j)) ∧
      (∀ i j, i ≠ j → |s.gamma * entry s.trips i j| < s.threshold → s'.matrix i j = 0) ∧
      b = ok s'.matrix ∧ s'.factored = (if b then some s'.matrix else none) ∧ s'.trips = s.trips ∧
      s'.dim = s.dim := by
  refine ⟨_, _, update_eq ok s hr, ?_, ?_, ?_, ?_, ?_, rfl, rfl⟩
  · intro i; simp [factorize, ha, hp, pruned]
  · intro i j hij h
    simp only [factorize, ha, hp, Bool.and_self, if_true, pruned, if_neg hij, zero_sub, abs_neg]
    rw [if_neg]
    intro h'; exact absurd h'.1 (not_lt.mpr h)
  · intro i j hij h
    simp only [factorize, ha, hp, Bool.and_self, if_true, pruned, if_neg hij, zero_sub, abs_neg]
    rw [if_pos ⟨h, hij⟩]
  · simp [factorize, ha, hp]
  · simp [factorize, ha, hp]

/-- Without pruning the adaptive class keeps everything. -/
theorem update_unpruned (ok : (ℕ → ℕ → ℝ) → Bool) (s : Jac) (hp : s.prune = false ∨ s.threshold ≤ 0)
    (hr : ∀ t ∈ s.trips, t.row < s.dim ∧ t.col < s.dim) :
    ∃ s' b, update ok s = .ok (s', b) ∧ ∀ i j, s'.matrix i j =
        (if i = j then 1 else 0) - s.gamma * entry s.trips i j := by
  refine ⟨_, _, update_eq ok s hr, ?_⟩
  intro i j
  simp only [factorize]
  by_cases h : (s.adaptive && s.prune) = true
  · rw [if_pos h]
    rcases hp with hp | hp
    · rw [hp] at h; simp at h
    · unfold pruned
      rw [if_neg]
      intro h'
      exact absurd (lt_of_lt_of_le h'.1 hp) (not_lt.mpr (abs_nonneg _))
  · rw [if_neg h]

theorem setThreshold_spec (s : Jac) (x : ℝ) : (setThreshold s x).threshold = x ∧
    ((setThreshold s x).prune = true ↔ 0 < x) := by
  refine ⟨rfl, ?_⟩
  simp [setThreshold]

theorem update_out_of_range (ok : (ℕ → ℕ → ℝ) → Bool) (s : Jac) (t : Trip) (ht : t ∈ s.trips)
    (h : s.dim ≤ t.row ∨ s.dim ≤ t.col) : update ok s = .ub := by
  unfold update
  rw [if_neg]
  intro hr
  obtain ⟨h1, h2⟩ := hr t ht
  omega

theorem transient_spec (ok : (ℕ → ℕ → ℝ) → Bool) (s : Jac) (rdt : ℝ) (mask : ℕ → ℤ)
    (ha : s.adaptive = false) (hr : ∀ t ∈ s.trips, t.row < s.dim ∧ t.col < s.dim) :
    ∃ s' b, transient ok s rdt mask = .ok (s', b) ∧
      (∀ i, s'.matrix i i = entry s.trips i i - rdt * mask i) ∧
      (∀ i j, i ≠ j → s'.matrix i j = entry s.trips i j) ∧
      b = ok s'.matrix ∧ s'.factored = (if b then some s'.matrix else none) ∧ s'.trips = s.trips := by
  refine ⟨_, _, transient_eq ok s rdt mask hr, ?_, ?_, ?_, ?_, rfl⟩
  · intro i; simp [factorize, ha]
  · intro i j h; simp [factorize, ha, h]
  · simp [factorize, ha]
  · simp [factorize, ha]

/-- The matrix depends on the triplets, γ and the threshold only: whatever the object computed before,
the matrix is that of an object which did nothing but collect these triplets. -/
theorem update_history (ok : (ℕ → ℕ → ℝ) → Bool) (s u : Jac) (h1 : s.adaptive = u.adaptive)
    (h2 : s.dim = u.dim) (h3 : s.trips = u.trips) (h4 : s.gamma = u.gamma) (h5 : s.threshold = u.threshold)
    (h6 : s.prune = u.prune) (s' u' : Jac) (b c : Bool) (hs : update ok s = .ok (s', b))
    (hu : update ok u = .ok (u', c)) : s'.matrix = u'.matrix ∧ b = c ∧ s'.factored = u'.factored := by
  unfold update at hs hu
  by_cases hr : inRange s
  · have hr' : inRange u := by unfold inRange at hr ⊢; rw [← h3, ← h2]; exact hr
    rw [if_pos hr] at hs
    rw [if_pos hr'] at hu
    simp only [factorize, h1, h3, h4, h5, h6, Outcome.ok.injEq, Prod.mk.injEq] at hs hu
    obtain ⟨hs1, hs2⟩ := hs
    obtain ⟨hu1, hu2⟩ := hu
    subst hs1 hu1
    exact ⟨rfl, hs2.symm.trans hu2, rfl⟩
  · rw [if_neg hr] at hs; cases hs

/-- A change of γ needs no new Jacobian. -/
theorem newGamma_spec (ok : (ℕ → ℕ → ℝ) → Bool) (s : Jac) (g : ℝ) (ha : s.adaptive = false)
    (hr : ∀ t ∈ s.trips, t.row < s.dim ∧ t.col < s.dim) (s1 s2 : Jac) (b1 b2 : Bool)
    (h1 : update ok s = .ok (s1, b1)) (h2 : newGamma ok s1 g = .ok (s2, b2)) (i j : ℕ) :
    s2.matrix i j = (if i = j then 1 else 0) - g * entry s.trips i j := by
  obtain ⟨s', b', e1, _, _, _, e5, e6⟩ := update_direct ok s ha hr
  rw [e1] at h1
  cases h1
  have ha' : s1.adaptive = false := by
    rw [update_eq ok s hr] at e1
    simp only [factorize, Outcome.ok.injEq, Prod.mk.injEq] at e1
    rw [← e1.1]
    exact ha
  obtain ⟨s'', b'', f1, f2, _⟩ := update_direct ok { s1 with gamma := g } ha' (by
    simp only; rw [e5, e6]; exact hr)
  unfold newGamma at h2
  rw [f1] at h2
  cases h2
  rw [f2]
  simp only
  rw [e5]

/-- The direct solver solves (I - γ J) x = b. -/
theorem solve_direct (ok : (ℕ → ℕ → ℝ) → Bool) (lin : (ℕ → ℕ → ℝ) → (ℕ → ℝ) → ℕ → ℝ) (s s' : Jac)
    (ha : s.adaptive = false) (hr : ∀ t ∈ s.trips, t.row < s.dim ∧ t.col < s.dim)
    (hlin : ∀ M b, ok M = true → ∀ i, i < s.dim → ∑ j ∈ range s.dim, M i j * lin M b j = b i)
    (h : update ok s = .ok (s', true)) (b : ℕ → ℝ) :
    ∃ x, solve lin s' b = some x ∧ ∀ i, i < s.dim →
      x i - s.gamma * ∑ j ∈ range s.dim, entry s.trips i j * x j = b i := by
  obtain ⟨s1, b1, e1, e2, e3, e4, _⟩ := update_direct ok s ha hr
  rw [e1] at h
  cases h
  rw [if_pos rfl] at e4
  refine ⟨lin s'.matrix b, by simp [solve, e4], fun i hi => ?_⟩
  rw [← hlin s'.matrix b e3.symm i hi, mul_sum]
  have : ∀ j ∈ range s.dim, s'.matrix i j * lin s'.matrix b j =
      (if i = j then lin s'.matrix b j else 0) - s.gamma * (entry s.trips i j * lin s'.matrix b j) := by
    intro j _
    rw [e2 i j]
    by_cases h : i = j
    · simp only [if_pos h]; ring
    · simp only [if_neg h]; ring
  rw [sum_congr rfl this, sum_sub_distrib, sum_ite_eq (range s.dim) i, if_pos (mem_range.mpr hi)]

/-- After an unsuccessful factorization there is nothing to solve with. -/
theorem update_failed (ok : (ℕ → ℕ → ℝ) → Bool) (lin : (ℕ → ℕ → ℝ) → (ℕ → ℝ) → ℕ → ℝ) (s s' : Jac)
    (h : update ok s = .ok (s', false)) (b : ℕ → ℝ) : solve lin s' b = none := by
  unfold update at h
  by_cases hr : inRange s
  · rw [if_pos hr] at h
    simp only [factorize, Outcome.ok.injEq, Prod.mk.injEq] at h
    obtain ⟨h1, h2⟩ := h
    subst h1
    simp only [solve]
    rw [h2]
    simp
  · rw [if_neg hr] at h; cases h

/-- Looking at the matrix after updateTransient changes what is solved next: with no elements, rdt = 1,
the transient matrix -1 becomes 1. -/
theorem getMatrix_changes : ∃ (s s1 s2 : Jac) (M : ℕ → ℕ → ℝ),
    transient (fun _ => true) s 1 (fun _ => 1) = .ok (s1, true) ∧
    getMatrix (fun _ => true) s1 = .ok (s2, some M) ∧
    (∀ F, s1.factored = some F → F 0 0 = -1) ∧ (∀ F, s2.factored = some F → F 0 0 = 1) ∧
    s1.factored.isSome ∧ s2.factored.isSome := by
  have hr : inRange (initBase (fresh false) 1) := by intro t ht; simp [initBase] at ht
  let s1 := (factorize (fun _ => true) { initBase (fresh false) 1 with
      matrix := fun i j => entry [] i j - 1 * (if i = j then ((1 : ℤ) : ℝ) else 0) }).1
  have hr1 : inRange s1 := by intro t ht; simp [s1, factorize, initBase] at ht
  let s2 := (factorize (fun _ => true) { s1 with
      matrix := fun i j => (if i = j then 1 else 0) - s1.gamma * entry s1.trips i j }).1
  refine ⟨initBase (fresh false) 1, s1, s2, s2.matrix, ?_, ?_, ?_, ?_, ?_, ?_⟩
  · unfold transient; rw [if_pos hr]; rfl
  · have e : update (fun _ => true) s1 = .ok (s2, true) := by unfold update; rw [if_pos hr1]; rfl
    unfold getMatrix
    rw [e]
  · intro F hF
    simp [s1, factorize, initBase, fresh, entry] at hF
    rw [← hF]; simp
  · intro F hF
    simp [s2, s1, factorize, initBase, fresh, entry] at hF
    rw [← hF]; simp
  · simp [s1, factorize]
  · simp [s2, factorize]

/-- A matrix that cannot be factorized is not handed out: the getter raises (`none`). -/
theorem getMatrix_fail (ok : (ℕ → ℕ → ℝ) → Bool) (s : Jac) (hr : inRange s)
    (hno : ∀ M, ok M = false) : ∃ s', getMatrix ok s = .ok (s', none) := by
  unfold getMatrix update
  rw [if_pos hr]
  simp [factorize, hno]

example : ∃ s', getMatrix (fun _ => false) (initBase (fresh false) 1) = .ok (s', none) :=
  getMatrix_fail _ _ (by intro t ht; simp [initBase] at ht) (fun _ => rfl)

theorem reset_spec (s : Jac) : (reset s).trips = [] ∧ (∀ i j, (reset s).matrix i j = 0) ∧
    (reset s).gamma = s.gamma ∧ (reset s).dim = s.dim ∧ (reset s).threshold = s.threshold ∧
    (reset s).prune = s.prune := ⟨rfl, fun _ _ => rfl, rfl, rfl, rfl, rfl⟩

/-- Nothing else is lost, so `solve` still answers with the matrix from before the reset. -/
theorem reset_stale (lin : (ℕ → ℕ → ℝ) → (ℕ → ℝ) → ℕ → ℝ) (s : Jac) (b : ℕ → ℝ) (n : ℕ) :
    solve lin (reset s) b = solve lin s b ∧ solve lin (initObj s n) b = solve lin s b := by
  refine ⟨rfl, ?_⟩
  unfold solve
  rw [(init_spec s n).2.2.2.2.2.2.2.1]

/-! ## Adjusted state -/

theorem adjust_spec (s : Jac) (y : ℕ → ℝ) (i : ℕ) : s.atol ≤ adjust s y i ∧ y i ≤ adjust s y i ∧
    (s.atol ≤ y i → adjust s y i = y i) ∧ (y i < s.atol → adjust s y i = s.atol) ∧
    adjust s (adjust s y) i = adjust s y i := by
  unfold adjust
  refine ⟨le_max_right _ _, le_max_left _ _, fun h => max_eq_left h, fun h => max_eq_right h.le, ?_⟩
  rw [max_assoc, max_self]

/-! ## Networks -/

/-- Elements of a reactor lie within its own variables. -/
def Good (bs : List Block) : Prop := ∀ b ∈ bs, ∀ t ∈ b.elems, t.row < b.size ∧ t.col < b.size

theorem place_range (bs : List Block) (hg : Good bs) (s : ℕ) :
    ∀ t ∈ place s bs, (s ≤ t.row ∧ t.row < s + (bs.map Block.size).sum) ∧
      (s ≤ t.col ∧ t.col < s + (bs.map Block.size).sum) := by
  induction bs generalizing s with
  | nil => intro t ht; simp [place] at ht
  | cons b bs ih =>
    intro t ht
    simp only [place, List.mem_append, List.mem_map] at ht
    simp only [List.map_cons, List.sum_cons]
    rcases ht with ⟨u, hu, rfl⟩ | ht
    · have := hg b (by simp) u hu
      simp only
      omega
    · have := ih (fun b' hb' => hg b' (by simp [hb'])) (s + b.size) t ht
      omega

theorem place_append (l r : List Block) (s : ℕ) :
    place s (l ++ r) = place s l ++ place (s + (l.map Block.size).sum) r := by
  induction l generalizing s with
  | nil => simp [place]
  | cons b l ih => simp [place, ih, add_assoc]

/-- Inside one reactor the elements are those of its Jacobian. -/
theorem place_inside (l r : List Block) (b : Block) (hg : Good (l ++ b :: r)) (i j : ℕ)
    (hi : i < b.size) :
    entry (place 0 (l ++ b :: r)) (i + (l.map Block.size).sum) (j + (l.map Block.size).sum)
      = entry b.elems i j := by
  have hl : Good l := fun b' hb' => hg b' (by simp [hb'])
  have hr : Good r := fun b' hb' => hg b' (by simp [hb'])
  rw [place_append, entry_append, place, entry_append, zero_add, entry_shift]
  rw [entry_zero (place 0 l), entry_zero (place _ r), zero_add, add_zero]
  · intro t ht h
    have := place_range r hr _ t ht
    omega
  · intro t ht h
    have := place_range l hl 0 t ht
    omega

/-- Variables of different reactors are not coupled. -/
theorem place_outside (l r : List Block) (b : Block) (hg : Good (l ++ b :: r)) (i q : ℕ)
    (hi : i < b.size) (hq : q < (l.map Block.size).sum ∨ (l.map Block.size).sum + b.size ≤ q) :
    entry (place 0 (l ++ b :: r)) (i + (l.map Block.size).sum) q = 0 ∧
    entry (place 0 (l ++ b :: r)) q (i + (l.map Block.size).sum) = 0 := by
  have hl : Good l := fun b' hb' => hg b' (by simp [hb'])
  have hr : Good r := fun b' hb' => hg b' (by simp [hb'])
  have hb := hg b (by simp)
  have key : ∀ t ∈ place 0 (l ++ b :: r),
      ¬(t.row = i + (l.map Block.size).sum ∧ t.col = q) ∧
      ¬(t.row = q ∧ t.col = i + (l.map Block.size).sum) := by
    intro t ht
    rw [place_append, place] at ht
    simp only [List.mem_append, List.mem_map] at ht
    rcases ht with ht | ⟨u, hu, rfl⟩ | ht
    · have := place_range l hl 0 t ht
      omega
    · have := hb u hu
      simp only
      omega
    · have := place_range r hr _ t ht
      omega
  exact ⟨entry_zero _ _ _ fun t ht => (key t ht).1, entry_zero _ _ _ fun t ht => (key t ht).2⟩

theorem fold_trips (l : List Trip) (s : Jac) :
    l.foldl (fun s t => setValue s t.row t.col t.val) s = { s with trips := s.trips ++ l } := by
  induction l generalizing s with
  | nil => simp
  | cons t l ih =>
    rw [List.foldl_cons, ih]
    simp [setValue]

/-- **Preconditioner of a network** (direct): I - γ J with the Jacobians of the reactors, evaluated at
the adjusted state, on the diagonal, whatever the object held before; the reactors are left in the
adjusted state. -/
theorem setup_spec (ok : (ℕ → ℕ → ℝ) → Bool) (rt : (ℕ → ℝ) → ℕ → ℝ) (jac : (ℕ → ℝ) → List Block)
    (s : Jac) (y : ℕ → ℝ) (g : ℝ) (ha : s.adaptive = false)
    (hg : Good (jac fun i => max (rt y i) s.atol))
    (hd : s.dim = ((jac fun i => max (rt y i) s.atol).map Block.size).sum) :
    ∃ s' c z, setup ok rt jac s y g = .ok ((s', c), z) ∧ (∀ i, z i = max (rt y i) s.atol) ∧
      (∀ i j, s'.matrix i j = (if i = j then 1 else 0)
        - g * entry (place 0 (jac fun i => max (rt y i) s.atol)) i j) ∧
      c = ok s'.matrix := by
  unfold setup
  simp only [fold_trips]
  have hz : adjust { reset s with gamma := g } (rt y) = fun i => max (rt y i) s.atol := rfl
  rw [hz]
  obtain ⟨s', b, e1, e2, e3, _⟩ := update_direct ok
    { { reset s with gamma := g } with
      trips := (reset s).trips ++ place 0 (jac fun i => max (rt y i) s.atol) } ha (by
      intro t ht
      have := place_range _ hg 0 t (by simpa [reset] using ht)
      simp only [reset]
      omega)
  simp only at e1
  rw [e1]
  refine ⟨s', b, _, rfl, fun _ => rfl, ?_, e3⟩
  intro i j
  rw [e2]
  simp [reset]

example : ∃ s' c z, setup (fun _ => true) id (fun _ => [⟨1, [⟨0, 0, 5⟩]⟩, ⟨1, [⟨0, 0, 7⟩]⟩])
    (initBase (fresh false) 2) (fun _ => 1) 2 = .ok ((s', c), z) ∧ s'.matrix 1 1 = -13 ∧
    s'.matrix 0 1 = 0 := by
  obtain ⟨s', c, z, h1, _, h3, _⟩ := setup_spec (fun _ => true) id
    (fun _ => [⟨1, [⟨0, 0, 5⟩]⟩, ⟨1, [⟨0, 0, 7⟩]⟩]) (initBase (fresh false) 2) (fun _ => 1) 2 rfl
    (by intro b hb t ht; simp at hb; rcases hb with rfl | rfl <;> simp at ht <;> subst ht <;> simp)
    (by simp [initBase])
  refine ⟨s', c, z, h1, ?_, ?_⟩
  · rw [h3]; norm_num [place, entry]
  · rw [h3]; norm_num [place, entry]

/-! ## Choosing the preconditioner -/

theorem setPrecon_ok (g : Integ) (p : ℕ) :
    setPrecon g p "none" = (⟨some p, .none⟩, true) ∧ setPrecon g p "left" = (⟨some p, .left⟩, true) ∧
    setPrecon g p "right" = (⟨some p, .right⟩, true) ∧ setPrecon g p "both" = (⟨some p, .both⟩, true) := by
  simp [setPrecon]

/-- An invalid side throws, but the new object replaces the old one while the side stays. -/
theorem setPrecon_bad (g : Integ) (p : ℕ) (name : String)
    (h : name ≠ "none" ∧ name ≠ "left" ∧ name ≠ "right" ∧ name ≠ "both") :
    setPrecon g p name = (⟨some p, g.side⟩, false) := by
  simp [setPrecon, h.1, h.2.1, h.2.2.1, h.2.2.2]

/-- A preconditioner cannot be taken away again by setting a null pointer. -/
theorem netInit_none (g : Integ) : netInit g none = (g, true) := rfl

theorem netInit_some (g : Integ) (p : ℕ) (name : String) : netInit g (some (p, name)) = setPrecon g p name :=
  rfl

theorem applyOptions_spec (g : Integ) :
    ((applyOptions g "DENSE").1 = true ↔ g.side = .none) ∧
    ((applyOptions g "DIAG").1 = true ↔ g.side = .none) ∧
    (applyOptions g "GMRES").1 = true ∧ ((applyOptions g "GMRES").2 = true ↔ g.side ≠ .none) ∧
    (∀ t, t ≠ "DENSE" → t ≠ "DIAG" → t ≠ "GMRES" → t ≠ "BAND" → (applyOptions g t).1 = false) := by
  refine ⟨by simp [applyOptions], by simp [applyOptions], by simp [applyOptions],
    by simp [applyOptions], ?_⟩
  intro t h1 h2 h3 h4
  simp [applyOptions, h1, h2, h3, h4]

/-- With the banded solver a preconditioner is accepted and never used. -/
theorem applyOptions_band (g : Integ) : applyOptions g "BAND" = (true, false) := by
  simp [applyOptions]

end Verif.Precon
