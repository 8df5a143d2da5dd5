import Mathlib.Tactic.Common
import Mathlib.Tactic.SplitIfs
import Mathlib.Algebra.Order.Group.Nat
import Mathlib.Algebra.BigOperators.Group.List.Basic

/-!
# Prefix sums and right-to-left scans

Mathematical vocabulary shared by the index maps of `Kinetics`, `OneDim` and `MultiPhase`.
`scanDown` is the shape of the loop `for (n = size-1; n != npos; n--) if (p(n)) ...`; the other
definitions are not pieces of `/repo`.
-/

namespace Verif.Prefix

/-- Sum of the first `i` block sizes. -/
def pre (s : List Nat) (i : Nat) : Nat := (s.take i).sum

@[simp] theorem pre_zero (s : List Nat) : pre s 0 = 0 := by simp [pre]

theorem pre_succ (s : List Nat) (i : Nat) (h : i < s.length) : pre s (i + 1) = pre s i + s[i] := by
  simp [pre, List.sum_take_succ _ _ h]

theorem pre_length (s : List Nat) : pre s s.length = s.sum := by simp [pre]

theorem pre_le_succ (s : List Nat) (i : Nat) : pre s i ≤ pre s (i + 1) := by
  by_cases h : i < s.length
  · rw [pre_succ s i h]; omega
  · simp [pre, List.take_of_length_le (by omega : s.length ≤ i),
      List.take_of_length_le (by omega : s.length ≤ i + 1)]

theorem pre_mono (s : List Nat) {i j : Nat} (h : i ≤ j) : pre s i ≤ pre s j := by
  induction h with
  | refl => exact le_refl _
  | step _ ih => exact le_trans ih (pre_le_succ s _)

theorem pre_le_sum (s : List Nat) (i : Nat) : pre s i ≤ s.sum := by
  by_cases h : i ≤ s.length
  · rw [← pre_length]; exact pre_mono s h
  · simp [pre, List.take_of_length_le (by omega : s.length ≤ i)]

/-- Every position lies in some block. -/
theorem exists_block (s : List Nat) (g : Nat) (hg : g < s.sum) :
    ∃ (i : Nat) (h : i < s.length), pre s i ≤ g ∧ g < pre s i + s[i] := by
  by_contra hc
  have key : ∀ i, i ≤ s.length → pre s i ≤ g := by
    intro i
    induction i with
    | zero => simp
    | succ i ih =>
      intro hi
      by_contra hlt
      exact hc ⟨i, hi, ih (by omega), by rw [← pre_succ s i hi]; omega⟩
  have := key s.length le_rfl
  rw [pre_length] at this
  omega

/-- ... and in at most one. -/
theorem block_unique (s : List Nat) {g i j : Nat} (hi : i < s.length) (hj : j < s.length)
    (h1 : pre s i ≤ g) (h2 : g < pre s i + s[i]) (h3 : pre s j ≤ g) (h4 : g < pre s j + s[j]) :
    i = j := by
  rw [← pre_succ s i hi] at h2
  rw [← pre_succ s j hj] at h4
  by_contra hne
  rcases Nat.lt_or_gt_of_ne hne with h | h
  · have := pre_mono s (by omega : i + 1 ≤ j); omega
  · have := pre_mono s (by omega : j + 1 ≤ i); omega

/-- The largest `i < n` satisfying `p`, found by counting down. -/
def scanDown (p : Nat → Bool) : Nat → Option Nat
  | 0 => none
  | n + 1 => if p n then some n else scanDown p n

theorem scanDown_some (p : Nat → Bool) (n i : Nat) :
    scanDown p n = some i ↔ i < n ∧ p i = true ∧ ∀ j, i < j → j < n → p j = false := by
  induction n with
  | zero => simp [scanDown]
  | succ n ih =>
    simp only [scanDown]
    split_ifs with h
    · constructor
      · intro e; cases e; exact ⟨by omega, h, fun j a b => by omega⟩
      · rintro ⟨a, b, c⟩
        by_cases e : n = i
        · rw [e]
        · have := c n (by omega) (by omega); simp [this] at h
    · rw [ih]
      constructor
      · rintro ⟨a, b, c⟩
        refine ⟨by omega, b, fun j x y => ?_⟩
        by_cases e : j = n
        · subst e; simpa using h
        · exact c j x (by omega)
      · rintro ⟨a, b, c⟩
        have : i ≠ n := by rintro rfl; exact h b
        exact ⟨by omega, b, fun j x y => c j x (by omega)⟩

theorem scanDown_none (p : Nat → Bool) (n : Nat) :
    scanDown p n = none ↔ ∀ i, i < n → p i = false := by
  induction n with
  | zero => simp [scanDown]
  | succ n ih =>
    simp only [scanDown]
    split_ifs with h
    · simp only [false_iff]
      intro hc; have := hc n (by omega); simp [this] at h
    · rw [ih]
      constructor
      · intro a i hi
        by_cases e : i = n
        · subst e; simpa using h
        · exact a i (by omega)
      · intro a i hi; exact a i (by omega)

end Verif.Prefix
