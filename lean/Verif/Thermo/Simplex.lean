import Verif.Basic
import Mathlib.Analysis.Calculus.Deriv.Inv
import Mathlib.Analysis.Calculus.Deriv.Mul
import Mathlib.Analysis.Calculus.Deriv.Add
import Mathlib.Analysis.Calculus.Deriv.Pow
import Mathlib.Algebra.BigOperators.Ring.Finset
import Mathlib.Algebra.BigOperators.Fin
import Mathlib.Algebra.BigOperators.Field
import Mathlib.Tactic.FieldSimp
import Mathlib.Tactic.Ring
import Mathlib.Tactic.Linarith
import Mathlib.Tactic.NormNum

/-!
Mole numbers and mole fractions: derivatives with respect to one mole number.
-/

namespace Verif.Thermo

/-- Kronecker delta. -/
def dlt (i k : ℕ) : ℝ := if i = k then 1 else 0

/-- Total number of moles of `kk` species. -/
noncomputable def tot (kk : ℕ) (n : ℕ → ℝ) : ℝ := ∑ j ∈ Finset.range kk, n j

/-- Mole fractions. -/
noncomputable def frac (kk : ℕ) (n : ℕ → ℝ) : ℕ → ℝ := fun i => n i / tot kk n

theorem dlt_self (k : ℕ) : dlt k k = 1 := by simp [dlt]

theorem sum_dlt (kk k : ℕ) (h : k < kk) (f : ℕ → ℝ) :
    ∑ j ∈ Finset.range kk, f j * dlt k j = f k := by
  simp [dlt, h]

theorem hasDerivAt_coord (n : ℕ → ℝ) (k i : ℕ) :
    HasDerivAt (fun t => Function.update n k t i) (dlt i k) (n k) := by
  by_cases e : i = k
  · subst e; simpa [dlt] using hasDerivAt_id' (n i)
  · simpa [dlt, e, Function.update_of_ne e] using hasDerivAt_const (n k) (n i)

theorem hasDerivAt_tot (kk : ℕ) (n : ℕ → ℝ) (k : ℕ) (h : k < kk) :
    HasDerivAt (fun t => tot kk (Function.update n k t)) 1 (n k) := by
  have := HasDerivAt.fun_sum (u := Finset.range kk) (fun j _ => hasDerivAt_coord n k j)
  have e : ∑ j ∈ Finset.range kk, dlt j k = 1 := by simp [dlt, h]
  rw [e] at this
  exact this

theorem update_self (n : ℕ → ℝ) (k : ℕ) : Function.update n k (n k) = n := Function.update_eq_self k n

theorem hasDerivAt_frac (kk : ℕ) (n : ℕ → ℝ) (k : ℕ) (h : k < kk) (hn : tot kk n ≠ 0) (i : ℕ) :
    HasDerivAt (fun t => frac kk (Function.update n k t) i) ((dlt i k - frac kk n i) / tot kk n)
      (n k) := by
  have h1 := (hasDerivAt_coord n k i).div (hasDerivAt_tot kk n k h) (by rw [update_self]; exact hn)
  rw [update_self] at h1
  refine h1.congr_deriv ?_
  rw [frac]; field_simp

theorem sum_frac (kk : ℕ) (n : ℕ → ℝ) (hn : tot kk n ≠ 0) :
    ∑ k ∈ Finset.range kk, frac kk n k = 1 := by
  simp only [frac]
  rw [← Finset.sum_div]; exact div_self hn

/-- Vector accumulated by a loop. -/
theorem foldl_vec {α : Type} (l : List α) (F : (ℕ → ℝ) → α → ℕ → ℝ) (f : α → ℕ → ℝ) (kk : ℕ)
    (h : ∀ v, ∀ a ∈ l, ∀ k < kk, F v a k = v k + f a k) (v : ℕ → ℝ) (k : ℕ) (hk : k < kk) :
    l.foldl F v k = v k + (l.map (fun a => f a k)).sum := by
  induction l generalizing v with
  | nil => simp
  | cons a l ih =>
    rw [List.foldl_cons, ih (fun v b hb => h v b (by simp [hb])), h v a (by simp) k hk]
    simp only [List.map_cons, List.sum_cons]; ring

theorem hasDerivAt_listSum {α : Type} (l : List α) (f : α → ℝ → ℝ) (f' : α → ℝ) (x : ℝ)
    (h : ∀ a ∈ l, HasDerivAt (f a) (f' a) x) :
    HasDerivAt (fun t => (l.map (fun a => f a t)).sum) (l.map f').sum x := by
  induction l with
  | nil => simpa using hasDerivAt_const x (0 : ℝ)
  | cons a l ih =>
    simp only [List.map_cons, List.sum_cons]
    exact (h a (by simp)).add (ih (fun b hb => h b (by simp [hb])))

theorem sum_comm_list {α : Type} (s : Finset ℕ) (l : List α) (f : α → ℕ → ℝ) :
    ∑ k ∈ s, (l.map (fun a => f a k)).sum = (l.map (fun a => ∑ k ∈ s, f a k)).sum := by
  induction l with
  | nil => simp
  | cons a l ih => simp only [List.map_cons, List.sum_cons, Finset.sum_add_distrib, ih]

theorem mul_listSum {α : Type} (l : List α) (c : ℝ) (f : α → ℝ) :
    c * (l.map f).sum = (l.map (fun a => c * f a)).sum := by
  induction l with
  | nil => simp
  | cons a l ih => simp only [List.map_cons, List.sum_cons, ← ih]; ring

end Verif.Thermo
