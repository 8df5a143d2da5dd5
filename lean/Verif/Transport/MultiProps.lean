import Verif.Transport.Multi
import Mathlib.Algebra.BigOperators.Field
import Mathlib.Algebra.Order.BigOperators.Ring.Finset
import Mathlib.Algebra.BigOperators.Intervals
import Mathlib.Tactic.Linarith
import Mathlib.Tactic.NormNum
import Mathlib.Tactic.FieldSimp
import Mathlib.Tactic.Positivity
import Mathlib.Tactic.IntervalCases

/-!
# C70: theorems on multicomponent transport

The formulas with Kronecker symbols are equations (12.121) to (12.131) of Kee, Coltrin and Glarborg, to which the comments of
the source refer.
-/

namespace Verif.Transport.Multi.Data

open Finset

variable {m : Data}

/-- Kronecker symbol. -/
def kd (i j : ℕ) : ℝ := if i = j then 1 else 0

/-- Positive data with symmetric coefficients. -/
structure Pos (m : Data) : Prop where
  mw : ∀ k < m.n, 0 < m.mw k
  x : ∀ k < m.n, 0 < m.x k
  D : ∀ i < m.n, ∀ j < m.n, 0 < m.D i j
  sym : ∀ i < m.n, ∀ j < m.n, m.D i j = m.D j i
  T : 0 < m.T

/-! ## Blocks of the matrix -/

/-- Eq. (12.121). -/
theorem L0000_eq {i j : ℕ} (hi : i < m.n) (hj : j < m.n) (hw : m.mw i ≠ 0) :
    m.L0000 i j = 16 * m.T / 25 * ∑ k ∈ range m.n, m.x k / (m.mw i * m.D i k) *
      (m.mw j * m.x j * (1 - kd i k) - m.mw i * m.x i * (kd i j - kd j k)) := by
  have e : ∀ k ∈ range m.n, m.x k / (m.mw i * m.D i k) *
      (m.mw j * m.x j * (1 - kd i k) - m.mw i * m.x i * (kd i j - kd j k)) =
      m.mw j * m.x j / m.mw i * (m.x k / m.D i k) - (if i = k then m.mw j * m.x j / m.mw i * (m.x k / m.D i k) else 0) -
      kd i j * m.x i * (m.x k / m.D i k) + (if j = k then m.x i * (m.x k / m.D i k) else 0) := by
    intro k _
    simp only [kd]
    rw [show m.x k / (m.mw i * m.D i k) = m.x k / m.D i k / m.mw i by rw [div_div, mul_comm]]
    generalize m.x k / m.D i k = q
    split_ifs <;> field_simp <;> ring
  rw [Finset.sum_congr rfl e]
  simp only [Finset.sum_add_distrib, Finset.sum_sub_distrib, ← Finset.mul_sum, Finset.sum_ite_eq, mem_range, hi, hj, if_true]
  rw [L0000]
  by_cases c : i = j
  · subst c
    simp only [if_true, kd]
    field_simp
    ring
  · rw [if_neg c]
    simp only [kd, if_neg c]
    field_simp
    ring

/-- Eq. for `L00,10`. -/
theorem L0010_eq {i j : ℕ} (hi : i < m.n) :
    m.L0010 i j = 8 * m.T / 5 * ∑ k ∈ range m.n, m.x j * m.x k * (kd i j - kd i k) *
      (m.mw k * (1.2 * m.C j k - 1) / ((m.mw j + m.mw k) * m.D j k)) := by
  have e : ∀ k ∈ range m.n, m.x j * m.x k * (kd i j - kd i k) *
      (m.mw k * (1.2 * m.C j k - 1) / ((m.mw j + m.mw k) * m.D j k)) =
      kd i j * (m.x j * m.x k * (m.mw k * (1.2 * m.C j k - 1) / ((m.mw j + m.mw k) * m.D j k))) -
      (if i = k then m.x j * m.x k * (m.mw k * (1.2 * m.C j k - 1) / ((m.mw j + m.mw k) * m.D j k)) else 0) := by
    intro k _
    simp only [kd]
    split_ifs <;> ring
  have q : ∀ k, m.q0010 k j = -(8 * m.T / 5) * (m.x j * m.x k * (m.mw k * (1.2 * m.C j k - 1) / ((m.mw j + m.mw k) * m.D j k))) := by
    intro k; rw [q0010]; ring
  rw [Finset.sum_congr rfl e]
  simp only [Finset.sum_sub_distrib, ← Finset.mul_sum, Finset.sum_ite_eq, mem_range, hi, if_true]
  rw [L0010, kd]
  by_cases c : i = j
  · subst c
    simp only [if_true, q, ← Finset.mul_sum]
    ring
  · simp only [if_neg c, q]
    ring

/-- Eq. (12.125). -/
theorem L1010_eq {i j : ℕ} (hi : i < m.n) (hj : j < m.n) (hw : ∀ k < m.n, m.mw k ≠ 0)
    (sD : ∀ i < m.n, ∀ j < m.n, m.D i j = m.D j i) (sA : ∀ i < m.n, ∀ j < m.n, m.A i j = m.A j i)
    (sB : ∀ i < m.n, ∀ j < m.n, m.B i j = m.B j i) :
    m.L1010 i j = 16 * m.T / 25 * ∑ k ∈ range m.n, m.x i * m.x k / ((m.mw i + m.mw k) ^ 2 * m.D i k) * (m.mw i / m.mw j) *
      ((kd j k - kd i j) * (7.5 * m.mw j ^ 2 + 6.25 * m.mw k ^ 2 - 3 * m.mw k ^ 2 * m.B i k) -
       4 * m.mw j * m.mw k * m.A i k * (kd j k + kd i j) *
        (1 + 5 / (3 * Real.pi) * (m.crot i / m.relax i + m.crot k / m.relax k))) := by
  have wi := hw i hi
  have wj := hw j hj
  set u : ℕ → ℝ := fun k => m.x i * m.x k / ((m.mw i + m.mw k) ^ 2 * m.D i k) * (m.mw i / m.mw j) *
    (7.5 * m.mw j ^ 2 + 6.25 * m.mw k ^ 2 - 3 * m.mw k ^ 2 * m.B i k) with hu
  set v : ℕ → ℝ := fun k => m.x i * m.x k / ((m.mw i + m.mw k) ^ 2 * m.D i k) * (m.mw i / m.mw j) *
    (4 * m.mw j * m.mw k * m.A i k * (1 + 5 / (3 * Real.pi) * (m.crot i / m.relax i + m.crot k / m.relax k))) with hv
  have e : ∀ k ∈ range m.n, m.x i * m.x k / ((m.mw i + m.mw k) ^ 2 * m.D i k) * (m.mw i / m.mw j) *
      ((kd j k - kd i j) * (7.5 * m.mw j ^ 2 + 6.25 * m.mw k ^ 2 - 3 * m.mw k ^ 2 * m.B i k) -
       4 * m.mw j * m.mw k * m.A i k * (kd j k + kd i j) *
        (1 + 5 / (3 * Real.pi) * (m.crot i / m.relax i + m.crot k / m.relax k))) =
      (if j = k then u k - v k else 0) - kd i j * (u k + v k) := by
    intro k _
    simp only [kd, hu, hv]
    split_ifs <;> ring
  rw [Finset.sum_congr rfl e]
  simp only [Finset.sum_sub_distrib, ← Finset.mul_sum, Finset.sum_ite_eq, mem_range, hj, if_true]
  have first : 16 * m.T / 25 * m.x j * m.x i * m.mw i / (m.mw j * m.term1 i j) *
      (13.75 * (m.mw j * m.mw j) - 3 * m.mw j * m.mw j * m.B i j - m.term2 i j * m.mw j) = 16 * m.T / 25 * (u j - v j) := by
    simp only [hu, hv, term1, term2]
    have : 1 + 5 / (3 * Real.pi) * (m.crot j / m.relax j + m.crot i / m.relax i) =
      1 + 5 / (3 * Real.pi) * (m.crot i / m.relax i + m.crot j / m.relax j) := by ring
    rw [this]
    generalize 1 + 5 / (3 * Real.pi) * (m.crot i / m.relax i + m.crot j / m.relax j) = z1
    rw [show m.D i j * (m.mw i + m.mw j) * (m.mw i + m.mw j) = (m.mw i + m.mw j) ^ 2 * m.D i j by ring]
    generalize (m.mw i + m.mw j) ^ 2 * m.D i j = z2
    field_simp
    ring
  rw [L1010, first, kd]
  by_cases c : i = j
  · subst c
    rw [if_pos rfl, if_pos rfl]
    have s : (∑ k ∈ range m.n, m.x k / m.term1 k i * (7.5 * (m.mw i * m.mw i) + m.mw k * m.mw k * (6.25 - 3 * m.B k i) +
        m.term2 k i * m.mw k)) * m.x i = ∑ k ∈ range m.n, (u k + v k) := by
      rw [Finset.sum_mul]
      refine Finset.sum_congr rfl fun k hk => ?_
      have hk' := mem_range.1 hk
      simp only [hu, hv, term1, term2]
      rw [sD k hk' i hi, sB k hk' i hi, sA k hk' i hi]
      rw [show m.D i k * (m.mw k + m.mw i) * (m.mw k + m.mw i) = (m.mw i + m.mw k) ^ 2 * m.D i k by ring]
      generalize (m.mw i + m.mw k) ^ 2 * m.D i k = z2
      rw [div_self wi]
      ring
    rw [show (∑ k ∈ range m.n, m.x k / m.term1 k i * (7.5 * (m.mw i * m.mw i) + m.mw k * m.mw k * (6.25 - 3 * m.B k i) +
        m.term2 k i * m.mw k)) * (16 * m.T / 25 * m.x i) = 16 * m.T / 25 * ((∑ k ∈ range m.n, m.x k / m.term1 k i *
        (7.5 * (m.mw i * m.mw i) + m.mw k * m.mw k * (6.25 - 3 * m.B k i) + m.term2 k i * m.mw k)) * m.x i) by ring, s]
    ring
  · rw [if_neg c, if_neg c]; ring

/-- Eq. (12.127). -/
theorem L1001_eq {i j : ℕ} (hi : i < m.n) (hm : m.cint j > 0.001) :
    m.L1001 i j = 32 * m.T / (5 * Real.pi * m.cint j) * ∑ k ∈ range m.n, m.mw j * m.A j k /
      ((m.mw j + m.mw k) * m.D j k) * (kd i k + kd i j) * m.x j * m.x k * (m.crot j / m.relax j) := by
  have e : ∀ k ∈ range m.n, m.mw j * m.A j k / ((m.mw j + m.mw k) * m.D j k) * (kd i k + kd i j) * m.x j * m.x k *
      (m.crot j / m.relax j) =
      (if i = k then m.mw j * m.A j k / ((m.mw j + m.mw k) * m.D j k) * m.x j * m.x k * (m.crot j / m.relax j) else 0) +
      kd i j * (m.mw j * m.A j k / ((m.mw j + m.mw k) * m.D j k) * m.x j * m.x k * (m.crot j / m.relax j)) := by
    intro k _
    simp only [kd]
    split_ifs <;> ring
  have q : ∀ k, m.q1001 k j = 32 * m.T / (5 * Real.pi * m.cint j) *
      (m.mw j * m.A j k / ((m.mw j + m.mw k) * m.D j k) * m.x j * m.x k * (m.crot j / m.relax j)) := by
    intro k; rw [q1001]
    simp only [div_eq_mul_inv, mul_inv]
    ring
  rw [Finset.sum_congr rfl e]
  simp only [Finset.sum_add_distrib, ← Finset.mul_sum, Finset.sum_ite_eq, mem_range, hi, if_true]
  rw [L1001, modes, decide_eq_true hm, kd]
  by_cases c : i = j
  · subst c
    simp only [if_true, q, ← Finset.mul_sum]
    ring
  · simp only [if_neg c, if_true, q]
    ring

/-- Eq. (12.130). -/
theorem L0101_eq {i : ℕ} (hi : i < m.n) (hm : m.cint i > 0.001) :
    m.L0101 i i = -(8 * m.mw i * m.x i ^ 2 * m.crot i / (Real.pi * m.cint i ^ 2 * m.R * m.visc i * m.relax i)) -
      4 * m.T / m.cint i * ((∑ k ∈ range m.n, m.x i * m.x k / m.D i k) +
        ∑ k ∈ (range m.n).erase i, 12 * m.x i * m.x k / (5 * Real.pi * m.cint i) * (m.mw i / m.mw k) *
          (m.A i k / m.D i k) * (m.crot i / m.relax i)) := by
  rw [L0101, modes, decide_eq_true hm]
  simp only [if_true]
  rw [Finset.sum_add_distrib]
  have s : (∑ k ∈ range m.n, if k ≠ i then m.x k * m.A i k * (12 * m.mw i * m.crot i / (5 * Real.pi * m.cint i * m.relax i)) /
      (m.mw k * m.D i k) else 0) * m.x i = ∑ k ∈ (range m.n).erase i, 12 * m.x i * m.x k / (5 * Real.pi * m.cint i) *
      (m.mw i / m.mw k) * (m.A i k / m.D i k) * (m.crot i / m.relax i) := by
    rw [← Finset.sum_erase_add _ _ (mem_range.2 hi)]
    simp only [ne_eq, not_true_eq_false, if_false, add_zero]
    rw [Finset.sum_mul]
    refine Finset.sum_congr rfl fun k hk => ?_
    rw [if_pos (Finset.ne_of_mem_erase hk)]
    simp only [div_eq_mul_inv, mul_inv]
    ring
  have s1 : (∑ k ∈ range m.n, m.x i * m.x k / m.D i k) = m.x i * ∑ k ∈ range m.n, m.x k / m.D i k := by
    rw [Finset.mul_sum]
    exact Finset.sum_congr rfl fun k _ => by ring
  rw [← s, s1]
  simp only [div_eq_mul_inv, mul_inv]
  ring

/-- Species without internal modes: their unknown is eliminated. -/
theorem L0101_none {k i : ℕ} (hm : ¬ m.cint i > 0.001) : m.L0101 k i = kd k i := by
  rw [L0101, modes, decide_eq_false hm]; rfl

theorem L0101_off {k i : ℕ} (h : k ≠ i) : m.L0101 k i = 0 := by
  rw [L0101]; simp [h]

/-- The matrix is symmetric outside its first block. -/
theorem L_symm {r c : ℕ} (hw : ∀ k < m.n, m.mw k ≠ 0)
    (sD : ∀ i < m.n, ∀ j < m.n, m.D i j = m.D j i) (sA : ∀ i < m.n, ∀ j < m.n, m.A i j = m.A j i)
    (sB : ∀ i < m.n, ∀ j < m.n, m.B i j = m.B j i) (h : m.n ≤ r ∨ m.n ≤ c) : m.L r c = m.L c r := by
  have s1010 : ∀ i < m.n, ∀ j < m.n, m.L1010 i j = m.L1010 j i := by
    intro i hi j hj
    by_cases e : i = j
    · rw [e]
    · rw [L1010, L1010, if_neg e, if_neg (Ne.symm e), term1, term1, term2, term2, sD i hi j hj, sA i hi j hj, sB i hi j hj]
      have wi := hw i hi
      have wj := hw j hj
      rw [add_comm (m.mw j) (m.mw i), add_comm (m.crot j / m.relax j)]
      generalize 1 + 5 / (3 * Real.pi) * (m.crot i / m.relax i + m.crot j / m.relax j) = z1
      generalize m.D j i * (m.mw i + m.mw j) * (m.mw i + m.mw j) = z2
      field_simp
  have s0101 : ∀ i j, m.L0101 i j = m.L0101 j i := by
    intro i j
    by_cases e : i = j
    · rw [e]
    · rw [L0101_off e, L0101_off (Ne.symm e)]
  simp only [L, L1000, L0110]
  split_ifs <;> first | omega | rfl | exact s1010 _ (by omega) _ (by omega) | exact s0101 _ _

/-- Layout of the matrix. -/
theorem L_layout {i j : ℕ} (hi : i < m.n) (hj : j < m.n) :
    m.L i j = m.L0000 i j ∧ m.L i (m.n + j) = m.L0010 i j ∧ m.L i (2 * m.n + j) = 0 ∧
    m.L (m.n + i) j = m.L0010 j i ∧ m.L (m.n + i) (m.n + j) = m.L1010 i j ∧ m.L (m.n + i) (2 * m.n + j) = m.L1001 i j ∧
    m.L (2 * m.n + i) j = 0 ∧ m.L (2 * m.n + i) (m.n + j) = m.L1001 j i ∧ m.L (2 * m.n + i) (2 * m.n + j) = m.L0101 i j := by
  have e1 : m.n + i - m.n = i := by omega
  have e2 : m.n + j - m.n = j := by omega
  have e3 : 2 * m.n + i - 2 * m.n = i := by omega
  have e4 : 2 * m.n + j - 2 * m.n = j := by omega
  have a1 : ¬ m.n + i < m.n := by omega
  have a2 : ¬ m.n + j < m.n := by omega
  have a3 : ¬ 2 * m.n + i < m.n := by omega
  have a4 : ¬ 2 * m.n + j < m.n := by omega
  have a5 : m.n + i < 2 * m.n := by omega
  have a6 : m.n + j < 2 * m.n := by omega
  have a7 : ¬ 2 * m.n + i < 2 * m.n := by omega
  have a8 : ¬ 2 * m.n + j < 2 * m.n := by omega
  simp only [L, L1000, L0110, if_pos hi, if_pos hj, if_neg a1, if_neg a2, if_neg a3, if_neg a4, if_pos a5, if_pos a6, if_neg a7,
    if_neg a8, e1, e2, e3, e4, and_self]

/-- The right hand side. -/
theorem b_layout {i : ℕ} (hi : i < m.n) : m.b i = 0 ∧ m.b (m.n + i) = m.x i ∧
    m.b (2 * m.n + i) = if m.cint i > 0.001 then m.x i else 0 := by
  refine ⟨by rw [b, if_pos hi], ?_, ?_⟩
  · rw [b, if_neg (by omega), if_pos (by omega), Nat.add_sub_cancel_left]
  · rw [b, if_neg (by omega), if_neg (by omega), Nat.add_sub_cancel_left, modes]
    by_cases c : m.cint i > 0.001
    · rw [decide_eq_true c, if_pos rfl, if_pos c]
    · rw [decide_eq_false c, if_neg (by simp), if_neg c]

/-- Unknowns of species without internal modes are zero. -/
theorem no_modes {a : ℕ → ℝ} (ha : m.Solves a) {i : ℕ} (hi : i < m.n) (hm : ¬ m.cint i > 0.001) : a (2 * m.n + i) = 0 := by
  have s := ha (2 * m.n + i) (by omega)
  rw [(b_layout hi).2.2, if_neg hm, show 3 * m.n = m.n + m.n + m.n by ring, Finset.sum_range_add, Finset.sum_range_add] at s
  have z1 : ∑ c ∈ range m.n, m.L (2 * m.n + i) c * a c = 0 :=
    Finset.sum_eq_zero fun c hc => by rw [(L_layout hi (mem_range.1 hc)).2.2.2.2.2.2.1, zero_mul]
  have z2 : ∑ c ∈ range m.n, m.L (2 * m.n + i) (m.n + c) * a (m.n + c) = 0 :=
    Finset.sum_eq_zero fun c hc => by
      rw [(L_layout hi (mem_range.1 hc)).2.2.2.2.2.2.2.1, L1001, modes, decide_eq_false hm, if_neg (by simp), zero_mul]
  have z3 : ∑ c ∈ range m.n, m.L (2 * m.n + i) (m.n + m.n + c) * a (m.n + m.n + c) = a (2 * m.n + i) := by
    have e : ∀ c ∈ range m.n, m.L (2 * m.n + i) (m.n + m.n + c) * a (m.n + m.n + c) =
        if i = c then a (2 * m.n + c) else 0 := by
      intro c hc
      rw [← two_mul, (L_layout hi (mem_range.1 hc)).2.2.2.2.2.2.2.2]
      by_cases d : i = c
      · subst d; rw [L0101_none hm, kd, if_pos rfl, if_pos rfl, one_mul]
      · rw [L0101_off d, if_neg d, zero_mul]
    rw [Finset.sum_congr rfl e, Finset.sum_ite_eq, if_pos (mem_range.2 hi)]
  rw [z1, z2, z3] at s
  simpa using s

/-! ## Thermal diffusion -/

theorem row0 (a : ℕ → ℝ) {r : ℕ} (hr : r < m.n) : ∑ c ∈ range (3 * m.n), m.L r c * a c =
    ∑ j ∈ range m.n, m.L0000 r j * a j + ∑ j ∈ range m.n, m.L0010 r j * a (m.n + j) := by
  rw [show 3 * m.n = m.n + m.n + m.n by ring, Finset.sum_range_add, Finset.sum_range_add]
  have z : ∑ c ∈ range m.n, m.L r (m.n + m.n + c) * a (m.n + m.n + c) = 0 := by
    refine Finset.sum_eq_zero fun c hc => ?_
    rw [L, if_pos hr, if_neg (by omega), if_neg (by omega), zero_mul]
  rw [z, add_zero]
  congr 1
  · refine Finset.sum_congr rfl fun c hc => ?_
    rw [L, if_pos hr, if_pos (mem_range.1 hc)]
  · refine Finset.sum_congr rfl fun c hc => ?_
    have := mem_range.1 hc
    rw [L, if_pos hr, if_neg (by omega), if_pos (by omega), Nat.add_sub_cancel_left]

theorem col0010 {j : ℕ} (hj : j < m.n) : ∑ i ∈ range m.n, m.L0010 i j = 0 := by
  have : ∀ i ∈ range m.n, m.L0010 i j = m.q0010 i j - if i = j then ∑ k ∈ range m.n, m.q0010 k j else 0 := by
    intro i _
    rw [L0010]; split_ifs <;> ring
  rw [Finset.sum_congr rfl this, Finset.sum_sub_distrib]
  simp [hj]

/-- Sum over the species of a factor in the first block. -/
noncomputable def S (m : Data) : ℝ := ∑ i ∈ range m.n, (-m.x i / m.D i i + ∑ k ∈ range m.n, m.x k / m.D i k) / m.mw i

theorem S_pos (h : m.Pos) (h2 : 1 < m.n) : 0 < m.S := by
  have t : ∀ i < m.n, 0 < (-m.x i / m.D i i + ∑ k ∈ range m.n, m.x k / m.D i k) / m.mw i := by
    intro i hi
    refine div_pos ?_ (h.mw i hi)
    rw [← Finset.sum_erase_add _ _ (mem_range.2 hi)]
    have : 0 < ∑ k ∈ (range m.n).erase i, m.x k / m.D i k := by
      obtain ⟨j, hj, jk⟩ : ∃ j < m.n, j ≠ i := by
        by_cases c : i = 0
        · exact ⟨1, h2, by omega⟩
        · exact ⟨0, by omega, fun e => c e.symm⟩
      exact Finset.sum_pos (fun k hk => div_pos (h.x k (mem_range.1 (Finset.mem_of_mem_erase hk)))
        (h.D i hi k (mem_range.1 (Finset.mem_of_mem_erase hk)))) ⟨j, Finset.mem_erase.2 ⟨jk, mem_range.2 hj⟩⟩
    rw [neg_div]
    linarith
  exact Finset.sum_pos (fun i hi => t i (mem_range.1 hi)) ⟨0, mem_range.2 (by omega)⟩

/-- Column sums of the first block. -/
theorem col0000 (h : m.Pos) {j : ℕ} (hj : j < m.n) :
    ∑ i ∈ range m.n, m.L0000 i j = 16 * m.T / 25 * (m.mw j * m.x j) * m.S := by
  have e : ∀ i ∈ range m.n, m.L0000 i j = 16 * m.T / 25 * (m.mw j * m.x j) *
      ((-m.x i / m.D i i + ∑ k ∈ range m.n, m.x k / m.D i k) / m.mw i) + 16 * m.T / 25 * m.x j * (m.x i / m.D i j) -
      (if i = j then 16 * m.T / 25 * m.x j * ∑ k ∈ range m.n, m.x k / m.D j k else 0) := by
    intro i hi
    rw [L0000]
    by_cases c : i = j
    · subst c
      rw [if_pos rfl, if_pos rfl]
      have := (h.mw i hj).ne'
      field_simp
      ring
    · rw [if_neg c, if_neg c]; ring
  rw [Finset.sum_congr rfl e, Finset.sum_sub_distrib, Finset.sum_add_distrib, ← Finset.mul_sum, ← Finset.mul_sum,
    Finset.sum_ite_eq', if_pos (mem_range.2 hj)]
  have s : ∑ i ∈ range m.n, m.x i / m.D i j = ∑ k ∈ range m.n, m.x k / m.D j k :=
    Finset.sum_congr rfl fun i hi => by rw [h.sym i (mem_range.1 hi) j hj]
  rw [s, S]
  ring

/-- The thermal diffusion coefficients sum to zero. -/
theorem thermalDiff_sum (h : m.Pos) (h2 : 1 < m.n) {a : ℕ → ℝ} (ha : m.Solves a) : ∑ k ∈ range m.n, m.thermalDiff a k = 0 := by
  have rows : ∀ r ∈ range m.n, (∑ j ∈ range m.n, m.L0000 r j * a j + ∑ j ∈ range m.n, m.L0010 r j * a (m.n + j)) = 0 := by
    intro r hr
    have hr' := mem_range.1 hr
    have := ha r (by omega)
    rw [row0 a hr', b, if_pos hr'] at this
    exact this
  have s : ∑ r ∈ range m.n, (∑ j ∈ range m.n, m.L0000 r j * a j + ∑ j ∈ range m.n, m.L0010 r j * a (m.n + j)) = 0 :=
    Finset.sum_eq_zero rows
  rw [Finset.sum_add_distrib, Finset.sum_comm, Finset.sum_comm (f := fun r j => m.L0010 r j * a (m.n + j))] at s
  have c2 : ∑ j ∈ range m.n, ∑ i ∈ range m.n, m.L0010 i j * a (m.n + j) = 0 :=
    Finset.sum_eq_zero fun j hj => by rw [← Finset.sum_mul, col0010 (mem_range.1 hj), zero_mul]
  have c1 : ∑ j ∈ range m.n, ∑ i ∈ range m.n, m.L0000 i j * a j =
      16 * m.T / 25 * m.S * ∑ j ∈ range m.n, m.mw j * m.x j * a j := by
    rw [Finset.mul_sum]
    refine Finset.sum_congr rfl fun j hj => ?_
    rw [← Finset.sum_mul, col0000 h (mem_range.1 hj)]
    ring
  rw [c1, c2, add_zero] at s
  have sp := S_pos h h2
  have hT := h.T
  have z : ∑ j ∈ range m.n, m.mw j * m.x j * a j = 0 := by
    rcases mul_eq_zero.1 s with c | c
    · exact absurd c (by positivity)
    · exact c
  have e : ∀ k ∈ range m.n, m.thermalDiff a k = 1.6 / m.R * (m.mw k * m.x k * a k) := fun k _ => by rw [thermalDiff]; ring
  rw [Finset.sum_congr rfl e, ← Finset.mul_sum, z, mul_zero]

/-- Thermal diffusion coefficient, eq. (12.114). -/
theorem thermalDiff_eq (a : ℕ → ℝ) (k : ℕ) : m.thermalDiff a k = 8 / 5 * (m.mw k * m.x k / m.R) * a k := by
  rw [thermalDiff]; ring

/-- The conductivity in terms of the solution. -/
theorem conductivity_eq (a : ℕ → ℝ) : m.conductivity a =
    -4 * (∑ k ∈ range m.n, m.x k * a (m.n + k)) - 4 * ∑ k ∈ (range m.n).filter (fun k => m.cint k > 0.001), m.x k * a (2 * m.n + k) := by
  rw [conductivity, show 2 * m.n = m.n + m.n by ring, Finset.sum_range_add, mul_add, Finset.sum_filter, sub_eq_add_neg,
    ← neg_mul]
  congr 2
  · refine Finset.sum_congr rfl fun k hk => ?_
    have := mem_range.1 hk
    rw [b, if_neg (by omega), if_pos (by omega), Nat.add_sub_cancel, Nat.add_comm]
  · refine Finset.sum_congr rfl fun k hk => ?_
    have := mem_range.1 hk
    rw [b, if_neg (by omega), if_neg (by omega), show m.n + k + m.n = m.n + m.n + k by ring,
      show m.n + m.n + k - 2 * m.n = k by omega, modes]
    by_cases c : m.cint k > 0.001
    · rw [decide_eq_true c, if_pos rfl, if_pos c]
    · rw [decide_eq_false c, if_neg (by simp), if_neg c, zero_mul]

/-- One species: the first row of the matrix vanishes, so that the equations have no unique solution and the solver fails.
The conductivity of a phase with one species cannot be computed. -/
theorem single_singular (h1 : m.n = 1) : ∀ c < 3, m.L 0 c = 0 := by
  intro c hc
  rw [L, if_pos (by omega)]
  by_cases c0 : c < m.n
  · rw [if_pos c0, show c = 0 by omega, L0000, if_pos rfl]
  · rw [if_neg c0]
    by_cases c1 : c < 2 * m.n
    · rw [if_pos c1, show c - m.n = 0 by omega, L0010, if_pos rfl, h1]
      simp
    · rw [if_neg c1]

/-! ## Diffusion velocities -/

theorem aa_row (V : ℕ → ℝ) {i : ℕ} (hi : i < m.n) :
    ∑ j ∈ range m.n, m.aa i j * V j = ∑ j ∈ range m.n, m.x i * m.x j / m.D i j * (V j - V i) := by
  have e : ∀ j ∈ range m.n, m.aa i j * V j = m.x i * m.x j / m.D i j * V j -
      if i = j then (∑ k ∈ range m.n, m.x k * m.x i / m.D i k) * V j else 0 := by
    intro j _
    rw [aa]; split_ifs <;> ring
  rw [Finset.sum_congr rfl e, Finset.sum_sub_distrib, Finset.sum_ite_eq, if_pos (mem_range.2 hi), Finset.sum_mul,
    ← Finset.sum_sub_distrib]
  exact Finset.sum_congr rfl fun j _ => by ring

theorem aa_total (h : m.Pos) (V : ℕ → ℝ) : ∑ i ∈ range m.n, ∑ j ∈ range m.n, m.x i * m.x j / m.D i j * (V j - V i) = 0 := by
  have s : ∑ i ∈ range m.n, ∑ j ∈ range m.n, m.x i * m.x j / m.D i j * (V j - V i) =
      -∑ i ∈ range m.n, ∑ j ∈ range m.n, m.x i * m.x j / m.D i j * (V j - V i) := by
    conv_lhs => rw [Finset.sum_comm]
    rw [← Finset.sum_neg_distrib]
    refine Finset.sum_congr rfl fun i hi => ?_
    rw [← Finset.sum_neg_distrib]
    refine Finset.sum_congr rfl fun j hj => ?_
    rw [h.sym j (mem_range.1 hj) i (mem_range.1 hi)]
    ring
  linarith

/-- The Stefan-Maxwell equations hold for all species, also for the one whose equation was replaced, if the gradients sum to
zero. -/
theorem stefan_maxwell (h : m.Pos) {y gx V : ℕ → ℝ} {jm : ℕ} (hj : jm < m.n) (hg : ∑ k ∈ range m.n, gx k = 0)
    (hV : m.SolvesV y gx jm V) : (∀ i < m.n, ∑ j ∈ range m.n, m.x i * m.x j / m.D i j * (V j - V i) = gx i) ∧
      ∑ j ∈ range m.n, y j * V j = 0 := by
  have off : ∀ i < m.n, i ≠ jm → ∑ j ∈ range m.n, m.x i * m.x j / m.D i j * (V j - V i) = gx i := by
    intro i hi c
    have := hV i hi
    simp only [if_neg c] at this
    rw [← aa_row V hi]; exact this
  have yV : ∑ j ∈ range m.n, y j * V j = 0 := by
    have := hV jm hj
    simpa using this
  refine ⟨fun i hi => ?_, yV⟩
  by_cases c : i = jm
  · subst c
    have t := aa_total h V
    rw [← Finset.sum_erase_add _ _ (mem_range.2 hj)] at t hg
    have e : ∑ k ∈ (range m.n).erase i, ∑ j ∈ range m.n, m.x k * m.x j / m.D k j * (V j - V k) =
        ∑ k ∈ (range m.n).erase i, gx k :=
      Finset.sum_congr rfl fun k hk => off k (mem_range.1 (Finset.mem_of_mem_erase hk)) (Finset.ne_of_mem_erase hk)
    rw [e] at t
    linarith
  · exact off i hi c

/-- Conversely every solution solves the system with any row replaced: the choice of the row does not matter. -/
theorem any_row {y gx V : ℕ → ℝ} (jm : ℕ)
    (h1 : ∀ i < m.n, ∑ j ∈ range m.n, m.x i * m.x j / m.D i j * (V j - V i) = gx i) (h2 : ∑ j ∈ range m.n, y j * V j = 0) :
    m.SolvesV y gx jm V := by
  intro i hi
  by_cases c : i = jm
  · simp only [if_pos c]; exact h2
  · simp only [if_neg c]; rw [aa_row V hi, h1 i hi]

/-- The solution is unique. -/
theorem stefan_unique (h : m.Pos) {y gx V W : ℕ → ℝ} {jm jm' : ℕ} (hj : jm < m.n) (hj' : jm' < m.n)
    (hg : ∑ k ∈ range m.n, gx k = 0) (hy : ∑ k ∈ range m.n, y k ≠ 0) (hV : m.SolvesV y gx jm V) (hW : m.SolvesV y gx jm' W) :
    ∀ i < m.n, V i = W i := by
  obtain ⟨v1, v2⟩ := stefan_maxwell h hj hg hV
  obtain ⟨w1, w2⟩ := stefan_maxwell h hj' hg hW
  set U : ℕ → ℝ := fun i => V i - W i with hU
  have u1 : ∀ i < m.n, ∑ j ∈ range m.n, m.x i * m.x j / m.D i j * (U j - U i) = 0 := by
    intro i hi
    have : ∀ j ∈ range m.n, m.x i * m.x j / m.D i j * (U j - U i) =
        m.x i * m.x j / m.D i j * (V j - V i) - m.x i * m.x j / m.D i j * (W j - W i) := fun j _ => by rw [hU]; ring
    rw [Finset.sum_congr rfl this, Finset.sum_sub_distrib, v1 i hi, w1 i hi, sub_self]
  have q0 : ∑ i ∈ range m.n, ∑ j ∈ range m.n, m.x i * m.x j / m.D i j * (U j - U i) ^ 2 = 0 := by
    have t1 : ∑ i ∈ range m.n, ∑ j ∈ range m.n, m.x i * m.x j / m.D i j * (U j - U i) * U i = 0 :=
      Finset.sum_eq_zero fun i hi => by rw [← Finset.sum_mul, u1 i (mem_range.1 hi), zero_mul]
    have t2 : ∑ i ∈ range m.n, ∑ j ∈ range m.n, m.x i * m.x j / m.D i j * (U j - U i) * U j = 0 := by
      rw [Finset.sum_comm]
      refine Finset.sum_eq_zero fun j hj => ?_
      have : ∀ i ∈ range m.n, m.x i * m.x j / m.D i j * (U j - U i) * U j =
          -(m.x j * m.x i / m.D j i * (U i - U j)) * U j := fun i hi => by
        rw [h.sym i (mem_range.1 hi) j (mem_range.1 hj)]; ring
      rw [Finset.sum_congr rfl this, ← Finset.sum_mul, Finset.sum_neg_distrib, u1 j (mem_range.1 hj)]
      ring
    have : ∑ i ∈ range m.n, ∑ j ∈ range m.n, m.x i * m.x j / m.D i j * (U j - U i) ^ 2 =
        (∑ i ∈ range m.n, ∑ j ∈ range m.n, m.x i * m.x j / m.D i j * (U j - U i) * U j) -
        ∑ i ∈ range m.n, ∑ j ∈ range m.n, m.x i * m.x j / m.D i j * (U j - U i) * U i := by
      rw [← Finset.sum_sub_distrib]
      refine Finset.sum_congr rfl fun i _ => ?_
      rw [← Finset.sum_sub_distrib]
      exact Finset.sum_congr rfl fun j _ => by ring
    rw [this, t1, t2, sub_zero]
  have nn : ∀ i ∈ range m.n, ∀ j ∈ range m.n, 0 ≤ m.x i * m.x j / m.D i j * (U j - U i) ^ 2 := fun i hi j hj =>
    mul_nonneg (div_pos (mul_pos (h.x i (mem_range.1 hi)) (h.x j (mem_range.1 hj)))
      (h.D i (mem_range.1 hi) j (mem_range.1 hj))).le (sq_nonneg _)
  have eq : ∀ i < m.n, ∀ j < m.n, U j = U i := by
    intro i hi j hj
    have z1 := (Finset.sum_eq_zero_iff_of_nonneg (fun i hi => Finset.sum_nonneg (nn i hi))).1 q0 i (mem_range.2 hi)
    have z2 := (Finset.sum_eq_zero_iff_of_nonneg (nn i (mem_range.2 hi))).1 z1 j (mem_range.2 hj)
    have p := div_pos (mul_pos (h.x i hi) (h.x j hj)) (h.D i hi j hj)
    rcases mul_eq_zero.1 z2 with c | c
    · exact absurd c p.ne'
    · exact sub_eq_zero.1 (pow_eq_zero_iff (by norm_num) |>.1 c)
  intro i hi
  have s : ∑ k ∈ range m.n, y k * U k = 0 := by
    have : ∀ k ∈ range m.n, y k * U k = y k * V k - y k * W k := fun k _ => by rw [hU]; ring
    rw [Finset.sum_congr rfl this, Finset.sum_sub_distrib, v2, w2, sub_self]
  have s' : (∑ k ∈ range m.n, y k) * U i = 0 := by
    rw [Finset.sum_mul, ← s]
    exact Finset.sum_congr rfl fun k hk => by rw [eq i hi k (mem_range.1 hk)]
  rcases mul_eq_zero.1 s' with c | c
  · exact absurd c hy
  · exact sub_eq_zero.1 c

/-- Mass flux: density times mass fraction times velocity, minus thermal diffusion. -/
theorem flux_eq (y : ℕ → ℝ) (rho pp : ℝ) (V dt : ℕ → ℝ) (glt : ℝ) (i : ℕ) :
    flux y rho pp V dt glt i = rho * y i * (V i / pp) - dt i * glt := by rw [flux]; ring

/-- The fluxes sum to zero. -/
theorem flux_sum {y gx V dt : ℕ → ℝ} {jm : ℕ} (hj : jm < m.n) (rho pp glt : ℝ) (hV : m.SolvesV y gx jm V)
    (hd : ∑ k ∈ range m.n, dt k = 0) : ∑ k ∈ range m.n, flux y rho pp V dt glt k = 0 := by
  have yV : ∑ j ∈ range m.n, y j * V j = 0 := by simpa using hV jm hj
  have e : ∀ k ∈ range m.n, flux y rho pp V dt glt k = rho / pp * (y k * V k) - dt k * glt := fun k _ => by rw [flux]; ring
  rw [Finset.sum_congr rfl e, Finset.sum_sub_distrib, ← Finset.mul_sum, ← Finset.sum_mul, yV, hd]
  ring

/-- With a species that is absent the equations have no unique solution: its velocity is arbitrary. `getMassFluxes` does not
apply the offset to the mole fractions unless there is a temperature gradient. -/
theorem absent_singular {y gx V : ℕ → ℝ} {jm k : ℕ} (hk : k < m.n) (hx : m.x k = 0) (hy : y k = 0) (hV : m.SolvesV y gx jm V)
    (t : ℝ) : m.SolvesV y gx jm (fun i => V i + if i = k then t else 0) := by
  intro i hi
  have e : ∀ j ∈ range m.n, (if i = jm then y j else m.aa i j) * (V j + if j = k then t else 0) =
      (if i = jm then y j else m.aa i j) * V j := by
    intro j _
    by_cases c : j = k
    · subst c
      have z : (if i = jm then y j else m.aa i j) = 0 := by
        split_ifs
        · exact hy
        · rw [aa]
          split_ifs with c
          · rw [c, hx]; simp
          · rw [hx]; simp
      rw [z, zero_mul, zero_mul]
    · rw [if_neg c, add_zero]
  rw [Finset.sum_congr rfl e]
  exact hV i hi

/-- The largest gradient. -/
theorem jmax_max (gx : ℕ → ℝ) (hn : 0 < m.n) : m.jmax gx < m.n ∧ ∀ j < m.n, |gx j| ≤ |gx (m.jmax gx)| := by
  have key : ∀ r, 0 < r → let s := (List.range r).foldl (fun s j => if |gx j| > s.2 then (j, |gx j|) else s) (0, (-1 : ℝ))
      s.1 < r ∧ s.2 = |gx s.1| ∧ ∀ j < r, |gx j| ≤ s.2 := by
    intro r
    induction r with
    | zero => intro h; omega
    | succ r ih =>
      intro _
      rw [List.range_succ, List.foldl_append]
      simp only [List.foldl_cons, List.foldl_nil]
      rcases Nat.eq_zero_or_pos r with c | c
      · subst c
        have g : |gx 0| > -1 := by have := abs_nonneg (gx 0); linarith
        have e : (if |gx 0| > ((List.range 0).foldl (fun s j => if |gx j| > s.2 then (j, |gx j|) else s) (0, (-1 : ℝ))).2
            then (0, |gx 0|) else (List.range 0).foldl (fun s j => if |gx j| > s.2 then (j, |gx j|) else s) (0, (-1 : ℝ))) =
            (0, |gx 0|) := if_pos g
        rw [e]
        exact ⟨by simp, rfl, fun j hj => by rw [show j = 0 by omega]⟩
      · obtain ⟨i1, i2, i3⟩ := ih c
        generalize (List.range r).foldl (fun s j => if |gx j| > s.2 then (j, |gx j|) else s) (0, (-1 : ℝ)) = s at *
        split_ifs with d
        · refine ⟨by simp, rfl, fun j hj => ?_⟩
          rcases Nat.lt_or_ge j r with e | e
          · exact (i3 j e).trans d.le
          · rw [show j = r by omega]
        · refine ⟨by omega, i2, fun j hj => ?_⟩
          rcases Nat.lt_or_ge j r with e | e
          · exact i3 j e
          · rw [show j = r by omega]; exact not_lt.1 d
  obtain ⟨k1, k2, k3⟩ := key m.n hn
  exact ⟨k1, fun j hj => by rw [jmax, ← k2]; exact k3 j hj⟩

/-- `getMassFluxes` compares differences with gradients and may choose a species with a smaller gradient: with differences
1, 2, 3 over a distance of 1/4 it chooses the first one. The result is the same (`any_row`, `stefan_unique`). -/
theorem jmaxMass_not_max (h3 : m.n = 3) : m.jmaxMass (fun k => k + 1) (1 / 4) = 0 := by
  have r3 : List.range 3 = [0, 1, 2] := rfl
  rw [jmaxMass, h3, r3]
  norm_num

/-! ## Multicomponent diffusion coefficients -/

theorem multiDiff_self (P : ℕ → ℕ → ℝ) (mmw p : ℝ) (i : ℕ) : m.multiDiff P mmw p i i = 0 := by
  rw [multiDiff]; ring

theorem weighted_inv (h : m.Pos) {P : ℕ → ℕ → ℝ} (hP : m.IsInv P) {j : ℕ} (hj : j < m.n) :
    16 * m.T / 25 * m.S * ∑ i ∈ range m.n, m.mw i * m.x i * P i j = 1 := by
  have c : ∑ i ∈ range m.n, ∑ k ∈ range m.n, m.L0000 i k * P k j = 1 := by
    rw [Finset.sum_congr rfl fun i hi => hP.right i (mem_range.1 hi) j hj]
    simp [hj]
  rw [Finset.sum_comm] at c
  rw [Finset.mul_sum, ← c]
  refine Finset.sum_congr rfl fun i hi => ?_
  rw [← Finset.sum_mul, col0000 h (mem_range.1 hi)]
  ring

/-- The coefficients satisfy the condition that makes the fluxes sum to zero. -/
theorem multiDiff_sum (h : m.Pos) (h2 : 1 < m.n) {P : ℕ → ℕ → ℝ} (hP : m.IsInv P) (mmw p : ℝ) {j k : ℕ} (hj : j < m.n)
    (hk : k < m.n) : ∑ i ∈ range m.n, m.mw i * m.mw j * m.multiDiff P mmw p i j =
      ∑ i ∈ range m.n, m.mw i * m.mw k * m.multiDiff P mmw p i k := by
  have hT := h.T
  have sp := S_pos h h2
  have key : ∀ l < m.n, ∑ i ∈ range m.n, m.mw i * m.mw l * m.multiDiff P mmw p i l =
      16 * m.T * mmw / (25 * p) * ((∑ i ∈ range m.n, m.mw i * m.x i * P i l) - ∑ i ∈ range m.n, m.mw i * m.x i * P i i) := by
    intro l hl
    rw [← Finset.sum_sub_distrib, Finset.mul_sum]
    refine Finset.sum_congr rfl fun i _ => ?_
    rw [multiDiff]
    have := (h.mw l hl).ne'
    field_simp
  have e : ∑ i ∈ range m.n, m.mw i * m.x i * P i j = ∑ i ∈ range m.n, m.mw i * m.x i * P i k := by
    have a := weighted_inv h hP hj
    have b := weighted_inv h hP hk
    have c : 16 * m.T / 25 * m.S ≠ 0 := by positivity
    exact mul_left_cancel₀ c (a.trans b.symm)
  rw [key j hj, key k hk, e]

/-- The velocities computed with the multicomponent coefficients solve the Stefan-Maxwell equations. -/
theorem multiDiff_stefan (h : m.Pos) (h2 : 1 < m.n) {P : ℕ → ℕ → ℝ} (hP : m.IsInv P) {mmw p : ℝ} (hm : mmw ≠ 0) (hp : p ≠ 0)
    {d : ℕ → ℝ} (hd : ∑ k ∈ range m.n, d k = 0) :
    let V : ℕ → ℝ := fun i => (∑ j ∈ range m.n, m.mw j * m.multiDiff P mmw p i j * d j) / (m.x i * mmw)
    (∀ i < m.n, ∑ j ∈ range m.n, m.x i * m.x j / (m.D i j / p) * (V j - V i) = d i) ∧
      ∑ i ∈ range m.n, m.mw i * m.x i * V i = 0 := by
  intro V
  have hT := h.T
  have sp := S_pos h h2
  have cT : 16 * m.T / 25 ≠ 0 := by positivity
  -- the velocities times pressure
  set U : ℕ → ℝ := fun i => 16 * m.T / 25 * ∑ j ∈ range m.n, P i j * d j with hU
  have VU : ∀ i < m.n, V i = U i / p := by
    intro i hi
    have : ∀ j ∈ range m.n, m.mw j * m.multiDiff P mmw p i j * d j =
        m.x i * mmw / p * (16 * m.T / 25) * (P i j * d j) - m.x i * mmw / p * (16 * m.T / 25) * P i i * d j := by
      intro j hj
      rw [multiDiff]
      have := (h.mw j (mem_range.1 hj)).ne'
      field_simp
    simp only [V, hU]
    rw [Finset.sum_congr rfl this, Finset.sum_sub_distrib, ← Finset.mul_sum, ← Finset.mul_sum, hd]
    have := (h.x i hi).ne'
    field_simp
    ring
  have mass : ∑ i ∈ range m.n, m.mw i * m.x i * U i = 0 := by
    have e : ∑ i ∈ range m.n, m.mw i * m.x i * U i =
        16 * m.T / 25 * ∑ j ∈ range m.n, (∑ i ∈ range m.n, m.mw i * m.x i * P i j) * d j := by
      have s1 : ∀ i ∈ range m.n, m.mw i * m.x i * U i = ∑ j ∈ range m.n, 16 * m.T / 25 * (m.mw i * m.x i * P i j * d j) := by
        intro i _
        rw [hU]
        dsimp only
        rw [← mul_assoc, Finset.mul_sum]
        exact Finset.sum_congr rfl fun j _ => by ring
      rw [Finset.sum_congr rfl s1, Finset.sum_comm, Finset.mul_sum]
      refine Finset.sum_congr rfl fun j _ => ?_
      rw [Finset.sum_mul, Finset.mul_sum]
    have c : ∀ j ∈ range m.n, (∑ i ∈ range m.n, m.mw i * m.x i * P i j) * d j = 1 / (16 * m.T / 25 * m.S) * d j := by
      intro j hj
      have := weighted_inv h hP (mem_range.1 hj)
      congr 1
      have c' : 16 * m.T / 25 * m.S ≠ 0 := by positivity
      rw [eq_div_iff c', mul_comm]; exact this
    rw [e, Finset.sum_congr rfl c, ← Finset.mul_sum, hd]
    ring
  have rowU : ∀ i < m.n, ∑ j ∈ range m.n, m.L0000 i j * U j = 16 * m.T / 25 * d i := by
    intro i hi
    have s1 : ∀ j ∈ range m.n, m.L0000 i j * U j = ∑ k ∈ range m.n, 16 * m.T / 25 * (m.L0000 i j * P j k * d k) := by
      intro j _
      rw [hU]
      dsimp only
      rw [← mul_assoc, Finset.mul_sum]
      exact Finset.sum_congr rfl fun k _ => by ring
    rw [Finset.sum_congr rfl s1, Finset.sum_comm]
    have s2 : ∀ k ∈ range m.n, ∑ j ∈ range m.n, 16 * m.T / 25 * (m.L0000 i j * P j k * d k) =
        if i = k then 16 * m.T / 25 * d k else 0 := by
      intro k hk
      rw [← Finset.mul_sum, ← Finset.sum_mul, hP.right i hi k (mem_range.1 hk)]
      split_ifs <;> ring
    rw [Finset.sum_congr rfl s2, Finset.sum_ite_eq, if_pos (mem_range.2 hi)]
  have smU : ∀ i < m.n, ∑ j ∈ range m.n, m.x i * m.x j / m.D i j * (U j - U i) = d i := by
    intro i hi
    have r := rowU i hi
    set s := (-m.x i / m.D i i + ∑ k ∈ range m.n, m.x k / m.D i k) / m.mw i with hs
    have e : ∀ j ∈ range m.n, m.L0000 i j * U j = 16 * m.T / 25 * (s * (m.mw j * m.x j * U j) + m.x i * m.x j / m.D i j * U j) -
        if i = j then 16 * m.T / 25 * (s * (m.mw j * m.x j) + m.x i * m.x j / m.D i j) * U j else 0 := by
      intro j _
      rw [L0000]
      by_cases c : i = j
      · subst c; rw [if_pos rfl, if_pos rfl]; ring
      · rw [if_neg c, if_neg c]; simp only [← hs]; ring
    rw [Finset.sum_congr rfl e, Finset.sum_sub_distrib, Finset.sum_ite_eq, if_pos (mem_range.2 hi), ← Finset.mul_sum,
      Finset.sum_add_distrib, ← Finset.mul_sum, mass, mul_zero, zero_add] at r
    have w := (h.mw i hi).ne'
    have d1 : s * (m.mw i * m.x i) + m.x i * m.x i / m.D i i = m.x i * ∑ k ∈ range m.n, m.x k / m.D i k := by
      rw [hs]; field_simp; ring
    rw [d1] at r
    have r' : ∑ j ∈ range m.n, m.x i * m.x j / m.D i j * U j - m.x i * (∑ k ∈ range m.n, m.x k / m.D i k) * U i = d i := by
      refine mul_left_cancel₀ cT ?_
      rw [← r]; ring
    rw [← r']
    have : ∀ j ∈ range m.n, m.x i * m.x j / m.D i j * (U j - U i) =
        m.x i * m.x j / m.D i j * U j - m.x i * (m.x j / m.D i j) * U i := fun j _ => by ring
    rw [Finset.sum_congr rfl this, Finset.sum_sub_distrib, ← Finset.sum_mul, ← Finset.mul_sum]
  constructor
  · intro i hi
    rw [← smU i hi]
    refine Finset.sum_congr rfl fun j hj => ?_
    rw [VU i hi, VU j (mem_range.1 hj)]
    have := (h.D i hi j (mem_range.1 hj)).ne'
    field_simp
  · have : ∀ i ∈ range m.n, m.mw i * m.x i * V i = m.mw i * m.x i * U i / p := fun i hi => by
      rw [VU i (mem_range.1 hi)]; ring
    rw [Finset.sum_congr rfl this, ← Finset.sum_div, mass, zero_div]

/-- Two species: the binary diffusion coefficient. -/
theorem multiDiff_binary (h : m.Pos) (h2 : m.n = 2) {P : ℕ → ℕ → ℝ} (hP : m.IsInv P) (p : ℝ) :
    m.multiDiff P (m.x 0 * m.mw 0 + m.x 1 * m.mw 1) p 0 1 = m.D 0 1 / p := by
  have x0 := h.x 0 (by omega)
  have x1 := h.x 1 (by omega)
  have w0 := h.mw 0 (by omega)
  have w1 := h.mw 1 (by omega)
  have d := h.D 0 (by omega) 1 (by omega)
  have hT := h.T
  have a := hP.right 1 (by omega) 1 (by omega)
  have c := hP.right 1 (by omega) 0 (by omega)
  rw [h2] at a c
  simp only [Finset.sum_range_succ, Finset.sum_range_zero, zero_add, if_true, one_ne_zero, if_false] at a c
  have z : m.L0000 1 1 = 0 := by rw [L0000, if_pos rfl]
  have e : m.L0000 1 0 = 16 * m.T / 25 * m.x 0 * ((m.x 0 * m.mw 0 + m.x 1 * m.mw 1) / (m.mw 1 * m.D 0 1)) := by
    rw [L0000, if_neg (by norm_num), h2]
    simp only [Finset.sum_range_succ, Finset.sum_range_zero, zero_add]
    rw [h.sym 1 (by omega) 0 (by omega)]
    have := (h.D 1 (by omega) 1 (by omega)).ne'
    field_simp
    ring
  rw [z, zero_mul, add_zero] at a c
  have wp : 0 < m.x 0 * m.mw 0 + m.x 1 * m.mw 1 := by positivity
  rw [e] at a c
  generalize m.x 0 * m.mw 0 + m.x 1 * m.mw 1 = w at *
  have P00 : P 0 0 = 0 := by
    rcases mul_eq_zero.1 c with c | c
    · exact absurd c (by positivity)
    · exact c
  have P01 : P 0 1 = m.mw 1 * m.D 0 1 / (16 * m.T / 25 * m.x 0 * w) := by
    rw [eq_div_iff (by positivity)]
    have : m.mw 1 * m.D 0 1 ≠ 0 := by positivity
    field_simp at a ⊢
    linarith
  rw [multiDiff, P00, P01]
  by_cases c : p = 0
  · rw [c]; simp
  · field_simp
    ring

/-- Data for two species. -/
noncomputable def demo : Data where
  n := 2
  mw := fun k => if k = 0 then 2 else 32
  T := 300
  x := fun _ => 1 / 2
  D := fun _ _ => 1
  A := fun _ _ => 1
  B := fun _ _ => 1
  C := fun _ _ => 1
  crot := fun _ => 1
  relax := fun _ => 1
  cint := fun _ => 1
  visc := fun _ => 1
  R := 8314

theorem demo_pos : demo.Pos := by
  refine ⟨?_, ?_, ?_, ?_, by norm_num [demo]⟩
  · intro k _; simp only [demo]; split_ifs <;> norm_num
  · intro k _; norm_num [demo]
  · intro i _ j _; norm_num [demo]
  · intro i _ j _; rfl

/-- The equations for the velocities have a solution for this data. -/
example : demo.SolvesV (fun k => if k = 0 then 1 / 17 else 16 / 17) (fun k => if k = 0 then 1 else -1) 0
    (fun k => if k = 0 then -(64 / 17) else 4 / 17) := by
  intro i hi
  have hi' : i < 2 := hi
  interval_cases i <;> norm_num [demo, aa, Finset.sum_range_succ]

/-- The equations for conductivity and thermal diffusion have a solution for similar data. -/
example : ({demo with mw := fun _ => 1, T := 25 / 16, C := fun _ _ => 5 / 6, crot := fun _ => 0, cint := fun _ => 0} : Data).Solves
    (fun r => if r = 2 ∨ r = 3 then -(1 / 2) else 0) := by
  intro r hr
  have hr' : r < 6 := hr
  interval_cases r <;> norm_num [demo, L, L0000, L1000, L0010, q0010, L1010, L1001, L0110, L0101, modes, term1, term2, b,
    Finset.sum_range_succ]

/-- The first block of this data has an inverse. -/
example : ∃ P, demo.IsInv P := by
  refine ⟨fun i j => if i = j then 0 else if i = 0 then 1 / demo.L0000 1 0 else 1 / demo.L0000 0 1, ?_, ?_⟩ <;>
  · intro i hi j hj
    have hi' : i < 2 := hi
    have hj' : j < 2 := hj
    interval_cases i <;> interval_cases j <;> norm_num [demo, L0000, Finset.sum_range_succ]

end Verif.Transport.Multi.Data
