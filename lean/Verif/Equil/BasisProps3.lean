import Verif.Equil.BasisProps2
import Mathlib.LinearAlgebra.Matrix.NonsingularInverse

/-!
# Witnesses, `ElemRearrange`, formation reactions
-/

namespace Verif.Basis

open Verif Set

/-! ## Witnesses -/

/-- H2, O2 and O in a mixture that also knows the element N. -/
def demo : Prob where
  ne := 3
  nsp := 3
  atoms := fun k e => if k = 0 then (if e = 0 then 2 else 0)
    else if k = 1 then (if e = 1 then 2 else 0) else (if e = 1 then 1 else 0)
  moles := fun k => if k = 0 then 3 else if k = 1 then 2 else 1

/-- Two components are found, but the exchange after the species are exhausted replaces H2 by O: the
returned components are O and O2, which are dependent. -/
theorem exhausted_exchange : ∃ s, basis demo [] [] = .ok (s, 2) ∧ s.order 0 = 2 ∧ s.order 1 = 1 ∧
    ∀ e, 2 * demo.atoms (s.order 0) e - 1 * demo.atoms (s.order 1) e = 0 := by
  obtain ⟨s, nc, o, h1, h2, h3, h4, h5, h6, -, -, h7⟩ := basis_spec demo [] [] (by
    intro k hk
    simp only [demo]
    split_ifs <;> norm_num) (by intro h; simp [demo] at h)
  have hE : initE [] demo.ne = id := by simp [initE, demo]
  rw [hE] at h4 h5 h6 h7
  simp only [id] at h4 h5 h6 h7
  have hlt : ∀ i < 3, o i < 3 := fun i hi => h2.mapsTo (show i ∈ Iio demo.nsp from hi)
  have hinj : ∀ i < 3, ∀ j < 3, o i = o j → i = j := fun i hi j hj h =>
    h2.injOn (show i ∈ Iio demo.nsp from hi) (show j ∈ Iio demo.nsp from hj) h
  have s3 : ∀ f : ℕ → ℝ, ∑ e ∈ Finset.range demo.ne, f e = f 0 + f 1 + f 2 := by
    intro f; simp [demo, Finset.sum_range_succ]
  have hmin : min demo.ne demo.nsp = 3 := by simp [demo]
  rw [hmin] at h3 h7
  have a0 : ∀ e, demo.atoms 0 e = if e = 0 then 2 else 0 := fun e => by simp [demo]
  have a1 : ∀ e, demo.atoms 1 e = if e = 1 then 2 else 0 := fun e => by simp [demo]
  have a2 : ∀ e, demo.atoms 2 e = if e = 1 then 1 else 0 := fun e => by simp [demo]
  have m0 : demo.moles 0 = 3 := by simp [demo]
  have m1 : demo.moles 1 = 2 := by simp [demo]
  have m2 : demo.moles 2 = 1 := by simp [demo]
  have nsp3 : demo.nsp = 3 := rfl
  have ne3 : demo.ne = 3 := rfl
  -- at least one component, the first is H2
  have hpos : 0 < nc := by
    by_contra h0
    have h0 : nc = 0 := by omega
    subst h0
    rcases h7 with ⟨h, _⟩ | ⟨_, _, h⟩
    · omega
    · obtain ⟨a, ha⟩ := h 0 (by rw [nsp3]; norm_num)
      rw [s3] at ha
      simp [a0] at ha
      norm_num at ha
  have ho0 : o 0 = 0 := by
    rcases h5 0 hpos 0 (by rw [nsp3]; norm_num) with h | ⟨a, ha⟩
    · have := hlt 0 (by norm_num)
      rw [m0] at h
      interval_cases ho : o 0
      · rfl
      · rw [m1] at h; norm_num at h
      · rw [m2] at h; norm_num at h
    · rw [s3] at ha
      simp [a0] at ha
      norm_num at ha
  have far1 : ∀ a : ℕ → ℝ, ¬ ∑ e ∈ Finset.range demo.ne, (demo.atoms 1 e -
      ∑ j ∈ Finset.range 1, a j * demo.atoms (o j) e) ^ 2 ≤ 1e-6 := by
    intro a ha
    rw [s3] at ha
    simp [ho0, a0, a1] at ha
    have : (0 : ℝ) ≤ (a 0 * 2) ^ 2 := sq_nonneg _
    norm_num at ha
    nlinarith
  have h1lt : 1 < nc := by
    by_contra h0
    have h0 : nc = 1 := by omega
    subst h0
    rcases h7 with ⟨h, _⟩ | ⟨_, _, h⟩
    · omega
    · obtain ⟨a, ha⟩ := h 1 (by rw [nsp3]; norm_num)
      exact far1 a ha
  have ho1 : o 1 = 1 := by
    rcases h5 1 h1lt 1 (by rw [nsp3]; norm_num) with h | ⟨a, ha⟩
    · have := hlt 1 (by norm_num)
      have hne : o 1 ≠ 0 := fun he => by
        have := hinj 1 (by norm_num) 0 (by norm_num) (he.trans ho0.symm); omega
      rw [m1] at h
      interval_cases ho : o 1
      · exact absurd rfl hne
      · rfl
      · rw [m2] at h; norm_num at h
    · exact absurd ha (far1 a)
  have ho2 : o 2 = 2 := by
    have := hlt 2 (by norm_num)
    have n0 : o 2 ≠ 0 := fun he => by
      have := hinj 2 (by norm_num) 0 (by norm_num) (he.trans ho0.symm); omega
    have n1 : o 2 ≠ 1 := fun he => by
      have := hinj 2 (by norm_num) 1 (by norm_num) (he.trans ho1.symm); omega
    omega
  have hnc : nc = 2 := by
    by_contra hne
    have hnc : nc = 3 := by omega
    subst hnc
    have := h4 (fun i => if i = 1 then 1 else if i = 2 then -2 else 0) (by
      intro e he
      simp [Finset.sum_range_succ, ho1, ho2, a1, a2]) 1 (by norm_num)
    simp at this
  subst hnc
  rcases h7 with ⟨h, _⟩ | ⟨_, ⟨k, hk, hk0, hord⟩, _⟩
  · omega
  · have : k = 0 := hinj k hk 0 (by norm_num) (hk0.trans ho0.symm)
    subst this
    have e0 : s.order 0 = 2 := by rw [hord]; simp [ho2]
    have e1 : s.order 1 = 1 := by
      rw [hord]
      simp only
      rw [Equiv.swap_apply_of_ne_of_ne (by norm_num) (by norm_num), ho1]
    refine ⟨s, h1, e0, e1, fun e => ?_⟩
    rw [e0, e1, a1, a2]
    split_ifs <;> norm_num

/-- Two large molecules whose formulas are not proportional. -/
def large : Prob where
  ne := 2
  nsp := 2
  atoms := fun k e => if e = 0 then (if k = 0 then 1000 else 1001) else 1
  moles := fun k => if k = 0 then 2 else 1

/-- The limit rejects independent species: one component is found where there are two. -/
theorem independent_rejected :
    (∀ a b : ℝ, (∀ e < 2, a * large.atoms 0 e + b * large.atoms 1 e = 0) → a = 0 ∧ b = 0) ∧
    ∃ s nc, basis large [] [] = .ok (s, nc) ∧ nc < 2 := by
  constructor
  · intro a b h
    have h0 := h 0 (by norm_num)
    have h1 := h 1 (by norm_num)
    simp [large] at h0 h1
    constructor <;> linarith
  · obtain ⟨s, nc, o, h1, h2, h3, h4, h5, h6, -, -, h7⟩ := basis_spec large [] [] (by
      intro k hk
      simp only [large]
      split_ifs <;> norm_num) (by intro h; simp [large] at h)
    have hE : initE [] large.ne = id := by simp [initE, large]
    rw [hE] at h5 h6
    simp only [id] at h5 h6
    refine ⟨s, nc, h1, ?_⟩
    by_contra hnc
    have hmin : min large.ne large.nsp = 2 := by simp [large]
    have hnc : nc = 2 := by omega
    subst hnc
    have s2 : ∀ f : ℕ → ℝ, ∑ e ∈ Finset.range large.ne, f e = f 0 + f 1 := by
      intro f; simp [large, Finset.sum_range_succ]
    have hlt : ∀ i < 2, o i < 2 := fun i hi => h2.mapsTo (show i ∈ Iio large.nsp from hi)
    have ho : o 1 ≠ o 0 := fun h => by
      have := h2.injOn (show 1 ∈ Iio large.nsp from by simp [large]) (show 0 ∈ Iio large.nsp from by simp [large]) h
      omega
    have ho0 : o 0 = 0 := by
      rcases h5 0 (by norm_num) 0 (by simp [large]) with h | ⟨a, ha⟩
      · have := hlt 0 (by norm_num)
        interval_cases hh : o 0
        · rfl
        · simp [large] at h
      · rw [s2] at ha
        simp [large] at ha
        norm_num at ha
    have ho1 : o 1 = 1 := by
      have := hlt 1 (by norm_num)
      omega
    have := h6 1 (by norm_num) (fun _ => 1001001 / 1000001)
    rw [s2] at this
    simp [ho0, ho1, large] at this
    norm_num at this

/-! ## Elements -/

theorem firstFrom_spec {n jr : ℕ} {p : ℕ → Prop} :
    (∀ k, firstFrom n jr p = some k → k < n ∧ jr ≤ k ∧ p k) ∧
    (firstFrom n jr p = none → ∀ k < n, jr ≤ k → ¬ p k) := by
  unfold firstFrom
  constructor
  · intro k h
    have h1 := List.find?_some h
    have h2 := List.mem_of_find?_eq_some h
    simp only [List.mem_filter, List.mem_range, decide_eq_true_eq] at h1 h2
    exact ⟨h2.1, h2.2, h1⟩
  · intro h k hk hj hp
    have := List.find?_eq_none.1 h k (by simp [hk, hj])
    simp [hp] at this

theorem pickElem_eq (ne : ℕ) (s : ESt) :
    pickElem ne s = firstFrom ne s.rows.length fun i => s.ab (s.order i) ≠ -1 := by
  unfold pickElem
  simp only
  cases hk : firstFrom ne s.rows.length fun i => s.ab (s.order i) ≠ -1 with
  | some k => rfl
  | none =>
    simp only
    cases h : firstFrom ne s.rows.length fun i => s.ab (s.order i) ≠ -1 ∧ 0 < s.ab (s.order i) with
    | none => rfl
    | some k =>
      obtain ⟨h1, h2, h3⟩ := firstFrom_spec.1 k h
      exact absurd h3.1 (firstFrom_spec.2 hk k h1 h2)

/-- Row of an element: its content in the components. -/
def row (P : Prob) (oS : ℕ → ℕ) (j : ℕ) : ℕ → ℝ := fun i => P.atoms (oS i) j

structure EInv (P : Prob) (oS : ℕ → ℕ) (nc : ℕ) (ab : ℕ → ℝ) (s : ESt) : Prop where
  bij : BijOn s.order (Iio P.ne) (Iio P.ne)
  gram : Gram nc (fun i => row P oS (s.order i)) s.rows
  len : s.rows.length ≤ P.ne
  used : ∀ j < P.ne, s.ab j = ab j ∨
    (s.ab j = -1 ∧ Close nc (fun i => row P oS (s.order i)) s.rows.length (row P oS j))

noncomputable def leftE (P : Prob) (s : ESt) : ℕ :=
  ((Finset.range P.ne).filter fun k => s.ab k ≠ -1).card

theorem innerE_spec (P : Prob) (oS : ℕ → ℕ) (nc : ℕ) (ab : ℕ → ℝ) (f : ℕ) (s : ESt)
    (hI : EInv P oS nc ab s) (hf : leftE P s < f) :
    (∃ s' k, innerE P oS nc f s = .ok (s', k, residual nc s.rows (row P oS (s.order k))) ∧
      s'.order = s.order ∧ s'.rows = s.rows ∧ k < P.ne ∧ s.rows.length ≤ k ∧
      1e-6 < ip nc (residual nc s.rows (row P oS (s.order k))) (residual nc s.rows (row P oS (s.order k))) ∧
      s'.ab (s.order k) = -1 ∧
      ∀ j < P.ne, j ≠ s.order k → s'.ab j = ab j ∨
        (s'.ab j = -1 ∧ Close nc (fun i => row P oS (s.order i)) s.rows.length (row P oS j))) ∨
    (innerE P oS nc f s = .throw ∧ ∀ i < P.ne, s.rows.length ≤ i → ab (s.order i) = -1 ∨
      Close nc (fun i => row P oS (s.order i)) s.rows.length (row P oS (s.order i))) := by
  classical
  induction f generalizing s with
  | zero => omega
  | succ f ih =>
    unfold innerE
    rw [pickElem_eq]
    cases hp : firstFrom P.ne s.rows.length fun i => s.ab (s.order i) ≠ -1 with
    | none =>
      right
      refine ⟨rfl, fun i hi hj => ?_⟩
      have hne := firstFrom_spec.2 hp i hi hj
      push Not at hne
      rcases hI.used (s.order i) (hI.bij.mapsTo (show i ∈ Iio P.ne from hi)) with h | ⟨_, h⟩
      · left; rw [← h]; exact hne
      · exact Or.inr h
    | some k =>
      obtain ⟨k1, k2, k3⟩ := firstFrom_spec.1 k hp
      have hok : s.order k < P.ne := hI.bij.mapsTo (show k ∈ Iio P.ne from k1)
      simp only
      have hv : (fun j => P.atoms (oS j) (s.order k)) = row P oS (s.order k) := rfl
      rw [hv]
      by_cases hc : 1e-6 < ip nc (residual nc s.rows (row P oS (s.order k)))
          (residual nc s.rows (row P oS (s.order k)))
      · left
        rw [if_pos hc]
        refine ⟨_, k, rfl, rfl, rfl, k1, k2, hc, by simp, fun j hj hne => ?_⟩
        simp only
        rw [Function.update_of_ne hne]
        exact hI.used j hj
      · rw [if_neg hc]
        have hcl := Close.of_residual hI.gram (row P oS (s.order k)) hc
        have hI' : EInv P oS nc ab { s with ab := Function.update s.ab (s.order k) (-1) } := by
          refine ⟨hI.bij, hI.gram, hI.len, fun j hj => ?_⟩
          simp only
          by_cases h : j = s.order k
          · right; rw [h, Function.update_self]; exact ⟨rfl, hcl⟩
          · rw [Function.update_of_ne h]; exact hI.used j hj
        have hl : leftE P { s with ab := Function.update s.ab (s.order k) (-1) } < leftE P s := by
          unfold leftE
          apply Finset.card_lt_card
          refine ⟨fun j hj => ?_, fun hsub => ?_⟩
          · simp only [Finset.mem_filter, Finset.mem_range] at hj ⊢
            refine ⟨hj.1, ?_⟩
            by_cases h : j = s.order k
            · rw [h, Function.update_self] at hj; exact absurd rfl hj.2
            · rw [Function.update_of_ne h] at hj; exact hj.2
          · have : s.order k ∈ (Finset.range P.ne).filter fun j => s.ab j ≠ -1 := by
              simp only [Finset.mem_filter, Finset.mem_range]; exact ⟨hok, k3⟩
            have := hsub this
            simp at this
        exact ih _ hI' (by omega)

theorem outerE_spec (P : Prob) (oS : ℕ → ℕ) (nc : ℕ) (ab : ℕ → ℝ) (rem : ℕ) (s : ESt)
    (hI : EInv P oS nc ab s) :
    (∃ s', outerE P oS nc rem s = .ok s' ∧ EInv P oS nc ab s' ∧ s'.rows.length = s.rows.length + rem) ∨
    (outerE P oS nc rem s = .throw ∧ ∃ s', EInv P oS nc ab s' ∧ s'.rows.length < s.rows.length + rem ∧
      ∀ i < P.ne, s'.rows.length ≤ i → ab (s'.order i) = -1 ∨
        Close nc (fun i => row P oS (s'.order i)) s'.rows.length (row P oS (s'.order i))) := by
  induction rem generalizing s with
  | zero => exact Or.inl ⟨s, rfl, hI, rfl⟩
  | succ rem ih =>
    have hle : leftE P s < P.ne + 1 := by
      unfold leftE
      have := (Finset.card_filter_le (Finset.range P.ne) fun k => s.ab k ≠ -1)
      simp only [Finset.card_range] at this
      omega
    rcases innerE_spec P oS nc ab (P.ne + 1) s hI hle with
      ⟨s', k, h0, h1, h2, h3, h4, h5, h6, h7⟩ | ⟨h0, h1⟩
    · have hbelow : ∀ i < s.rows.length, swapAt s.order s.rows.length k i = s.order i :=
        fun i hi => swap_below _ hi (by omega)
      have hat : swapAt s.order s.rows.length k s.rows.length = s.order k := swap_at _ _ _
      have hV : ∀ i < s.rows.length, row P oS (s.order i) =
          row P oS (swapAt s.order s.rows.length k i) := fun i hi => by rw [hbelow i hi]
      have hI' : EInv P oS nc ab { s' with
          order := swapAt s'.order s'.rows.length k
          rows := s'.rows ++ [residual nc s.rows (row P oS (s.order k))] } := by
        rw [h1, h2]
        have hg : Gram nc (fun i => row P oS (swapAt s.order s.rows.length k i)) s.rows := hI.gram.congr hV
        have hg' := hg.snoc (by simp only [hat]; exact h5)
        simp only [hat] at hg'
        refine ⟨swap_bij hI.bij (by omega) h3, hg', by simp; omega, fun j hj => ?_⟩
        simp only [List.length_append, List.length_cons, List.length_nil]
        by_cases hjk : j = s.order k
        · right
          rw [hjk]
          refine ⟨h6, ?_⟩
          have := Close.of_mem (n := nc) (V := fun i => row P oS (swapAt s.order s.rows.length k i))
            (Nat.lt_succ_self s.rows.length)
          simp only [hat] at this
          exact this
        · rcases h7 j hj hjk with h | ⟨h, hc⟩
          · exact Or.inl h
          · exact Or.inr ⟨h, hc.mono (by omega) hV⟩
      have hu : outerE P oS nc (rem + 1) s = outerE P oS nc rem { s' with
          order := swapAt s'.order s'.rows.length k
          rows := s'.rows ++ [residual nc s.rows (row P oS (s.order k))] } := by
        conv_lhs => unfold outerE
        rw [h0]
      rw [hu]
      have hlen : (s'.rows ++ [residual nc s.rows (row P oS (s.order k))]).length + rem =
          s.rows.length + (rem + 1) := by rw [h2]; simp; omega
      have := ih _ hI'
      simp only [hlen] at this
      exact this
    · right
      refine ⟨?_, s, hI, by omega, h1⟩
      unfold outerE; rw [h0]

/-- Success: the ordering is a permutation and the rows of the first `nc` elements, restricted to the
`nc` components, are linearly independent.  The only other outcome is the exception; then fewer than
`nc` elements `o 0, …, o (m - 1)` with independent rows exist such that every further element has
abundance -1 or a row that is (up to the limit) a combination of theirs. -/
theorem rearrange_spec (P : Prob) (nc : ℕ) (ea : List ℝ) (lS lE : List ℕ)
    (hE : BijOn (initE lE P.ne) (Iio P.ne) (Iio P.ne)) :
    (∃ s, rearrange P nc ea lS lE = .ok s ∧ BijOn s.order (Iio P.ne) (Iio P.ne) ∧ nc ≤ P.ne ∧
      ∀ a : ℕ → ℝ, (∀ k < nc, ∑ j ∈ Finset.range nc, a j * P.atoms (initS lS P.nsp k) (s.order j) = 0) →
        ∀ j < nc, a j = 0) ∨
    (rearrange P nc ea lS lE = .throw ∧ ∃ o m, m < nc ∧ BijOn o (Iio P.ne) (Iio P.ne) ∧
      (∀ a : ℕ → ℝ, (∀ k < nc, ∑ j ∈ Finset.range m, a j * P.atoms (initS lS P.nsp k) (o j) = 0) →
        ∀ j < m, a j = 0) ∧
      ∀ i < P.ne, m ≤ i → abund P ea (o i) = -1 ∨ ∃ a : ℕ → ℝ,
        ∑ k ∈ Finset.range nc, (P.atoms (initS lS P.nsp k) (o i) -
          ∑ j ∈ Finset.range m, a j * P.atoms (initS lS P.nsp k) (o j)) ^ 2 ≤ 1e-6) := by
  have hI : EInv P (initS lS P.nsp) nc (abund P ea) ⟨initE lE P.ne, abund P ea, []⟩ :=
    ⟨hE, Gram.nil _ _, by simp, fun j _ => Or.inl rfl⟩
  rcases outerE_spec P (initS lS P.nsp) nc (abund P ea) nc _ hI with ⟨s, h1, h2, h3⟩ | ⟨h1, s, h2, h3, h4⟩
  · left
    have h3 : s.rows.length = nc := by simpa using h3
    refine ⟨s, h1, h2.bij, by rw [← h3]; exact h2.len, ?_⟩
    have := h2.gram.indep
    rw [h3] at this
    exact this
  · right
    exact ⟨h1, s.order, s.rows.length, by simpa using h3, h2.bij, h2.gram.indep, h4⟩

/-- The abundances have no influence on the result, as long as none of them is -1: the search for
elements that are present is overridden by the second search. -/
theorem abundance_ignored (P : Prob) (nc : ℕ) (ea ea' : List ℝ) (lS lE : List ℕ)
    (h : ∀ j, abund P ea j ≠ -1) (h' : ∀ j, abund P ea' j ≠ -1) :
    (∃ s t, rearrange P nc ea lS lE = .ok s ∧ rearrange P nc ea' lS lE = .ok t ∧ s.order = t.order) ∨
    (rearrange P nc ea lS lE = .throw ∧ rearrange P nc ea' lS lE = .throw) ∨
    (rearrange P nc ea lS lE = .ub ∧ rearrange P nc ea' lS lE = .ub) := by
  classical
  let R : ESt → ESt → Prop := fun s t => s.order = t.order ∧ s.rows = t.rows ∧ ∀ j, s.ab j = -1 ↔ t.ab j = -1
  have pick : ∀ s t, R s t → pickElem P.ne s = pickElem P.ne t := by
    intro s t ⟨h1, h2, h3⟩
    rw [pickElem_eq, pickElem_eq, h2]
    congr 1
    funext i
    rw [h1]
    exact propext (not_congr (h3 _))
  have inn : ∀ f s t, R s t → (∃ s' t' k c, innerE P (initS lS P.nsp) nc f s = .ok (s', k, c) ∧
      innerE P (initS lS P.nsp) nc f t = .ok (t', k, c) ∧ R s' t') ∨
      (innerE P (initS lS P.nsp) nc f s = .throw ∧ innerE P (initS lS P.nsp) nc f t = .throw) ∨
      (innerE P (initS lS P.nsp) nc f s = .ub ∧ innerE P (initS lS P.nsp) nc f t = .ub) := by
    intro f
    induction f with
    | zero => intro s t _; exact Or.inr (Or.inr ⟨rfl, rfl⟩)
    | succ f ih =>
      intro s t hR
      have hp := pick s t hR
      obtain ⟨h1, h2, h3⟩ := hR
      unfold innerE
      rw [← hp]
      cases pickElem P.ne s with
      | none => exact Or.inr (Or.inl ⟨rfl, rfl⟩)
      | some k =>
        simp only
        rw [← h1, ← h2]
        have hR' : R { s with ab := Function.update s.ab (s.order k) (-1) }
            ⟨s.order, Function.update t.ab (s.order k) (-1), s.rows⟩ := by
          refine ⟨rfl, rfl, fun j => ?_⟩
          simp only
          by_cases hj : j = s.order k
          · rw [hj, Function.update_self, Function.update_self]
          · rw [Function.update_of_ne hj, Function.update_of_ne hj]; exact h3 j
        split_ifs with hc
        · exact Or.inl ⟨_, _, k, _, rfl, rfl, hR'⟩
        · exact ih _ _ hR'
  have out : ∀ rem s t, R s t → (∃ s' t', outerE P (initS lS P.nsp) nc rem s = .ok s' ∧
      outerE P (initS lS P.nsp) nc rem t = .ok t' ∧ R s' t') ∨
      (outerE P (initS lS P.nsp) nc rem s = .throw ∧ outerE P (initS lS P.nsp) nc rem t = .throw) ∨
      (outerE P (initS lS P.nsp) nc rem s = .ub ∧ outerE P (initS lS P.nsp) nc rem t = .ub) := by
    intro rem
    induction rem with
    | zero => intro s t hR; exact Or.inl ⟨s, t, rfl, rfl, hR⟩
    | succ rem ih =>
      intro s t hR
      unfold outerE
      rcases inn (P.ne + 1) s t hR with ⟨s', t', k, c, e1, e2, h1, h2, h3⟩ | ⟨e1, e2⟩ | ⟨e1, e2⟩
      · rw [e1, e2]
        simp only
        exact ih _ _ ⟨by simp only; rw [h1, h2], by simp only; rw [h2], h3⟩
      · rw [e1, e2]; exact Or.inr (Or.inl ⟨rfl, rfl⟩)
      · rw [e1, e2]; exact Or.inr (Or.inr ⟨rfl, rfl⟩)
  have hR0 : R ⟨initE lE P.ne, abund P ea, []⟩ ⟨initE lE P.ne, abund P ea', []⟩ :=
    ⟨rfl, rfl, fun j => ⟨fun hh => absurd hh (h j), fun hh => absurd hh (h' j)⟩⟩
  unfold rearrange
  rcases out nc _ _ hR0 with ⟨s', t', e1, e2, h1, _⟩ | ⟨e1, e2⟩ | ⟨e1, e2⟩
  · exact Or.inl ⟨s', t', e1, e2, h1⟩
  · exact Or.inr (Or.inl ⟨e1, e2⟩)
  · exact Or.inr (Or.inr ⟨e1, e2⟩)

/-- One element, one species. -/
def one : Prob := ⟨1, 1, fun _ _ => 1, fun _ => 1⟩

/-- An abundance of -1 (possible for the electron) is taken for the mark of an element already used. -/
theorem abundance_minus_one : rearrange one 1 [-1] [] [] = .throw ∧
    ∃ s, rearrange one 1 [1] [] [] = .ok s := by
  classical
  have hE : initE [] one.ne = id := by simp [initE, one]
  constructor
  · rcases rearrange_spec one 1 [-1] [] [] (by rw [hE]; exact bijOn_id _) with ⟨s, h, -⟩ | ⟨h, -⟩
    · exfalso
      unfold rearrange outerE at h
      have : innerE one (initS [] one.nsp) 1 (one.ne + 1) ⟨initE [] one.ne, abund one [-1], []⟩ = .throw := by
        unfold innerE
        rw [pickElem_eq]
        cases hp : firstFrom one.ne (List.length ([] : List (ℕ → ℝ))) fun i =>
            abund one [-1] (initE [] one.ne i) ≠ -1 with
        | none => rfl
        | some k =>
          obtain ⟨k1, -, k3⟩ := firstFrom_spec.1 k hp
          have : k = 0 := by simp [one] at k1; exact k1
          subst this
          simp [abund, one, initE] at k3
      rw [this] at h
      simp at h
    · exact h
  · rcases rearrange_spec one 1 [1] [] [] (by rw [hE]; exact bijOn_id _) with ⟨s, h, -⟩ | ⟨_, o, m, hm, ho, -, h4⟩
    · exact ⟨s, h⟩
    · exfalso
      have hm0 : m = 0 := by omega
      subst hm0
      have ho0 : o 0 = 0 := by
        have : o 0 < 1 := ho.mapsTo (show 0 ∈ Iio one.ne from by simp [one])
        omega
      rcases h4 0 (by simp [one]) le_rfl with h | ⟨a, ha⟩
      · rw [ho0] at h; simp [abund, one] at h; norm_num at h
      · simp [one] at ha; norm_num at ha

/-! ## Formation reactions -/

/-- If the rows of the first `nc` elements are independent (as `ElemRearrange` arranges), the linear
system has a unique solution, and for a species that is a combination of the components the solution
balances every element, not only the first `nc`. -/
theorem formation_balances (P : Prob) (order oE : ℕ → ℕ) (nc i : ℕ) (X : ℕ → ℝ)
    (hrow : ∀ a : ℕ → ℝ, (∀ k < nc, ∑ j ∈ Finset.range nc, a j * P.atoms (order k) (oE j) = 0) →
      ∀ j < nc, a j = 0)
    (hX : ∀ j < nc, ∑ k ∈ Finset.range nc, formMatrix P order oE j k * X k = formRhs P order oE nc j i)
    (b : ℕ → ℝ) (hb : ∀ e, P.atoms (order (nc + i)) e = ∑ k ∈ Finset.range nc, b k * P.atoms (order k) e) :
    (∀ k < nc, X k = -b k) ∧
    ∀ e, P.atoms (order (nc + i)) e + ∑ k ∈ Finset.range nc, X k * P.atoms (order k) e = 0 := by
  let A : Matrix (Fin nc) (Fin nc) ℝ := fun j k => P.atoms (order k) (oE j)
  have hker : ∀ d : ℕ → ℝ, (∀ j < nc, ∑ k ∈ Finset.range nc, d k * P.atoms (order k) (oE j) = 0) →
      ∀ k < nc, d k = 0 := by
    have hinj : Function.Injective (fun v : Fin nc → ℝ => Matrix.vecMul v A) := by
      intro v w hvw
      have hz : Matrix.vecMul (v - w) A = 0 := by rw [Matrix.sub_vecMul]; simpa [sub_eq_zero] using hvw
      have := hrow (fun j => if hj : j < nc then (v - w) ⟨j, hj⟩ else 0) (by
        intro k hk
        have hk' := congrFun hz ⟨k, hk⟩
        simp only [Matrix.vecMul, dotProduct, Pi.zero_apply] at hk'
        refine Eq.trans ?_ hk'
        rw [← Fin.sum_univ_eq_sum_range
          (fun j => (if hj : j < nc then (v - w) ⟨j, hj⟩ else 0) * P.atoms (order k) (oE j)) nc]
        exact Finset.sum_congr rfl fun j _ => by simp [A])
      funext j
      have := this j j.2
      simp only [j.2, dif_pos, Fin.eta, Pi.sub_apply] at this
      linarith
    have hu : IsUnit A := Matrix.vecMul_injective_iff_isUnit.1 hinj
    have hmul : Function.Injective A.mulVec := Matrix.mulVec_injective_iff_isUnit.2 hu
    intro d hd k hk
    have : A.mulVec (fun k : Fin nc => d k) = A.mulVec 0 := by
      funext j
      rw [Matrix.mulVec_zero]
      simp only [Matrix.mulVec, dotProduct, Pi.zero_apply]
      rw [← hd j j.2, ← Fin.sum_univ_eq_sum_range (fun k => d k * P.atoms (order k) (oE j)) nc]
      exact Finset.sum_congr rfl fun k _ => by simp only [A]; ring
    exact congrFun (hmul this) ⟨k, hk⟩
  have hXb : ∀ k < nc, X k = -b k := by
    intro k hk
    have := hker (fun k => X k + b k) (by
      intro j hj
      have h1 := hX j hj
      unfold formMatrix formRhs at h1
      rw [hb (oE j)] at h1
      have : ∑ k ∈ Finset.range nc, (X k + b k) * P.atoms (order k) (oE j) =
          ∑ k ∈ Finset.range nc, P.atoms (order k) (oE j) * X k +
          ∑ k ∈ Finset.range nc, b k * P.atoms (order k) (oE j) := by
        rw [← Finset.sum_add_distrib]
        exact Finset.sum_congr rfl fun _ _ => by ring
      rw [this, h1]; ring) k hk
    linarith
  refine ⟨hXb, fun e => ?_⟩
  rw [hb e, ← Finset.sum_add_distrib]
  exact Finset.sum_eq_zero fun k hk => by rw [hXb k (Finset.mem_range.1 hk)]; ring

example : ∃ X : ℕ → ℝ, ∀ j < 1, ∑ k ∈ Finset.range 1, formMatrix ⟨1, 2, fun k _ => (k : ℝ) + 1, fun _ => 1⟩ id id j k * X k =
    formRhs ⟨1, 2, fun k _ => (k : ℝ) + 1, fun _ => 1⟩ id id 1 j 0 :=
  ⟨fun _ => -2, by intro j _; simp [formMatrix, formRhs]; norm_num⟩

/-- Starting orders: a species ordering of the wrong length and an element ordering that is too short are
replaced by the natural one, any other is used as it is. -/
theorem initial_orders (l : List ℕ) (n : ℕ) :
    (l.length < n → initE l n = id) ∧ (n ≤ l.length → ∀ i, initE l n i = l.getD i 0) ∧
    (l.length ≠ n → initS l n = id) ∧ (l.length = n → ∀ i, initS l n i = l.getD i 0) := by
  refine ⟨fun h => ?_, fun h i => ?_, fun h => ?_, fun h i => ?_⟩
  · simp [initE, h]
  · simp [initE, not_lt.2 h]
  · simp [initS, h]
  · simp [initS, h]

/-- Abundances: as given when there is one for each element, otherwise the sums of the absolute contents. -/
theorem abundances (P : Prob) (ea : List ℝ) :
    (ea.length = P.ne → ∀ j, abund P ea j = ea.getD j 0) ∧
    (ea.length ≠ P.ne → ∀ j, abund P ea j = ∑ k ∈ Finset.range P.nsp, |P.atoms k j|) := by
  refine ⟨fun h j => ?_, fun h j => ?_⟩ <;> simp [abund, h]

/-- The default abundances are never taken for the mark. -/
theorem default_abundance (P : Prob) (ea : List ℝ) (h : ea.length ≠ P.ne) (j : ℕ) : abund P ea j ≠ -1 := by
  rw [(abundances P ea).2 h]
  have : 0 ≤ ∑ k ∈ Finset.range P.nsp, |P.atoms k j| := Finset.sum_nonneg fun _ _ => abs_nonneg _
  linarith

example : ∃ s, rearrange one 1 [] [] [] = .ok s := by
  rcases abundance_ignored one 1 [] [1] [] [] (default_abundance _ _ (by simp [one])) (fun j => by
    rw [(abundances one [1]).1 (by simp [one])]
    rcases j with _ | j <;> simp <;> norm_num) with ⟨s, t, h, -⟩ | ⟨_, h⟩ | ⟨_, h⟩
  · exact ⟨s, h⟩
  all_goals
    obtain ⟨s, hs⟩ := abundance_minus_one.2
    rw [hs] at h
    simp at h

end Verif.Basis
