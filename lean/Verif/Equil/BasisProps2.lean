import Verif.Equil.BasisProps

/-!
# `BasisOptimize` as a whole
-/

namespace Verif.Basis

open Verif Set

/-! ## Searching -/

theorem argmax_spec (mol : ℕ → ℝ) (n : ℕ) (hn : 0 < n) :
    argmax mol n < n ∧ (∀ k < n, mol k ≤ mol (argmax mol n)) ∧
    ∀ k < argmax mol n, mol k < mol (argmax mol n) := by
  induction n with
  | zero => omega
  | succ n ih =>
    have e : argmax mol (n + 1) = if mol (argmax mol n) < mol n then n else argmax mol n := by
      unfold argmax; rw [List.range_succ, List.foldl_append]; rfl
    rcases Nat.eq_zero_or_pos n with rfl | hp
    · have : argmax mol (0 + 1) = 0 := by rw [e]; unfold argmax; simp
      rw [this]
      refine ⟨by omega, ?_, by simp⟩
      intro k hk
      interval_cases k; exact le_refl _
    · obtain ⟨h1, h2, h3⟩ := ih hp
      rw [e]
      split_ifs with h
      · refine ⟨by omega, fun k hk => ?_, fun k hk => lt_of_le_of_lt (h2 k hk) h⟩
        rcases Nat.lt_succ_iff_lt_or_eq.1 hk with hk | rfl
        · exact ((h2 k hk).trans_lt h).le
        · exact le_refl _
      · refine ⟨by omega, fun k hk => ?_, h3⟩
        rcases Nat.lt_succ_iff_lt_or_eq.1 hk with hk | rfl
        · exact h2 k hk
        · exact not_lt.1 h

theorem posOf_spec {order : ℕ → ℕ} {n kk k : ℕ} (h : posOf order n kk = some k) :
    k < n ∧ order k = kk := by
  unfold posOf at h
  have h1 := List.find?_some h
  have h2 := List.mem_of_find?_eq_some h
  exact ⟨List.mem_range.1 h2, by simpa using h1⟩

theorem posOf_exists {order : ℕ → ℕ} {n kk : ℕ} (h : ∃ k < n, order k = kk) :
    ∃ k, posOf order n kk = some k := by
  obtain ⟨k, hk, he⟩ := h
  unfold posOf
  cases hf : (List.range n).find? fun j => decide (order j = kk) with
  | some k => exact ⟨k, rfl⟩
  | none =>
    have := List.find?_eq_none.1 hf k (List.mem_range.2 hk)
    simp [he] at this

theorem swap_bij {order : ℕ → ℕ} {n a b : ℕ} (h : BijOn order (Iio n) (Iio n)) (ha : a < n) (hb : b < n) :
    BijOn (swapAt order a b) (Iio n) (Iio n) := by
  refine h.comp (s := Iio n) ?_
  refine ⟨fun i hi => ?_, (Equiv.injective _).injOn, fun i hi => ⟨Equiv.swap a b i, ?_, by simp⟩⟩ <;>
  · rcases Equiv.swap_apply_eq_iff.1 (rfl : Equiv.swap a b i = Equiv.swap a b i) with _
    by_cases h1 : i = a
    · rw [h1, Equiv.swap_apply_left]; exact hb
    · by_cases h2 : i = b
      · rw [h2, Equiv.swap_apply_right]; exact ha
      · rw [Equiv.swap_apply_of_ne_of_ne h1 h2]; exact hi

theorem swap_below (order : ℕ → ℕ) {a b i : ℕ} (ha : i < a) (hb : i < b) : swapAt order a b i = order i := by
  unfold swapAt; rw [Equiv.swap_apply_of_ne_of_ne (by omega) (by omega)]

theorem swap_at (order : ℕ → ℕ) (a b : ℕ) : swapAt order a b a = order b := by
  unfold swapAt; rw [Equiv.swap_apply_left]

/-! ## Invariant -/

/-- Formula vector in the order of the elements. -/
def vec (P : Prob) (oE : ℕ → ℕ) (k : ℕ) : ℕ → ℝ := fun e => P.atoms k (oE e)

structure Inv (P : Prob) (oE : ℕ → ℕ) (s : St) : Prop where
  bij : BijOn s.order (Iio P.nsp) (Iio P.nsp)
  gram : Gram P.ne (fun i => vec P oE (s.order i)) s.cols
  len : s.cols.length ≤ P.nsp
  used : ∀ i < s.cols.length, s.mol (s.order i) = -1
  mol : ∀ k < P.nsp, s.mol k = P.moles k ∨
    (s.mol k = -1 ∧ Close P.ne (fun i => vec P oE (s.order i)) s.cols.length (vec P oE k))
  greedy : ∀ i < s.cols.length, ∀ k < P.nsp, P.moles k ≤ P.moles (s.order i) ∨
    Close P.ne (fun i => vec P oE (s.order i)) i (vec P oE k)
  far : ∀ i < s.cols.length, Far P.ne (fun i => vec P oE (s.order i)) i (vec P oE (s.order i))
  zero1 : s.zero = true → ∃ k < P.nsp, P.moles k = 0
  zero2 : ∀ k < P.nsp, s.mol k = -1 → P.moles k = 0 → s.zero = true

/-- Species not yet considered. -/
noncomputable def left (P : Prob) (s : St) : ℕ :=
  ((Finset.range P.nsp).filter fun k => s.mol k ≠ -1).card

theorem left_le (P : Prob) (s : St) : left P s ≤ P.nsp := by
  unfold left
  exact (Finset.card_filter_le _ _).trans (by simp)

theorem inner_spec (P : Prob) (oE : ℕ → ℕ) (hm : ∀ k < P.nsp, 0 ≤ P.moles k) (f : ℕ) (s : St)
    (hI : Inv P oE s) (hf : left P s < f) (hn : 0 < P.nsp) :
    (∃ s' k, inner P oE f s = .col s' k (residual P.ne s.cols (vec P oE (s.order k))) ∧
      s'.order = s.order ∧ s'.cols = s.cols ∧ k < P.nsp ∧ s.cols.length ≤ k ∧
      1e-6 < ip P.ne (residual P.ne s.cols (vec P oE (s.order k))) (residual P.ne s.cols (vec P oE (s.order k))) ∧
      (∀ i < s.cols.length, s'.mol (s.order i) = -1) ∧ s'.mol (s.order k) = -1 ∧
      (∀ j < P.nsp, j ≠ s.order k → s'.mol j = P.moles j ∨
        (s'.mol j = -1 ∧ Close P.ne (fun i => vec P oE (s.order i)) s.cols.length (vec P oE j))) ∧
      (∀ j < P.nsp, P.moles j ≤ P.moles (s.order k) ∨
        Close P.ne (fun i => vec P oE (s.order i)) s.cols.length (vec P oE j)) ∧
      (s'.zero = true → ∃ k < P.nsp, P.moles k = 0) ∧
      (∀ k < P.nsp, s'.mol k = -1 → P.moles k = 0 → s'.zero = true)) ∨
    (∃ s' k, inner P oE f s = .exhausted s' k ∧ s'.cols = s.cols ∧ s'.order = s.order ∧
      Inv P oE s' ∧ posOf s.order P.nsp 0 = some k ∧
      ∀ j < P.nsp, Close P.ne (fun i => vec P oE (s.order i)) s.cols.length (vec P oE j)) := by
  classical
  induction f generalizing s with
  | zero => omega
  | succ f ih =>
    obtain ⟨a1, a2, a3⟩ := argmax_spec s.mol P.nsp hn
    set kk := argmax s.mol P.nsp with hkk
    obtain ⟨k, hk⟩ := posOf_exists (order := s.order) (n := P.nsp) (kk := kk) (by
      obtain ⟨j, hj, he⟩ := hI.bij.surjOn (show kk ∈ Iio P.nsp from a1)
      exact ⟨j, hj, he⟩)
    obtain ⟨k1, k2⟩ := posOf_spec hk
    have hz1 : (s.zero || decide (s.mol kk = 0)) = true → ∃ k < P.nsp, P.moles k = 0 := by
      intro h
      rcases Bool.or_eq_true_iff.1 h with h | h
      · exact hI.zero1 h
      · have h0 : s.mol kk = 0 := by simpa using h
        rcases hI.mol kk a1 with h1 | ⟨h1, _⟩
        · exact ⟨kk, a1, by rw [← h1, h0]⟩
        · rw [h1] at h0; norm_num at h0
    unfold inner
    simp only
    rw [← hkk, hk]
    simp only
    by_cases hneg : s.mol kk = -1
    · right
      rw [if_pos hneg]
      have hall : ∀ j < P.nsp, s.mol j = -1 := by
        intro j hj
        have := a2 j hj
        rcases hI.mol j hj with h | ⟨h, _⟩
        · rw [h, hneg] at this; have := hm j hj; linarith
        · exact h
      have hk0 : kk = 0 := by
        by_contra h0
        have := a3 0 (by omega)
        rw [hall 0 hn, hneg] at this; exact lt_irrefl _ this
      refine ⟨_, k, rfl, rfl, rfl, ⟨hI.bij, hI.gram, hI.len, hI.used, hI.mol, hI.greedy, hI.far, hz1, ?_⟩,
        by rw [← hk0]; exact hk, ?_⟩
      · intro j hj h1 h2
        simp only
        rw [hI.zero2 j hj h1 h2]; rfl
      · intro j hj
        rcases hI.mol j hj with h | ⟨_, h⟩
        · have := hm j hj
          rw [← h, hall j hj] at this; norm_num at this
        · exact h
    · rw [if_neg hneg]
      have hmk : s.mol kk = P.moles kk := by
        rcases hI.mol kk a1 with h | ⟨h, _⟩
        · exact h
        · exact absurd h hneg
      have hge : s.cols.length ≤ k := by
        by_contra hlt
        push Not at hlt
        have := hI.used k hlt
        rw [k2] at this; exact hneg this
      have hgr : ∀ j < P.nsp, P.moles j ≤ P.moles kk ∨
          Close P.ne (fun i => vec P oE (s.order i)) s.cols.length (vec P oE j) := by
        intro j hj
        rcases hI.mol j hj with h | ⟨_, h⟩
        · left; rw [← h, ← hmk]; exact a2 j hj
        · exact Or.inr h
      have hz2 : ∀ j < P.nsp, Function.update s.mol kk (-1) j = -1 → P.moles j = 0 →
          (s.zero || decide (s.mol kk = 0)) = true := by
        intro j hj h1 h2
        by_cases hjk : j = kk
        · have h3 : s.mol kk = 0 := by rw [hmk, ← hjk]; exact h2
          rw [h3]; simp
        · rw [Function.update_of_ne hjk] at h1
          rw [hI.zero2 j hj h1 h2]; rfl
      have hv : (fun j => P.atoms kk (oE j)) = vec P oE (s.order k) := by rw [k2]; rfl
      rw [hv]
      by_cases hc : 1e-6 < ip P.ne (residual P.ne s.cols (vec P oE (s.order k)))
          (residual P.ne s.cols (vec P oE (s.order k)))
      · left
        rw [if_pos hc]
        refine ⟨_, k, rfl, rfl, rfl, k1, hge, hc, fun i hi => ?_, ?_, fun j hj hne => ?_, ?_, hz1, hz2⟩
        · simp only
          by_cases h : s.order i = kk
          · rw [h, Function.update_self]
          · rw [Function.update_of_ne h]; exact hI.used i hi
        · simp only
          rw [k2, Function.update_self]
        · simp only
          rw [k2] at hne
          rw [Function.update_of_ne hne]
          exact hI.mol j hj
        · rw [k2]; exact hgr
      · rw [if_neg hc]
        have hcl := Close.of_residual hI.gram (vec P oE (s.order k)) hc
        rw [k2] at hcl
        have hI' : Inv P oE { s with
            zero := s.zero || decide (s.mol kk = 0)
            mol := Function.update s.mol kk (-1) } := by
          refine ⟨hI.bij, hI.gram, hI.len, fun i hi => ?_, fun j hj => ?_, hI.greedy, hI.far, hz1, hz2⟩
          · simp only
            by_cases h : s.order i = kk
            · rw [h, Function.update_self]
            · rw [Function.update_of_ne h]; exact hI.used i hi
          · simp only
            by_cases h : j = kk
            · right
              rw [h, Function.update_self]
              exact ⟨rfl, hcl⟩
            · rw [Function.update_of_ne h]; exact hI.mol j hj
        have hl : left P { s with
            zero := s.zero || decide (s.mol kk = 0)
            mol := Function.update s.mol kk (-1) } < left P s := by
          unfold left
          apply Finset.card_lt_card
          refine ⟨fun j hj => ?_, fun hsub => ?_⟩
          · simp only [Finset.mem_filter, Finset.mem_range] at hj ⊢
            refine ⟨hj.1, ?_⟩
            by_cases h : j = kk
            · rw [h, Function.update_self] at hj; exact absurd rfl hj.2
            · rw [Function.update_of_ne h] at hj; exact hj.2
          · have : kk ∈ (Finset.range P.nsp).filter fun j => s.mol j ≠ -1 := by
              simp only [Finset.mem_filter, Finset.mem_range]; exact ⟨a1, hneg⟩
            have := hsub this
            simp at this
        exact ih _ hI' (by omega)

theorem outer_spec (P : Prob) (oE : ℕ → ℕ) (hm : ∀ k < P.nsp, 0 ≤ P.moles k) (N rem : ℕ) (s : St)
    (hI : Inv P oE s) (hr : s.cols.length + rem = N) (hN : N ≤ P.nsp) :
    (∃ s', outer P oE rem s = .ok (s', N) ∧ Inv P oE s' ∧ s'.cols.length = N) ∨
    (∃ s' s'' k, outer P oE rem s = .ok (s', s''.cols.length) ∧ s''.cols.length < N ∧ Inv P oE s'' ∧
      (∀ j < P.nsp, Close P.ne (fun i => vec P oE (s''.order i)) s''.cols.length (vec P oE j)) ∧
      posOf s''.order P.nsp 0 = some k ∧ s'.order = swapAt s''.order s''.cols.length k ∧
      s'.zero = s''.zero) := by
  induction rem generalizing s with
  | zero => exact Or.inl ⟨s, by unfold outer; rw [show s.cols.length = N by omega], hI, by omega⟩
  | succ rem ih =>
    have hn : 0 < P.nsp := by omega
    rcases inner_spec P oE hm (P.nsp + 1) s hI (by have := left_le P s; omega) hn with
      ⟨s', k, h0, h1, h2, h3, h4, h5, h6, h7, h8, h9, h10, h11⟩ | ⟨s', k, h0, h1, h2, h3, h4, h5⟩
    · have hlt : s.cols.length < P.nsp := by omega
      have hbelow : ∀ i < s.cols.length, swapAt s.order s.cols.length k i = s.order i :=
        fun i hi => swap_below _ hi (by omega)
      have hat : swapAt s.order s.cols.length k s.cols.length = s.order k := swap_at _ _ _
      have hok : s.order k < P.nsp := hI.bij.mapsTo (show k ∈ Iio P.nsp from h3)
      have hV : ∀ i < s.cols.length, vec P oE (s.order i) =
          vec P oE (swapAt s.order s.cols.length k i) := fun i hi => by rw [hbelow i hi]
      have hI' : Inv P oE { s' with
          order := swapAt s'.order s'.cols.length k
          cols := s'.cols ++ [residual P.ne s.cols (vec P oE (s.order k))] } := by
        rw [h1, h2]
        have hg : Gram P.ne (fun i => vec P oE (swapAt s.order s.cols.length k i)) s.cols :=
          hI.gram.congr hV
        have hg' := hg.snoc (by simp only [hat]; exact h5)
        simp only [hat] at hg'
        refine ⟨swap_bij hI.bij hlt h3, hg', by simp; omega, ?_, ?_, ?_, ?_, h10, h11⟩
        · intro i hi
          simp only [List.length_append, List.length_cons, List.length_nil] at hi ⊢
          rcases Nat.lt_succ_iff_lt_or_eq.1 hi with hi | rfl
          · rw [hbelow i hi]; exact h6 i hi
          · rw [hat]; exact h7
        · intro j hj
          simp only [List.length_append, List.length_cons, List.length_nil]
          by_cases hjk : j = s.order k
          · right
            rw [hjk]
            refine ⟨h7, ?_⟩
            have := Close.of_mem (n := P.ne) (V := fun i => vec P oE (swapAt s.order s.cols.length k i))
              (Nat.lt_succ_self s.cols.length)
            simp only [hat] at this
            exact this
          · rcases h8 j hj hjk with h | ⟨h, hc⟩
            · exact Or.inl h
            · exact Or.inr ⟨h, hc.mono (by omega) hV⟩
        · intro i hi j hj
          simp only [List.length_append, List.length_cons, List.length_nil] at hi ⊢
          rcases Nat.lt_succ_iff_lt_or_eq.1 hi with hi | rfl
          · rw [hbelow i hi]
            rcases hI.greedy i hi j hj with h | h
            · exact Or.inl h
            · exact Or.inr (h.mono le_rfl fun m hm' => hV m (by omega))
          · rw [hat]
            rcases h9 j hj with h | h
            · exact Or.inl h
            · exact Or.inr (h.mono le_rfl hV)
        · intro i hi
          simp only [List.length_append, List.length_cons, List.length_nil] at hi ⊢
          rcases Nat.lt_succ_iff_lt_or_eq.1 hi with hi | rfl
          · rw [hbelow i hi]
            exact (hI.far i hi).congr fun m hm' => hV m (by omega)
          · rw [hat]
            exact (Far.of_residual hI.gram _ h5).congr hV
      have := ih _ hI' (by rw [h2]; simp; omega)
      unfold outer
      rw [h0]
      exact this
    · right
      refine ⟨{ s' with order := swapAt s'.order s'.cols.length k }, s', k, ?_, ?_, h3, ?_, ?_, rfl, rfl⟩
      · unfold outer; rw [h0]
      · rw [h1]; omega
      · rw [h1, h2]; exact h5
      · rw [h2]; exact h4

theorem initS_bij (l : List ℕ) (n : ℕ) (h : l.length = n → l.Perm (List.range n)) :
    BijOn (initS l n) (Iio n) (Iio n) := by
  unfold initS
  split_ifs with hl
  · exact bijOn_id _
  · push Not at hl
    have hp := h hl
    have hnd : l.Nodup := hp.nodup_iff.2 List.nodup_range
    have hget : ∀ i (hi : i < l.length), l.getD i 0 = l[i] := fun i hi => by simp [hi]
    refine ⟨fun i hi => ?_, fun i hi j hj hij => ?_, fun k hk => ?_⟩
    · have hi' : i < l.length := by rw [hl]; exact hi
      have : l[i] ∈ List.range n := hp.subset (List.getElem_mem hi')
      show l.getD i 0 < n
      rw [hget i hi']; exact List.mem_range.1 this
    · have hi' : i < l.length := by rw [hl]; exact hi
      have hj' : j < l.length := by rw [hl]; exact hj
      simp only [hget i hi', hget j hj'] at hij
      exact (List.Nodup.getElem_inj_iff hnd).1 hij
    · have : k ∈ l := hp.symm.subset (List.mem_range.2 hk)
      obtain ⟨i, hi, he⟩ := List.getElem_of_mem this
      exact ⟨i, by rw [← hl]; exact hi, by simp only [hget i hi]; exact he⟩

/-! ## Results -/

/-- The choice of components.  With non-negative mole numbers and an ordering that is a permutation (or
of the wrong size) the call succeeds, and there is a permutation `o` of the species and a number `nc` of
components such that

* the formula vectors of species `o 0, …, o (nc - 1)` are linearly independent;
* each of them has at least the mole number of every species that is not (up to the limit) a combination
  of the components before it;
* each of them is further than the limit from every combination of those before;
* either `nc` is the smaller of the numbers of elements and species and the returned ordering is `o`, or
  `nc` is smaller, every species is (up to the limit) a combination of the components, and the returned
  ordering is `o` with places `nc` and `k` exchanged, `k` being the place of species 0. -/
theorem basis_spec (P : Prob) (lS lE : List ℕ) (hm : ∀ k < P.nsp, 0 ≤ P.moles k)
    (hS : lS.length = P.nsp → lS.Perm (List.range P.nsp)) :
    ∃ s nc o, basis P lS lE = .ok (s, nc) ∧ BijOn o (Iio P.nsp) (Iio P.nsp) ∧
      nc ≤ min P.ne P.nsp ∧
      (∀ a : ℕ → ℝ, (∀ e < P.ne, ∑ i ∈ Finset.range nc, a i * P.atoms (o i) (initE lE P.ne e) = 0) →
        ∀ i < nc, a i = 0) ∧
      (∀ i < nc, ∀ k < P.nsp, P.moles k ≤ P.moles (o i) ∨
        ∃ a : ℕ → ℝ, ∑ e ∈ Finset.range P.ne, (P.atoms k (initE lE P.ne e) -
          ∑ j ∈ Finset.range i, a j * P.atoms (o j) (initE lE P.ne e)) ^ 2 ≤ 1e-6) ∧
      (∀ i < nc, ∀ a : ℕ → ℝ, 1e-6 < ∑ e ∈ Finset.range P.ne, (P.atoms (o i) (initE lE P.ne e) -
          ∑ j ∈ Finset.range i, a j * P.atoms (o j) (initE lE P.ne e)) ^ 2) ∧
      (s.zero = true → ∃ k < P.nsp, P.moles k = 0) ∧
      ((∃ i < nc, P.moles (o i) = 0) → s.zero = true) ∧
      ((nc = min P.ne P.nsp ∧ s.order = o) ∨
       (nc < min P.ne P.nsp ∧ (∃ k < P.nsp, o k = 0 ∧ s.order = fun i => o (Equiv.swap nc k i)) ∧
        ∀ k < P.nsp, ∃ a : ℕ → ℝ, ∑ e ∈ Finset.range P.ne, (P.atoms k (initE lE P.ne e) -
          ∑ j ∈ Finset.range nc, a j * P.atoms (o j) (initE lE P.ne e)) ^ 2 ≤ 1e-6)) := by
  have hI : Inv P (initE lE P.ne) ⟨initS lS P.nsp, P.moles, [], false⟩ :=
    ⟨initS_bij lS P.nsp hS, Gram.nil _ _, by simp, by simp, fun k _ => Or.inl rfl, by simp, by simp, by simp,
      fun k hk h1 h2 => by simp only at h1; rw [h2] at h1; norm_num at h1⟩
  have fin : ∀ s : St, Inv P (initE lE P.ne) s →
      BijOn s.order (Iio P.nsp) (Iio P.nsp) ∧
      (∀ a : ℕ → ℝ, (∀ e < P.ne, ∑ i ∈ Finset.range s.cols.length,
        a i * P.atoms (s.order i) (initE lE P.ne e) = 0) → ∀ i < s.cols.length, a i = 0) ∧
      (∀ i < s.cols.length, ∀ k < P.nsp, P.moles k ≤ P.moles (s.order i) ∨
        ∃ a : ℕ → ℝ, ∑ e ∈ Finset.range P.ne, (P.atoms k (initE lE P.ne e) -
          ∑ j ∈ Finset.range i, a j * P.atoms (s.order j) (initE lE P.ne e)) ^ 2 ≤ 1e-6) ∧
      (∀ i < s.cols.length, ∀ a : ℕ → ℝ, 1e-6 < ∑ e ∈ Finset.range P.ne, (P.atoms (s.order i) (initE lE P.ne e) -
          ∑ j ∈ Finset.range i, a j * P.atoms (s.order j) (initE lE P.ne e)) ^ 2) ∧
      (s.zero = true → ∃ k < P.nsp, P.moles k = 0) ∧
      ((∃ i < s.cols.length, P.moles (s.order i) = 0) → s.zero = true) := by
    intro s hs
    refine ⟨hs.bij, hs.gram.indep, hs.greedy, hs.far, hs.zero1, ?_⟩
    rintro ⟨i, hi, h0⟩
    have hlt : i < P.nsp := lt_of_lt_of_le hi hs.len
    exact hs.zero2 _ (hs.bij.mapsTo (show i ∈ Iio P.nsp from hlt)) (hs.used i hi) h0
  rcases outer_spec P (initE lE P.ne) hm (min P.ne P.nsp) (min P.ne P.nsp)
      ⟨initS lS P.nsp, P.moles, [], false⟩ hI (by simp) (min_le_right _ _) with
    ⟨s', h1, h2, h3⟩ | ⟨s', s'', k, h1, h2, h3, h4, h5, h6, h7⟩
  · obtain ⟨f1, f2, f3, f6, f4, f5⟩ := fin s' h2
    rw [h3] at f2 f3 f5 f6
    exact ⟨s', _, s'.order, h1, f1, le_rfl, f2, f3, f6, f4, f5, Or.inl ⟨rfl, rfl⟩⟩
  · obtain ⟨f1, f2, f3, f6, f4, f5⟩ := fin s'' h3
    obtain ⟨k1, k2⟩ := posOf_spec h5
    refine ⟨s', _, s''.order, h1, f1, h2.le, f2, f3, f6, ?_, ?_, Or.inr ⟨h2, ⟨k, k1, k2, h6⟩, h4⟩⟩
    · rw [h7]; exact f4
    · rw [h7]; exact f5

end Verif.Basis
