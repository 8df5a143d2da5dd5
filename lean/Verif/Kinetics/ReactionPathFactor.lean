import Verif.Kinetics.ReactionPathLemmas
import Mathlib.Tactic.NormNum

/-!
# Reaction path analysis: atoms transferred between a reactant and a product

`amount` is the number of atoms of an element which the diagram moves from the reactant at one
position to the product at another.  It conserves atoms if the sums over the products are the
numbers of atoms in the reactants and conversely.
-/

namespace Verif.RPath

/-! ## Lists of reactants and products -/

/-- The loop counts the integers below the coefficient. -/
theorem copies_spec (c : ℝ) (n : ℕ) : n < copies c ↔ (n : ℝ) < c := Nat.lt_ceil

example : 0 < copies (1 / 2) := by rw [copies_spec]; norm_num

theorem copies_nat (n : ℕ) : copies (n : ℝ) = n := Nat.ceil_natCast n

/-- For integer coefficients the lists hold the net reactants and products. -/
theorem net_nat {M : Mech} {R P : ℕ → ℕ → ℕ} (hR : ∀ k i, M.nuR k i = R k i)
    (hP : ∀ k i, M.nuP k i = P k i) (i k : ℕ) : net M i k = (P k i : ℤ) - R k i := by
  unfold net; rw [hR, hP, copies_nat, copies_nat]

theorem reac_nat {M : Mech} {R P : ℕ → ℕ → ℕ} (hR : ∀ k i, M.nuR k i = R k i)
    (hP : ∀ k i, M.nuP k i = P k i) (i : ℕ) :
    reac M i = (List.range M.ns).flatMap fun k => List.replicate (R k i - P k i) k := by
  unfold reac
  refine congrArg (fun f => List.flatMap f (List.range M.ns)) (funext fun k => ?_)
  rw [net_nat hR hP]
  congr 1; omega

theorem prods_nat {M : Mech} {R P : ℕ → ℕ → ℕ} (hR : ∀ k i, M.nuR k i = R k i)
    (hP : ∀ k i, M.nuP k i = P k i) (i : ℕ) :
    prods M i = (List.range M.ns).flatMap fun k => List.replicate (P k i - R k i) k := by
  unfold prods
  refine congrArg (fun f => List.flatMap f (List.range M.ns)) (funext fun k => ?_)
  rw [net_nat hR hP]
  congr 1; omega

/-- No species is in both lists. -/
theorem reac_prods_disjoint (M : Mech) (i k : ℕ) : ¬ (k ∈ reac M i ∧ k ∈ prods M i) := by
  rw [mem_reac, mem_prods]; omega

/-- For integer coefficients, a species appears among the reactants as often as its coefficient
there exceeds that among the products. -/
theorem count_reac {M : Mech} {R P : ℕ → ℕ → ℕ} (hR : ∀ k i, M.nuR k i = R k i)
    (hP : ∀ k i, M.nuP k i = P k i) (i k : ℕ) (hk : k < M.ns) :
    (reac M i).count k = R k i - P k i ∧ (prods M i).count k = P k i - R k i := by
  have key : ∀ c : ℕ → ℕ, ∀ n, (((List.range n).flatMap fun j => List.replicate (c j) j)).count k =
      if k < n then c k else 0 := by
    intro c n
    induction n with
    | zero => simp
    | succ n ih =>
      rw [List.range_succ, List.flatMap_append, List.count_append, ih]
      simp only [List.flatMap_cons, List.flatMap_nil, List.append_nil, List.count_replicate]
      by_cases h : k < n
      · have h1 : k < n + 1 := by omega
        have h2 : ¬ n = k := by omega
        simp [h, h1, h2]
      · by_cases h2 : n = k
        · simp [h2]
        · have h3 : ¬ k < n + 1 := by omega
          simp [h, h3, h2]
  rw [reac_nat hR hP, prods_nat hR hP, key, key, if_pos hk, if_pos hk]
  exact ⟨rfl, rfl⟩

/-! ## Groups -/

/-- A group is valid exactly if its nonzero numbers have the same sign. -/
theorem group_valid (c : List ℤ) :
    (Grp.ofComp c).valid ↔ (∀ x ∈ c, 0 ≤ x) ∨ (∀ x ∈ c, x ≤ 0) :=
  validate_valid c 0 (by norm_num)

example : (Grp.ofComp [1, 0, 2]).valid ∧ ¬ (Grp.ofComp [1, -1]).valid := by
  rw [group_valid, group_valid]; constructor
  · left; decide
  · decide

/-- The sign of a group is positive exactly if it has positive numbers and no negative ones. -/
theorem group_sign (c : List ℤ) :
    0 < (Grp.ofComp c).sign ↔ (∀ x ∈ c, 0 ≤ x) ∧ ∃ x ∈ c, x ≠ 0 :=
  validate_pos c 0 (by norm_num)

/-- A group which is not valid stays so, whatever is added; the numbers of atoms are not
cleared (Group.h:88-93 says they are). -/
theorem group_invalid_stays (c e : List ℤ) :
    ¬ ((Grp.mk c (-999)).sub (Grp.mk e 0)).valid ∧
      ((Grp.mk c (-999)).sub (Grp.mk e 0)).comp = List.zipWith (· - ·) c e := by
  unfold Grp.sub
  rw [validate_comp]
  exact ⟨by simp [Grp.validate, Grp.valid], rfl⟩

example : (Grp.ofComp [1, -1]).comp = [1, -1] ∧
    ¬ ((Grp.ofComp [1, -1]).sub (Grp.ofComp [0, -1])).valid := by decide

/-! ## The rules -/

set_option linter.unusedSimpArgs false

theorem rule_pos {r0 r1 p0 p1 : Grp} (h : (p0.sub r0).valid) (hs : 0 < (p0.sub r0).sign) :
    ∃ g, rule r0 r1 p0 p1 = some g ∧ g 0 0 = r0 ∧ g 0 1 = Grp.dflt ∧ g 1 0 = p0.sub r0 ∧
      g 1 1 = p1 := by
  unfold rule
  simp only [h, hs, if_true, not_true_eq_false, and_false, if_false]
  split <;> (try split) <;> exact ⟨_, rfl, by simp [Transfer.put], by simp [Transfer.put], by simp [Transfer.put],
    by simp [Transfer.put]⟩

theorem rule_neg {r0 r1 p0 p1 : Grp} (h : (p0.sub r0).valid) (hs : ¬ 0 < (p0.sub r0).sign)
    (hm : ((p0.sub r0).mul (-1)).valid) :
    ∃ g, rule r0 r1 p0 p1 = some g ∧ g 0 0 = p0 ∧ g 0 1 = (p0.sub r0).mul (-1) ∧
      g 1 0 = Grp.dflt ∧ g 1 1 = r1 := by
  unfold rule
  simp only [h, hs, if_true, not_false_eq_true, and_self, if_false, hm, not_true_eq_false]
  split <;> (try split) <;> exact ⟨_, rfl, by simp [Transfer.put], by simp [Transfer.put], by simp [Transfer.put],
    by simp [Transfer.put]⟩

theorem rule_b1_pos {r0 r1 p0 p1 : Grp} (h : ¬ (p0.sub r0).valid) (h1 : (p1.sub r0).valid)
    (hs : 0 < (p1.sub r0).sign) :
    ∃ g, rule r0 r1 p0 p1 = some g ∧ g 0 0 = Grp.dflt ∧ g 0 1 = r0 ∧ g 1 0 = p0 ∧
      g 1 1 = p0.sub r0 := by
  unfold rule
  simp only [h, h1, hs, if_true, not_false_eq_true, false_and, if_false]
  exact ⟨_, rfl, by simp [Transfer.put], by simp [Transfer.put], by simp [Transfer.put],
    by simp [Transfer.put]⟩

theorem rule_b1_neg {r0 r1 p0 p1 : Grp} (h : ¬ (p0.sub r0).valid) (h1 : (p1.sub r0).valid)
    (hs : ¬ 0 < (p1.sub r0).sign) :
    ∃ g, rule r0 r1 p0 p1 = some g ∧ g 0 0 = p0.sub r0 ∧ g 0 1 = p1 ∧ g 1 0 = r1 ∧
      g 1 1 = Grp.dflt := by
  unfold rule
  simp only [h, h1, hs, if_true, not_false_eq_true, false_and, if_false]
  exact ⟨_, rfl, by simp [Transfer.put], by simp [Transfer.put], by simp [Transfer.put],
    by simp [Transfer.put]⟩

theorem rule_none {r0 r1 p0 p1 : Grp} (h : ¬ (p0.sub r0).valid) (h1 : ¬ (p1.sub r0).valid) :
    rule r0 r1 p0 p1 = none := by
  unfold rule
  simp [h, h1]

/-! ## Amounts -/

/-- Atoms of element `m` on the reactant side of reaction `i`. -/
noncomputable def total (M : Mech) (m i : ℕ) : ℝ := ((reac M i).map (M.atoms · m)).sum

/-- Atoms of `m` moved from position `kr` of the reactants to position `kp` of the products per
unit of progress, in a diagram made by a new builder. -/
noncomputable def amount (M : Mech) (m i kr kp : ℕ) : ℝ :=
  if 0 < M.atoms ((reac M i).getD kr 0) m ∧ 0 < M.atoms ((prods M i).getD kp 0) m then
    factorE M (total M m i) m i kr kp
  else 0

/-- Atoms are conserved: each reactant loses and each product receives what it contains. -/
structure Conserves (M : Mech) (m i : ℕ) : Prop where
  reactant : ∀ kr < (reac M i).length,
    ∑ kp ∈ Finset.range (prods M i).length, amount M m i kr kp =
      M.atoms ((reac M i).getD kr 0) m
  product : ∀ kp < (prods M i).length,
    ∑ kr ∈ Finset.range (reac M i).length, amount M m i kr kp =
      M.atoms ((prods M i).getD kp 0) m
  nonneg : ∀ kr < (reac M i).length, ∀ kp < (prods M i).length, 0 ≤ amount M m i kr kp

/-- At most one entry of the list contains element `m`. -/
def Single (M : Mech) (m : ℕ) (l : List ℕ) : Prop :=
  ∀ p < l.length, ∀ q < l.length, 0 < M.atoms (l.getD p 0) m → 0 < M.atoms (l.getD q 0) m → p = q

theorem single_full {M : Mech} {m : ℕ} (h0 : ∀ k, 0 ≤ M.atoms k m) {l : List ℕ}
    (hs : Single M m l) {p : ℕ} (hp : p < l.length) (hpos : 0 < M.atoms (l.getD p 0) m) :
    M.atoms (l.getD p 0) m = (l.map (M.atoms · m)).sum := by
  rw [← sum_getD]
  symm
  refine Finset.sum_eq_single p ?_ ?_
  · intro q hq hqp
    by_contra hne
    exact hqp (hs q (Finset.mem_range.1 hq) p hp (lt_of_le_of_ne (h0 _) (Ne.symm hne)) hpos)
  · intro h; exact absurd (Finset.mem_range.2 hp) h

theorem le_sum {M : Mech} {m : ℕ} (h0 : ∀ k, 0 ≤ M.atoms k m) {l : List ℕ} {p : ℕ}
    (hp : p < l.length) : M.atoms (l.getD p 0) m ≤ (l.map (M.atoms · m)).sum := by
  rw [← sum_getD]
  exact Finset.single_le_sum (f := fun j => M.atoms (l.getD j 0) m) (fun j _ => h0 _)
    (Finset.mem_range.2 hp)

/-- If only one product or only one reactant contains the element, the atoms are distributed in
proportion to the numbers of atoms. -/
theorem amount_single {M : Mech} {m i : ℕ} (h0 : ∀ k, 0 ≤ M.atoms k m)
    (hb : ((reac M i).map (M.atoms · m)).sum = ((prods M i).map (M.atoms · m)).sum)
    (hs : Single M m (reac M i) ∨ Single M m (prods M i)) {kr kp : ℕ}
    (hr : kr < (reac M i).length) (hp : kp < (prods M i).length) :
    amount M m i kr kp = M.atoms ((prods M i).getD kp 0) m * M.atoms ((reac M i).getD kr 0) m /
      ((reac M i).map (M.atoms · m)).sum := by
  unfold amount
  split
  · rename_i hpos
    unfold factorE
    simp only
    rw [if_neg]
    · rfl
    · rintro ⟨hl1, hl2⟩
      rcases hs with hs | hs
      · rw [single_full h0 hs hr hpos.1] at hl2; exact lt_irrefl _ hl2
      · rw [single_full h0 hs hp hpos.2] at hl1
        unfold total at hl1; rw [hb] at hl1; exact lt_irrefl _ hl1
  · rename_i hpos
    have : M.atoms ((reac M i).getD kr 0) m = 0 ∨ M.atoms ((prods M i).getD kp 0) m = 0 := by
      by_contra hc
      push Not at hc
      exact hpos ⟨lt_of_le_of_ne (h0 _) hc.1.symm, lt_of_le_of_ne (h0 _) hc.2.symm⟩
    rcases this with h | h <;> rw [h] <;> simp

/-- Conservation if only one reactant or only one product contains the element. -/
theorem conserves_single {M : Mech} {m i : ℕ} (h0 : ∀ k, 0 ≤ M.atoms k m)
    (hb : ((reac M i).map (M.atoms · m)).sum = ((prods M i).map (M.atoms · m)).sum)
    (hs : Single M m (reac M i) ∨ Single M m (prods M i)) : Conserves M m i := by
  constructor
  · intro kr hr
    rw [Finset.sum_congr rfl fun kp hkp =>
      amount_single h0 hb hs hr (Finset.mem_range.1 hkp)]
    rw [← Finset.sum_div, ← Finset.sum_mul, sum_getD (prods M i) (M.atoms · m), ← hb]
    by_cases hE : ((reac M i).map (M.atoms · m)).sum = 0
    · have := le_sum h0 hr
      rw [hE] at this
      rw [hE, le_antisymm this (h0 _)]; simp
    · field_simp
  · intro kp hp
    rw [Finset.sum_congr rfl fun kr hkr =>
      amount_single h0 hb hs (Finset.mem_range.1 hkr) hp]
    rw [← Finset.sum_div, ← Finset.mul_sum, sum_getD (reac M i) (M.atoms · m)]
    by_cases hE : ((reac M i).map (M.atoms · m)).sum = 0
    · have := le_sum h0 hp
      rw [← hb, hE] at this
      rw [hE, le_antisymm this (h0 _)]; simp
    · field_simp
  · intro kr hr kp hp
    rw [amount_single h0 hb hs hr hp]
    exact div_nonneg (mul_nonneg (h0 _) (h0 _)) ((h0 _).trans (le_sum h0 hr))

open Classical in
/-- A reaction is determinate exactly if, for every element, at most one reactant or at most one
product contains it. -/
theorem determinate_iff (M : Mech) (i : ℕ) : determinate M i = true ↔ ∀ m < M.nel,
    (reac M i).countP (fun k => 0 < M.atoms k m) ≤ 1 ∨
    (prods M i).countP (fun k => 0 < M.atoms k m) ≤ 1 := by
  have e : ∀ l m, nContain M l m = l.countP (fun k => 0 < M.atoms k m) := by
    intro l m; unfold nContain; rw [List.countP_eq_length_filter]
  unfold determinate
  simp only [List.all_eq_true, List.mem_range, Bool.not_eq_true', Bool.and_eq_false_iff,
    decide_eq_false_iff_not, not_lt, e]

/-! ## Two reactants and two products -/

theorem not_determinate {M : Mech} {m i r0 r1 p0 p1 : ℕ} (hm : m < M.nel)
    (hr : reac M i = [r0, r1]) (hp : prods M i = [p0, p1])
    (h0 : 0 < M.atoms r0 m) (h1 : 0 < M.atoms r1 m) (h2 : 0 < M.atoms p0 m)
    (h3 : 0 < M.atoms p1 m) :
    transfer M i = rule (sgroup M r0) (sgroup M r1) (sgroup M p0) (sgroup M p1) := by
  have : determinate M i = false := by
    unfold determinate
    rw [List.all_eq_false]
    refine ⟨m, List.mem_range.2 hm, ?_⟩
    simp [nContain, hr, hp, h0, h1, h2, h3]
  unfold transfer
  rw [this, hr, hp]
  rfl

/-- The data of a reaction A + BC = AB + C with integer numbers of atoms, all four species
containing element `m`. -/
structure Two (M : Mech) (A : ℕ → ℕ → ℕ) (m i r0 r1 p0 p1 : ℕ) : Prop where
  atoms : ∀ k m, M.atoms k m = A k m
  el : m < M.nel
  hr : reac M i = [r0, r1]
  hp : prods M i = [p0, p1]
  bal : ∀ m, A r0 m + A r1 m = A p0 m + A p1 m
  c0 : 0 < A r0 m
  c1 : 0 < A r1 m
  c2 : 0 < A p0 m
  c3 : 0 < A p1 m

theorem Two.amount_eq {M : Mech} {A : ℕ → ℕ → ℕ} {m i r0 r1 p0 p1 : ℕ}
    (h : Two M A m i r0 r1 p0 p1) (g : ℕ → ℕ → Grp) (kr kp : ℕ) (hkr : kr < 2) (hkp : kp < 2)
    (hg : rule (sgroup M r0) (sgroup M r1) (sgroup M p0) (sgroup M p1) = some g) :
    amount M m i kr kp = if ¬ (g kr kp).valid then 0 else ((g kr kp).nAtoms m : ℝ) := by
  have hc : ∀ k, 0 < A k m → 0 < M.atoms k m := by
    intro k hk; rw [h.atoms]; exact_mod_cast hk
  have ht : total M m i = (A r0 m : ℝ) + A r1 m := by
    unfold total; rw [h.hr]; simp [h.atoms]
  have htp : total M m i = (A p0 m : ℝ) + A p1 m := by
    rw [ht]; exact_mod_cast h.bal m
  have hr' : (A ((reac M i).getD kr 0) m : ℝ) < total M m i ∧
      0 < A ((reac M i).getD kr 0) m := by
    rw [ht, h.hr]
    have a := h.c0; have b := h.c1
    obtain rfl | rfl : kr = 0 ∨ kr = 1 := by omega
    · exact ⟨by exact_mod_cast (by simp; omega), by simpa using a⟩
    · exact ⟨by exact_mod_cast (by simp; omega), by simpa using b⟩
  have hp' : (A ((prods M i).getD kp 0) m : ℝ) < total M m i ∧
      0 < A ((prods M i).getD kp 0) m := by
    rw [htp, h.hp]
    have a := h.c2; have b := h.c3
    obtain rfl | rfl : kp = 0 ∨ kp = 1 := by omega
    · exact ⟨by exact_mod_cast (by simp; omega), by simpa using a⟩
    · exact ⟨by exact_mod_cast (by simp; omega), by simpa using b⟩
  unfold amount
  rw [if_pos ⟨hc _ hr'.2, hc _ hp'.2⟩]
  unfold factorE
  simp only
  rw [if_pos ⟨by rw [h.atoms]; exact hp'.1, by rw [h.atoms]; exact hr'.1⟩,
    not_determinate h.el h.hr h.hp (hc _ h.c0) (hc _ h.c1) (hc _ h.c2) (hc _ h.c3), hg]

theorem dflt_invalid : ¬ Grp.dflt.valid := by decide

/-- If the first product contains the first reactant, that reactant goes there completely and
the second reactant supplies the rest. -/
theorem two_contains {M : Mech} {A : ℕ → ℕ → ℕ} {m i r0 r1 p0 p1 : ℕ}
    (h : Two M A m i r0 r1 p0 p1) (hle : ∀ m < M.nel, A r0 m ≤ A p0 m)
    (hne : ∃ m < M.nel, A p0 m ≠ A r0 m) :
    amount M m i 0 0 = A r0 m ∧ amount M m i 0 1 = 0 ∧
      amount M m i 1 0 = (A p0 m : ℝ) - A r0 m ∧ amount M m i 1 1 = A p1 m := by
  have hv := (sub_valid h.atoms p0 r0).2 (Or.inl hle)
  obtain ⟨g, hg, g00, g01, g10, g11⟩ := rule_pos (r1 := sgroup M r1) (p1 := sgroup M p1) hv
    ((sub_pos h.atoms p0 r0).2 ⟨hle, hne⟩)
  rw [h.amount_eq g 0 0 (by omega) (by omega) hg, h.amount_eq g 0 1 (by omega) (by omega) hg,
    h.amount_eq g 1 0 (by omega) (by omega) hg, h.amount_eq g 1 1 (by omega) (by omega) hg,
    g00, g01, g10, g11, nAtoms_of (sgroup_comp h.atoms r0) h.el,
    nAtoms_of (sgroup_comp h.atoms p1) h.el, nAtoms_of (sub_comp h.atoms p0 r0) h.el]
  simp [sgroup_valid h.atoms, hv, dflt_invalid]

/-- If the first product is contained in the first reactant, it comes from there completely and
the second product receives the rest. -/
theorem two_contained {M : Mech} {A : ℕ → ℕ → ℕ} {m i r0 r1 p0 p1 : ℕ}
    (h : Two M A m i r0 r1 p0 p1) (hle : ∀ m < M.nel, A p0 m ≤ A r0 m) :
    amount M m i 0 0 = A p0 m ∧ amount M m i 0 1 = (A r0 m : ℝ) - A p0 m ∧
      amount M m i 1 0 = 0 ∧ amount M m i 1 1 = A r1 m := by
  have hv := (sub_valid h.atoms p0 r0).2 (Or.inr hle)
  have hm := sub_mul_valid h.atoms p0 r0 hv
  have hs : ¬ 0 < ((sgroup M p0).sub (sgroup M r0)).sign := by
    rw [sub_pos h.atoms]
    rintro ⟨h1, m', hm', hne⟩
    exact hne (le_antisymm (hle m' hm') (h1 m' hm'))
  obtain ⟨g, hg, g00, g01, g10, g11⟩ := rule_neg (r1 := sgroup M r1) (p1 := sgroup M p1) hv hs hm
  rw [h.amount_eq g 0 0 (by omega) (by omega) hg, h.amount_eq g 0 1 (by omega) (by omega) hg,
    h.amount_eq g 1 0 (by omega) (by omega) hg, h.amount_eq g 1 1 (by omega) (by omega) hg,
    g00, g01, g10, g11, nAtoms_of (sgroup_comp h.atoms p0) h.el,
    nAtoms_of (sgroup_comp h.atoms r1) h.el, nAtoms_of (mul_comp h.atoms p0 r0) h.el]
  simp [sgroup_valid h.atoms, hm, dflt_invalid]

/-- Neither contains the other, but the second product contains the first reactant: the atoms
which the second reactant should give to the second product are lost.  Lines 529 and 539 store
the invalid group `b0` instead of `b1`. -/
theorem two_swapped {M : Mech} {A : ℕ → ℕ → ℕ} {m i r0 r1 p0 p1 : ℕ}
    (h : Two M A m i r0 r1 p0 p1) (hn1 : ∃ m < M.nel, A p0 m < A r0 m)
    (hn2 : ∃ m < M.nel, A r0 m < A p0 m) (hle : ∀ m < M.nel, A r0 m ≤ A p1 m)
    (hne : ∃ m < M.nel, A p1 m ≠ A r0 m) :
    amount M m i 0 0 = 0 ∧ amount M m i 0 1 = A r0 m ∧ amount M m i 1 0 = A p0 m ∧
      amount M m i 1 1 = 0 := by
  have hv : ¬ ((sgroup M p0).sub (sgroup M r0)).valid := by
    rw [sub_valid h.atoms]
    rintro (hc | hc)
    · obtain ⟨x, hx, hx'⟩ := hn1; have := hc x hx; omega
    · obtain ⟨x, hx, hx'⟩ := hn2; have := hc x hx; omega
  obtain ⟨g, hg, g00, g01, g10, g11⟩ := rule_b1_pos (r1 := sgroup M r1) hv
    ((sub_valid h.atoms p1 r0).2 (Or.inl hle)) ((sub_pos h.atoms p1 r0).2 ⟨hle, hne⟩)
  rw [h.amount_eq g 0 0 (by omega) (by omega) hg, h.amount_eq g 0 1 (by omega) (by omega) hg,
    h.amount_eq g 1 0 (by omega) (by omega) hg, h.amount_eq g 1 1 (by omega) (by omega) hg,
    g00, g01, g10, g11, nAtoms_of (sgroup_comp h.atoms p0) h.el,
    nAtoms_of (sgroup_comp h.atoms r0) h.el]
  simp [sgroup_valid h.atoms, hv, dflt_invalid]

/-- Likewise if the second product is contained in the first reactant. -/
theorem two_swapped' {M : Mech} {A : ℕ → ℕ → ℕ} {m i r0 r1 p0 p1 : ℕ}
    (h : Two M A m i r0 r1 p0 p1) (hn1 : ∃ m < M.nel, A p0 m < A r0 m)
    (hn2 : ∃ m < M.nel, A r0 m < A p0 m) (hle : ∀ m < M.nel, A p1 m ≤ A r0 m) :
    amount M m i 0 0 = 0 ∧ amount M m i 0 1 = A p1 m ∧ amount M m i 1 0 = A r1 m ∧
      amount M m i 1 1 = 0 := by
  have hv : ¬ ((sgroup M p0).sub (sgroup M r0)).valid := by
    rw [sub_valid h.atoms]
    rintro (hc | hc)
    · obtain ⟨x, hx, hx'⟩ := hn1; have := hc x hx; omega
    · obtain ⟨x, hx, hx'⟩ := hn2; have := hc x hx; omega
  have hs : ¬ 0 < ((sgroup M p1).sub (sgroup M r0)).sign := by
    rw [sub_pos h.atoms]
    rintro ⟨h1, m', hm', hne⟩
    exact hne (le_antisymm (hle m' hm') (h1 m' hm'))
  obtain ⟨g, hg, g00, g01, g10, g11⟩ := rule_b1_neg (r1 := sgroup M r1) hv
    ((sub_valid h.atoms p1 r0).2 (Or.inr hle)) hs
  rw [h.amount_eq g 0 0 (by omega) (by omega) hg, h.amount_eq g 0 1 (by omega) (by omega) hg,
    h.amount_eq g 1 0 (by omega) (by omega) hg, h.amount_eq g 1 1 (by omega) (by omega) hg,
    g00, g01, g10, g11, nAtoms_of (sgroup_comp h.atoms p1) h.el,
    nAtoms_of (sgroup_comp h.atoms r1) h.el]
  simp [sgroup_valid h.atoms, hv, dflt_invalid]

/-- If the first reactant cannot be compared with either product, the reaction is ignored. -/
theorem two_ignored {M : Mech} {A : ℕ → ℕ → ℕ} {m i r0 r1 p0 p1 : ℕ}
    (h : Two M A m i r0 r1 p0 p1)
    (hn : ∀ p, p = p0 ∨ p = p1 → (∃ m < M.nel, A p m < A r0 m) ∧ ∃ m < M.nel, A r0 m < A p m)
    (kr kp : ℕ) (hkr : kr < 2) (hkp : kp < 2) : amount M m i kr kp = 0 := by
  have hv : ∀ p, p = p0 ∨ p = p1 → ¬ ((sgroup M p).sub (sgroup M r0)).valid := by
    intro p hp
    obtain ⟨⟨x, hx, hx'⟩, ⟨y, hy, hy'⟩⟩ := hn p hp
    rw [sub_valid h.atoms]
    rintro (hc | hc)
    · have := hc x hx; omega
    · have := hc y hy; omega
  have hc : ∀ k, 0 < A k m → 0 < M.atoms k m := by
    intro k hk; rw [h.atoms]; exact_mod_cast hk
  have ht : total M m i = (A r0 m : ℝ) + A r1 m := by
    unfold total; rw [h.hr]; simp [h.atoms]
  have htp : total M m i = (A p0 m : ℝ) + A p1 m := by
    rw [ht]; exact_mod_cast h.bal m
  have hr' : (A ((reac M i).getD kr 0) m : ℝ) < total M m i := by
    rw [ht, h.hr]
    have a := h.c0; have b := h.c1
    obtain rfl | rfl : kr = 0 ∨ kr = 1 := by omega
    · exact_mod_cast (by simp; omega)
    · exact_mod_cast (by simp; omega)
  have hp' : (A ((prods M i).getD kp 0) m : ℝ) < total M m i := by
    rw [htp, h.hp]
    have a := h.c2; have b := h.c3
    obtain rfl | rfl : kp = 0 ∨ kp = 1 := by omega
    · exact_mod_cast (by simp; omega)
    · exact_mod_cast (by simp; omega)
  unfold amount
  split
  · unfold factorE
    simp only
    rw [if_pos ⟨by rw [h.atoms]; exact hp', by rw [h.atoms]; exact hr'⟩,
      not_determinate h.el h.hr h.hp (hc _ h.c0) (hc _ h.c1) (hc _ h.c2) (hc _ h.c3),
      rule_none (hv p0 (Or.inl rfl)) (hv p1 (Or.inr rfl))]
  · rfl

/-- Conservation for two reactants and two products, if the first reactant and the first
product can be compared. -/
theorem conserves_two {M : Mech} {A : ℕ → ℕ → ℕ} {m i r0 r1 p0 p1 : ℕ}
    (hA : ∀ k m, M.atoms k m = A k m) (hm : m < M.nel)
    (hr : reac M i = [r0, r1]) (hp : prods M i = [p0, p1])
    (hb : ∀ m, A r0 m + A r1 m = A p0 m + A p1 m)
    (hc : (∀ m < M.nel, A r0 m ≤ A p0 m) ∨ (∀ m < M.nel, A p0 m ≤ A r0 m)) :
    Conserves M m i := by
  have hb' : ((reac M i).map (M.atoms · m)).sum = ((prods M i).map (M.atoms · m)).sum := by
    rw [hr, hp]; simp only [hA, List.map_cons, List.map_nil, List.sum_cons, List.sum_nil]
    have := hb m
    have : (A r0 m : ℝ) + A r1 m = A p0 m + A p1 m := by exact_mod_cast this
    linarith
  have h0 : ∀ k, 0 ≤ M.atoms k m := by intro k; rw [hA]; exact Nat.cast_nonneg _
  by_cases hs : Single M m (reac M i) ∨ Single M m (prods M i)
  · exact conserves_single h0 hb' hs
  · have key : ∀ a b : ℕ, ¬ Single M m [a, b] → 0 < A a m ∧ 0 < A b m := by
      intro a b hn
      unfold Single at hn
      push Not at hn
      obtain ⟨p, hp, q, hq, h1, h2, hne⟩ := hn
      simp only [hA, Nat.cast_pos] at h1 h2
      simp only [List.length_cons, List.length_nil] at hp hq
      obtain rfl | rfl : p = 0 ∨ p = 1 := by omega
      · obtain rfl : q = 1 := by omega
        simpa using And.intro h1 h2
      · obtain rfl : q = 0 := by omega
        simpa using And.intro h2 h1
    rw [not_or, hr, hp] at hs
    obtain ⟨a0, a1⟩ := key _ _ hs.1
    obtain ⟨a2, a3⟩ := key _ _ hs.2
    have h : Two M A m i r0 r1 p0 p1 := ⟨hA, hm, hr, hp, hb, a0, a1, a2, a3⟩
    have hbm : (A r0 m : ℝ) + A r1 m = A p0 m + A p1 m := by exact_mod_cast hb m
    have fin : ∀ x00 x01 x10 x11 : ℝ, amount M m i 0 0 = x00 → amount M m i 0 1 = x01 →
        amount M m i 1 0 = x10 → amount M m i 1 1 = x11 →
        0 ≤ x00 → 0 ≤ x01 → 0 ≤ x10 → 0 ≤ x11 →
        x00 + x01 = A r0 m → x10 + x11 = A r1 m → x00 + x10 = A p0 m → x01 + x11 = A p1 m →
        Conserves M m i := by
      intro x00 x01 x10 x11 e00 e01 e10 e11 n00 n01 n10 n11 s0 s1 t0 t1
      constructor
      · intro kr hkr
        rw [hr] at hkr
        simp only [List.length_cons, List.length_nil] at hkr
        rw [hp, hr, hA]
        obtain rfl | rfl : kr = 0 ∨ kr = 1 := by omega
        · simp [Finset.sum_range_succ, e00, e01, s0]
        · simp [Finset.sum_range_succ, e10, e11, s1]
      · intro kp hkp
        rw [hp] at hkp
        simp only [List.length_cons, List.length_nil] at hkp
        rw [hp, hr, hA]
        obtain rfl | rfl : kp = 0 ∨ kp = 1 := by omega
        · simp [Finset.sum_range_succ, e00, e10, t0]
        · simp [Finset.sum_range_succ, e01, e11, t1]
      · intro kr hkr kp hkp
        rw [hr] at hkr; rw [hp] at hkp
        simp only [List.length_cons, List.length_nil] at hkr hkp
        have q1 : kr = 0 ∨ kr = 1 := by omega
        have q2 : kp = 0 ∨ kp = 1 := by omega
        rcases q1 with rfl | rfl <;> rcases q2 with rfl | rfl
        · rw [e00]; exact n00
        · rw [e01]; exact n01
        · rw [e10]; exact n10
        · rw [e11]; exact n11
    have c0 : (0 : ℝ) ≤ A r0 m := Nat.cast_nonneg _
    have c1 : (0 : ℝ) ≤ A r1 m := Nat.cast_nonneg _
    have c2 : (0 : ℝ) ≤ A p0 m := Nat.cast_nonneg _
    have c3 : (0 : ℝ) ≤ A p1 m := Nat.cast_nonneg _
    by_cases hle : ∀ m < M.nel, A p0 m ≤ A r0 m
    · obtain ⟨e00, e01, e10, e11⟩ := two_contained h hle
      have : (A p0 m : ℝ) ≤ A r0 m := by exact_mod_cast hle m hm
      exact fin _ _ _ _ e00 e01 e10 e11 c2 (by linarith) le_rfl c1 (by ring) (by ring) (by ring)
        (by linarith)
    · have hle' := hc.resolve_right hle
      have hne : ∃ m < M.nel, A p0 m ≠ A r0 m := by
        push Not at hle
        obtain ⟨x, hx, h⟩ := hle
        exact ⟨x, hx, by omega⟩
      obtain ⟨e00, e01, e10, e11⟩ := two_contains h hle' hne
      have : (A r0 m : ℝ) ≤ A p0 m := by exact_mod_cast hle' m hm
      exact fin _ _ _ _ e00 e01 e10 e11 c0 le_rfl (by linarith) c3 (by ring) (by linarith)
        (by ring) (by ring)

end Verif.RPath
