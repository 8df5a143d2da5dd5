import Verif.Thermo.Molal
import Mathlib.Analysis.SpecialFunctions.Log.Deriv
import Mathlib.Analysis.SpecialFunctions.Exp
import Mathlib.Analysis.Calculus.Deriv.Pow
import Mathlib.Analysis.Calculus.Deriv.MeanValue
import Mathlib.Algebra.BigOperators.Field
import Mathlib.Algebra.BigOperators.Intervals
import Mathlib.Algebra.Order.BigOperators.Ring.Finset
import Mathlib.Tactic.FieldSimp
import Mathlib.Tactic.Linarith
import Mathlib.Tactic.LinearCombination
import Mathlib.Tactic.Positivity

/-!
# Properties of molalities and ideal molal solutions
-/

namespace Verif.Molal

theorem small_pos : 0 < small := by unfold small; positivity

variable (M : Sol)

/-! ## Molalities and mole fractions -/

theorem range_eq (hn : 1 ≤ M.n) (f : ℕ → ℝ) :
    ∑ k ∈ Finset.range M.n, f k = f 0 + ∑ k ∈ Finset.Ico 1 M.n, f k := by
  rw [Finset.range_eq_Ico, Finset.sum_eq_sum_Ico_succ_bot (by omega)]

/-- Molalities of solutes and solvent. -/
theorem molality_formula (X : ℕ → ℝ) (k : ℕ) :
    molality M X k = X k / (M.M0 * max (X 0) M.xmin) := by
  unfold molality; rw [mul_one_div]

/-- The molality of the solvent is the number of moles in one kilogram. -/
theorem molality_solvent (X : ℕ → ℝ) (h0 : M.xmin ≤ X 0) (hx : 0 < X 0) :
    molality M X 0 = 1 / M.M0 := by
  rw [molality_formula, max_eq_left h0]
  rcases eq_or_ne M.M0 0 with h | h
  · simp [h]
  · field_simp

/-- Mole fractions set from nonnegative molalities: they sum to one, and are proportional to the
moles of solute in one kilogram of solvent. -/
theorem setMolalities_formula (hn : 1 ≤ M.n) (hM : 0 < M.M0) (m : ℕ → ℝ)
    (hm : ∀ k, 1 ≤ k → k < M.n → 0 ≤ m k) (k : ℕ) (hk : k < M.n) :
    setMolalities M m k = (if k = 0 then 1 / M.M0 else m k) /
      (1 / M.M0 + ∑ j ∈ Finset.Ico 1 M.n, m j) := by
  have hS : 0 ≤ ∑ j ∈ Finset.Ico 1 M.n, m j :=
    Finset.sum_nonneg fun j hj => by
      rw [Finset.mem_Ico] at hj; exact hm j hj.1 hj.2
  have hL : 0 < 1 / M.M0 + ∑ j ∈ Finset.Ico 1 M.n, m j := by positivity
  have hsum : ∑ j ∈ Finset.range M.n,
      (if j = 0 then 1 / (1 / M.M0 + ∑ j ∈ Finset.Ico 1 M.n, m j) / M.M0
        else 1 / (1 / M.M0 + ∑ j ∈ Finset.Ico 1 M.n, m j) * m j) = 1 := by
    rw [range_eq M hn, if_pos rfl]
    have : ∑ k ∈ Finset.Ico 1 M.n,
        (if k = 0 then 1 / (1 / M.M0 + ∑ j ∈ Finset.Ico 1 M.n, m j) / M.M0
          else 1 / (1 / M.M0 + ∑ j ∈ Finset.Ico 1 M.n, m j) * m k)
        = 1 / (1 / M.M0 + ∑ j ∈ Finset.Ico 1 M.n, m j) * ∑ j ∈ Finset.Ico 1 M.n, m j := by
      rw [Finset.mul_sum]
      refine Finset.sum_congr rfl fun j hj => ?_
      rw [Finset.mem_Ico] at hj
      rw [if_neg (by omega)]
    rw [this]
    generalize ∑ j ∈ Finset.Ico 1 M.n, m j = S at hL ⊢
    have h1 : (1 / M.M0 + S) ≠ 0 := ne_of_gt hL
    rw [div_eq_mul_one_div _ M.M0, ← mul_add, one_div_mul_cancel h1]
  have hfrom : ∀ j, fromMolalities M m j =
      if j = 0 then 1 / (1 / M.M0 + ∑ j ∈ Finset.Ico 1 M.n, m j) / M.M0
        else 1 / (1 / M.M0 + ∑ j ∈ Finset.Ico 1 M.n, m j) * m j := by
    intro j
    unfold fromMolalities
    simp only []
    rw [hsum]
    rw [if_neg (by simp)]
  have hnn : ∀ j, j < M.n → 0 ≤ fromMolalities M m j := by
    intro j hj
    rw [hfrom]
    split_ifs with h
    · positivity
    · have := hm j (by omega) hj
      positivity
  unfold setMolalities normalize
  have : ∑ j ∈ Finset.range M.n, max (fromMolalities M m j) 0 = 1 := by
    rw [← hsum]
    refine Finset.sum_congr rfl fun j hj => ?_
    rw [max_eq_left (hnn j (Finset.mem_range.1 hj)), hfrom]
  rw [this, max_eq_left (hnn k hk), hfrom]
  split_ifs
  · rw [div_one, div_div, mul_comm, ← div_div]
  · rw [div_one, one_div_mul_eq_div]

/-- Setting molalities and reading them returns the same numbers, as long as the mole fraction of
the solvent is not below its bound; the value given for the solvent is ignored. -/
theorem molality_setMolalities (hn : 1 ≤ M.n) (hM : 0 < M.M0) (m : ℕ → ℝ)
    (hm : ∀ k, 1 ≤ k → k < M.n → 0 ≤ m k)
    (hb : M.xmin * (1 + M.M0 * ∑ j ∈ Finset.Ico 1 M.n, m j) ≤ 1) (k : ℕ) (hk : k < M.n) :
    molality M (setMolalities M m) k = if k = 0 then 1 / M.M0 else m k := by
  have hS : 0 ≤ ∑ j ∈ Finset.Ico 1 M.n, m j :=
    Finset.sum_nonneg fun j hj => by
      rw [Finset.mem_Ico] at hj; exact hm j hj.1 hj.2
  rw [molality_formula, setMolalities_formula M hn hM m hm k hk,
    setMolalities_formula M hn hM m hm 0 (by omega), if_pos rfl]
  generalize ∑ j ∈ Finset.Ico 1 M.n, m j = S at hb hS ⊢
  have h1 : 0 < 1 + M.M0 * S := by positivity
  have h2 : 1 / M.M0 + S = (1 + M.M0 * S) / M.M0 := by field_simp
  have h3 : 1 / M.M0 / (1 / M.M0 + S) = 1 / (1 + M.M0 * S) := by
    rw [h2]; field_simp
  rw [h3, max_eq_left (by rw [le_div_iff₀ h1]; exact hb), h2]
  field_simp

/-- Beyond that the molalities read are smaller than the ones set: with a bound of one half and one
mole of solvent per kilogram, a molality of three is read as three halves. -/
theorem molality_setMolalities_bound :
    ∃ (M : Sol) (m : ℕ → ℝ), 0 < M.M0 ∧ (∀ k, 0 ≤ m k) ∧
      m 1 = 3 ∧ molality M (setMolalities M m) 1 = 3 / 2 := by
  refine ⟨⟨2, 1, 1 / 2, fun _ => 0⟩, fun _ => 3, by norm_num, fun _ => by norm_num, rfl, ?_⟩
  rw [molality_formula, setMolalities_formula _ (by norm_num) (by norm_num) _
    (fun _ _ _ => by norm_num) 1 (by norm_num), setMolalities_formula _ (by norm_num)
    (by norm_num) _ (fun _ _ _ => by norm_num) 0 (by norm_num)]
  norm_num [Finset.sum_Ico_succ_top]

example : ∃ (M : Sol) (m : ℕ → ℝ), 1 ≤ M.n ∧ 0 < M.M0 ∧ (∀ k, 0 ≤ m k) ∧
    M.xmin * (1 + M.M0 * ∑ j ∈ Finset.Ico 1 M.n, m j) ≤ 1 :=
  ⟨⟨2, 1, 1 / 4, fun _ => 0⟩, fun _ => 1, by norm_num, by norm_num, fun _ => by norm_num,
    by norm_num [Finset.sum_Ico_succ_top]⟩

/-! ## Molalities by name -/

/-- What the loop knows: the charge so far, and for each sign an ion of that sign with the charge
recorded, unless that is zero. -/
structure AccOk (z mf : ℕ → ℝ) (n : ℕ) (a : Acc) : Prop where
  sum : a.sum = ∑ k ∈ Finset.range n, mf k * z k
  cp : 0 ≤ a.cp
  lp : ∀ k, a.lp = some k → k < n ∧ 0 < mf k ∧ 0 < z k ∧ a.cp = z k * mf k
  lpn : a.lp = none → a.cp = 0
  cn : 0 ≤ a.cn
  ln : ∀ k, a.ln = some k → k < n ∧ 0 < mf k ∧ z k < 0 ∧ a.cn = -z k * mf k
  lnn : a.ln = none → a.cn = 0
  maxp : ∀ k, k < n → 0 < z k → z k * mf k ≤ a.cp
  maxn : ∀ k, k < n → z k < 0 → -z k * mf k ≤ a.cn

theorem accStep_ok {z mf : ℕ → ℝ} {n : ℕ} {a : Acc} (h : AccOk z mf n a) :
    AccOk z mf (n + 1) (accStep z mf a n) := by
  obtain ⟨hs, hcp, hlp, hlpn, hcn, hln, hlnn, hmp, hmn⟩ := h
  have up : ∀ k, a.lp = some k → k < n + 1 ∧ 0 < mf k ∧ 0 < z k ∧ a.cp = z k * mf k :=
    fun k hk => ⟨by have := (hlp k hk).1; omega, (hlp k hk).2⟩
  have un : ∀ k, a.ln = some k → k < n + 1 ∧ 0 < mf k ∧ z k < 0 ∧ a.cn = -z k * mf k :=
    fun k hk => ⟨by have := (hln k hk).1; omega, (hln k hk).2⟩
  have ls : ∀ k, k < n + 1 → k < n ∨ k = n := fun k hk => by omega
  unfold accStep
  by_cases h0 : 0 < mf n
  · rcases lt_trichotomy (z n) 0 with hz | hz | hz
    · have e1 : ¬ (0 < z n ∧ a.cp < z n * mf n) := fun h => by linarith [h.1]
      simp only [h0, if_true, if_neg e1]
      have habs : |z n| = -z n := abs_of_neg hz
      by_cases e2 : z n < 0 ∧ a.cn < |z n| * mf n
      · simp only [if_pos e2]
        refine ⟨by simp [hs, Finset.sum_range_succ], hcp, up, hlpn, by positivity, ?_, ?_, ?_, ?_⟩
        · intro k hk
          cases hk
          exact ⟨by omega, h0, hz, by rw [habs]⟩
        · intro hk; cases hk
        · intro k hk hzk
          rcases ls k hk with hk | rfl
          · exact hmp k hk hzk
          · linarith
        · intro k hk hzk
          rcases ls k hk with hk | rfl
          · exact (hmn k hk hzk).trans e2.2.le
          · simp [habs]
      · simp only [if_neg e2]
        refine ⟨by simp [hs, Finset.sum_range_succ], hcp, up, hlpn, hcn, un, hlnn, ?_, ?_⟩
        · intro k hk hzk
          rcases ls k hk with hk | rfl
          · exact hmp k hk hzk
          · linarith
        · intro k hk hzk
          rcases ls k hk with hk | rfl
          · exact hmn k hk hzk
          · rw [← habs]
            exact not_lt.1 fun h => e2 ⟨hz, h⟩
    · have e1 : ¬ (0 < z n ∧ a.cp < z n * mf n) := fun h => by linarith [h.1]
      have e2 : ¬ (z n < 0 ∧ a.cn < |z n| * mf n) := fun h => by linarith [h.1]
      simp only [h0, if_true, if_neg e1, if_neg e2]
      refine ⟨by simp [hs, Finset.sum_range_succ], hcp, up, hlpn, hcn, un, hlnn, ?_, ?_⟩
      · intro k hk hzk
        rcases ls k hk with hk | rfl
        · exact hmp k hk hzk
        · linarith
      · intro k hk hzk
        rcases ls k hk with hk | rfl
        · exact hmn k hk hzk
        · linarith
    · have e2 : ∀ c : ℝ, ¬ (z n < 0 ∧ c < |z n| * mf n) := fun c h => by linarith [h.1]
      by_cases e1 : 0 < z n ∧ a.cp < z n * mf n
      · simp only [h0, if_true, if_pos e1, if_neg (e2 _)]
        refine ⟨by simp [hs, Finset.sum_range_succ], by positivity, ?_, ?_, hcn, un, hlnn, ?_, ?_⟩
        · intro k hk
          cases hk
          exact ⟨by omega, h0, hz, rfl⟩
        · intro hk; cases hk
        · intro k hk hzk
          rcases ls k hk with hk | rfl
          · exact (hmp k hk hzk).trans e1.2.le
          · exact le_refl _
        · intro k hk hzk
          rcases ls k hk with hk | rfl
          · exact hmn k hk hzk
          · linarith
      · simp only [h0, if_true, if_neg e1, if_neg (e2 _)]
        refine ⟨by simp [hs, Finset.sum_range_succ], hcp, up, hlpn, hcn, un, hlnn, ?_, ?_⟩
        · intro k hk hzk
          rcases ls k hk with hk | rfl
          · exact hmp k hk hzk
          · exact not_lt.1 fun h => e1 ⟨hz, h⟩
        · intro k hk hzk
          rcases ls k hk with hk | rfl
          · exact hmn k hk hzk
          · linarith
  · simp only [if_neg h0]
    refine ⟨by simp [hs, Finset.sum_range_succ], hcp, up, hlpn, hcn, un, hlnn, ?_, ?_⟩
    · intro k hk hzk
      rcases ls k hk with hk | rfl
      · exact hmp k hk hzk
      · nlinarith
    · intro k hk hzk
      rcases ls k hk with hk | rfl
      · exact hmn k hk hzk
      · nlinarith

theorem acc_ok (mf : ℕ → ℝ) : AccOk M.z mf M.n (acc M mf) := by
  unfold acc
  have : ∀ n, AccOk M.z mf n
      ((List.range n).foldl (accStep M.z mf) ⟨none, 0, none, 0, 0⟩) := by
    intro n
    induction n with
    | zero =>
      simp only [List.range_zero, List.foldl_nil]
      exact ⟨by simp, le_refl _, fun _ h => (by cases h), fun _ => rfl, le_refl _,
        fun _ h => (by cases h), fun _ => rfl, fun k hk => absurd hk (by omega),
        fun k hk => absurd hk (by omega)⟩
    | succ n ih =>
      rw [List.range_succ, List.foldl_append]
      exact accStep_ok ih
  exact this M.n

theorem sum_update (n : ℕ) (f g : ℕ → ℝ) (k : ℕ) (hk : k < n) (v : ℝ) :
    ∑ j ∈ Finset.range n, Function.update f k v j * g j
      = ∑ j ∈ Finset.range n, f j * g j + (v - f k) * g k := by
  have : ∀ j, Function.update f k v j * g j = f j * g j + (if j = k then (v - f k) * g k else 0) := by
    intro j
    by_cases h : j = k
    · subst h; simp; ring
    · simp [h]
  simp only [this, Finset.sum_add_distrib, Finset.sum_ite_eq', Finset.mem_range, hk, if_true]

/-- Balancing the charges: the result is neutral, all mole numbers stay nonnegative, and at most
one of them changed: it became smaller and stays positive. -/
theorem neutralize_spec (mf mf' : ℕ → ℝ) (hmf : ∀ k, 0 ≤ mf k) (h : neutralize M mf = some mf') :
    ∑ k ∈ Finset.range M.n, mf' k * M.z k = 0 ∧ (∀ k, 0 ≤ mf' k) ∧
      ((∑ k ∈ Finset.range M.n, mf k * M.z k = 0 ∧ mf' = mf) ∨
        ∃ i, i < M.n ∧ M.z i ≠ 0 ∧ 0 < mf' i ∧ mf' i < mf i ∧ (∀ k, k ≠ i → mf' k = mf k) ∧
          0 < M.z i * ∑ k ∈ Finset.range M.n, mf k * M.z k ∧
          ∀ k, k < M.n → 0 < M.z k * M.z i → |M.z k| * mf k ≤ |M.z i| * mf i) := by
  obtain ⟨hs, hcp, hlp, hlpn, hcn, hln, hlnn, hmp, hmn⟩ := acc_ok M mf
  unfold neutralize at h
  simp only [] at h
  split_ifs at h with h1 h2 h3 h3
  · cases hk : (acc M mf).lp with
    | none => rw [hk] at h; cases h
    | some k =>
      rw [hk] at h
      simp only [Option.map_some, Option.some.injEq] at h
      subst h
      obtain ⟨hkn, hm, hz, hc⟩ := hlp k hk
      have hq : (acc M mf).sum / M.z k < mf k := by
        rw [div_lt_iff₀ hz]; linarith
      refine ⟨?_, ?_, Or.inr ⟨k, hkn, hz.ne', ?_, ?_, ?_, ?_, ?_⟩⟩
      · rw [sum_update _ _ _ _ hkn, ← hs]; field_simp; ring
      · intro j
        by_cases hj : j = k
        · subst hj; simp; linarith
        · rw [Function.update_of_ne hj]; exact hmf j
      · simp; linarith
      · simp; positivity
      · intro j hj; rw [Function.update_of_ne hj]
      · rw [← hs]; positivity
      · intro j hj hp
        have : 0 < M.z j := by
          by_contra hc; push Not at hc; nlinarith
        rw [abs_of_pos this, abs_of_pos hz, ← hc]
        exact hmp j hj this
  · cases hk : (acc M mf).ln with
    | none => rw [hk] at h; cases h
    | some k =>
      rw [hk] at h
      simp only [Option.map_some, Option.some.injEq] at h
      subst h
      obtain ⟨hkn, hm, hz, hc⟩ := hln k hk
      have hs0 : (acc M mf).sum < 0 := lt_of_le_of_ne (not_lt.1 h2) h1
      have ha : |M.z k| = -M.z k := abs_of_neg hz
      have hzp : 0 < -M.z k := by linarith
      have hq : -(acc M mf).sum / |M.z k| < mf k := by
        rw [ha, div_lt_iff₀ hzp]; linarith
      refine ⟨?_, ?_, Or.inr ⟨k, hkn, hz.ne, ?_, ?_, ?_, ?_, ?_⟩⟩
      · rw [sum_update _ _ _ _ hkn, ← hs, ha]
        have := hz.ne
        field_simp; ring
      · intro j
        by_cases hj : j = k
        · subst hj; simp; linarith
        · rw [Function.update_of_ne hj]; exact hmf j
      · simp; linarith
      · rw [ha]
        have : 0 < -(acc M mf).sum / -M.z k := div_pos (by linarith) hzp
        simp only [Function.update_self]
        linarith
      · intro j hj; rw [Function.update_of_ne hj]
      · rw [← hs]; nlinarith
      · intro j hj hp
        have : M.z j < 0 := by
          by_contra hc; push Not at hc; nlinarith
        rw [abs_of_neg this, ha, ← hc]
        exact hmn j hj this
  · push Not at h1
    cases h
    rw [hs] at h1
    exact ⟨h1, hmf, Or.inl ⟨h1, rfl⟩⟩

/-- It fails exactly when no single ion has enough charge to make up for the excess. -/
theorem neutralize_none (mf : ℕ → ℝ) :
    neutralize M mf = none ↔
      ∑ k ∈ Finset.range M.n, mf k * M.z k ≠ 0 ∧
      ∀ i, i < M.n → 0 < M.z i * ∑ k ∈ Finset.range M.n, mf k * M.z k →
        |M.z i| * mf i ≤ |∑ k ∈ Finset.range M.n, mf k * M.z k| := by
  obtain ⟨hs, hcp, hlp, hlpn, hcn, hln, hlnn, hmp, hmn⟩ := acc_ok M mf
  rw [← hs]
  unfold neutralize
  simp only []
  split_ifs with h1 h2 h3 h3
  · cases hk : (acc M mf).lp with
    | none => have := hlpn hk; linarith
    | some k =>
      obtain ⟨hkn, hm, hz, hc⟩ := hlp k hk
      simp only [Option.map_some, reduceCtorEq, false_iff]
      intro ⟨_, h⟩
      have := h k hkn (by positivity)
      rw [abs_of_pos hz, abs_of_pos h2] at this
      linarith
  · simp only [true_iff]
    refine ⟨h1, fun i hi hp => ?_⟩
    have hz : 0 < M.z i := by by_contra hc; push Not at hc; nlinarith
    rw [abs_of_pos hz, abs_of_pos h2]
    have := hmp i hi hz
    linarith
  · have hs0 : (acc M mf).sum < 0 := lt_of_le_of_ne (not_lt.1 h2) h1
    cases hk : (acc M mf).ln with
    | none => have := hlnn hk; linarith
    | some k =>
      obtain ⟨hkn, hm, hz, hc⟩ := hln k hk
      simp only [Option.map_some, reduceCtorEq, false_iff]
      intro ⟨_, h⟩
      have := h k hkn (by nlinarith)
      rw [abs_of_neg hz, abs_of_neg hs0] at this
      linarith
  · have hs0 : (acc M mf).sum < 0 := lt_of_le_of_ne (not_lt.1 h2) h1
    simp only [true_iff]
    refine ⟨h1, fun i hi hp => ?_⟩
    have hz : M.z i < 0 := by by_contra hc; push Not at hc; nlinarith
    rw [abs_of_neg hz, abs_of_neg hs0]
    have := hmn i hi hz
    linarith
  · push Not at h1
    simp [h1]

theorem byName_nonneg (hM : 0 < M.M0) (hx : 0 < M.xmin) (X mol : ℕ → ℝ) (hX : ∀ k, 0 ≤ X k)
    (k : ℕ) : 0 ≤ byName M X mol k := by
  unfold byName
  have : 0 < max (X 0) M.xmin := lt_max_of_lt_right hx
  split_ifs with h
  · positivity
  · exact hX k

/-- Molalities by name: the new mole fractions are nonnegative, sum to one and are neutral.  All
species except at most one ion have, relative to the solvent, the amount asked for, or the one they
had when none (or none that is positive) was asked for. -/
theorem setByName_spec (hn : 1 ≤ M.n) (hM : 0 < M.M0) (hx : 0 < M.xmin) (hz : M.z 0 = 0)
    (X mol Y : ℕ → ℝ) (hX : ∀ k, 0 ≤ X k) (hX0 : M.xmin ≤ X 0) (hm0 : mol 0 ≤ 0)
    (h : setByName M X mol = some Y) :
    (∀ k, 0 ≤ Y k) ∧ ∑ k ∈ Finset.range M.n, Y k = 1 ∧
      ∑ k ∈ Finset.range M.n, Y k * M.z k = 0 ∧
      ∃ i, ∀ k, k < M.n → k ≠ i ∨ M.z k = 0 →
        Y k / Y 0 = if 0 < mol k then mol k * M.M0 else X k / X 0 := by
  unfold setByName at h
  cases hb : neutralize M (byName M X mol) with
  | none => rw [hb] at h; cases h
  | some mf =>
    rw [hb] at h
    simp only [Option.map_some, Option.some.injEq] at h
    obtain ⟨h1, h2, h3⟩ := neutralize_spec M _ mf (byName_nonneg M hM hx X mol hX) hb
    have hX0p : 0 < X 0 := lt_of_lt_of_le hx hX0
    have hb0 : byName M X mol 0 = X 0 := by unfold byName; rw [if_neg (not_lt.2 hm0)]
    have hsame : ∃ i, ∀ k, k ≠ i ∨ M.z k = 0 → mf k = byName M X mol k := by
      rcases h3 with ⟨_, h3⟩ | ⟨i, hi, hzi, _, _, h3, _⟩
      · exact ⟨0, fun k _ => by rw [h3]⟩
      · refine ⟨i, fun k hk => h3 k ?_⟩
        rcases hk with hk | hk
        · exact hk
        · rintro rfl; exact hzi hk
    obtain ⟨i, hi⟩ := hsame
    have h0 : mf 0 = X 0 := by rw [hi 0 (Or.inr hz), hb0]
    have hS : 0 < ∑ k ∈ Finset.range M.n, mf k := by
      rw [range_eq M hn, h0]
      have : 0 ≤ ∑ k ∈ Finset.Ico 1 M.n, mf k := Finset.sum_nonneg fun k _ => h2 k
      linarith
    have hY : ∀ k, Y k = mf k / ∑ j ∈ Finset.range M.n, mf j := by
      intro k
      rw [← h]
      unfold normalize
      have hp : ∀ j, max (mf j * (1 / ∑ k ∈ Finset.range M.n, mf k)) 0
          = mf j / ∑ k ∈ Finset.range M.n, mf k := by
        intro j
        rw [mul_one_div, max_eq_left (div_nonneg (h2 j) hS.le)]
      simp only [hp]
      rw [← Finset.sum_div, div_self hS.ne', div_one]
    refine ⟨?_, ?_, ?_, i, ?_⟩
    · intro k; rw [hY]; exact div_nonneg (h2 k) hS.le
    · simp only [hY]; rw [← Finset.sum_div, div_self hS.ne']
    · have : ∀ k, Y k * M.z k = mf k * M.z k / ∑ j ∈ Finset.range M.n, mf j := by
        intro k; rw [hY]; ring
      simp only [this]
      rw [← Finset.sum_div, h1, zero_div]
    · intro k _ hk
      rw [hY, hY 0, h0, hi k hk, div_div_div_cancel_right₀ hS.ne']
      unfold byName
      rw [max_eq_left hX0]
      split_ifs with hp
      · field_simp
      · rfl

/-- In terms of molalities, when the solvent stays above its bound. -/
theorem setByName_molality (hn : 1 ≤ M.n) (hM : 0 < M.M0) (hx : 0 < M.xmin) (hz : M.z 0 = 0)
    (X mol Y : ℕ → ℝ) (hX : ∀ k, 0 ≤ X k) (hX0 : M.xmin ≤ X 0) (hm0 : mol 0 ≤ 0)
    (h : setByName M X mol = some Y) (hY0 : M.xmin ≤ Y 0) :
    ∃ i, ∀ k, k < M.n → 0 < mol k → k ≠ i ∨ M.z k = 0 → molality M Y k = mol k := by
  obtain ⟨_, _, _, i, hi⟩ := setByName_spec M hn hM hx hz X mol Y hX hX0 hm0 h
  refine ⟨i, fun k hk hp hki => ?_⟩
  have := hi k hk hki
  rw [if_pos hp] at this
  have hY : 0 < Y 0 := lt_of_lt_of_le hx hY0
  rw [molality_formula, max_eq_left hY0]
  rw [div_eq_iff hY.ne'] at this
  rw [this]
  field_simp

/-- The molality of an ion can come out different from the one asked for: with two moles of cations
and one mole of anions asked for, the cation gets one. -/
theorem setByName_changes :
    ∃ (M : Sol) (X mol Y : ℕ → ℝ), (∀ k, 0 ≤ X k) ∧ M.xmin ≤ X 0 ∧
      setByName M X mol = some Y ∧ mol 1 = 2 ∧ Y 1 = Y 0 ∧ M.M0 = 1 := by
  refine ⟨⟨3, 1, 1 / 2, fun k => if k = 1 then 1 else if k = 2 then -1 else 0⟩,
    fun k => if k = 0 then 1 else 0, fun k => if k = 1 then 2 else if k = 2 then 1 else 0,
    fun k => if k < 3 then 1 / 3 else 0, fun k => by dsimp only; split_ifs <;> norm_num, by norm_num, ?_, by norm_num,
    by norm_num, rfl⟩
  unfold setByName neutralize acc
  have hb : ∀ k, byName ⟨3, 1, 1 / 2, fun k => if k = 1 then 1 else if k = 2 then -1 else 0⟩
      (fun k => if k = 0 then 1 else 0) (fun k => if k = 1 then 2 else if k = 2 then 1 else 0) k
      = if k = 0 then 1 else if k = 1 then 2 else if k = 2 then 1 else 0 := by
    intro k
    unfold byName
    by_cases h1 : k = 1
    · subst h1; norm_num
    · by_cases h2 : k = 2
      · subst h2; norm_num
      · by_cases h0 : k = 0
        · subst h0; norm_num
        · norm_num [h0, h1, h2]
  rw [funext hb]
  norm_num [List.range_succ, accStep, Finset.sum_range_succ]
  funext k
  unfold normalize
  match k with
  | 0 => norm_num [Finset.sum_range_succ, Function.update]
  | 1 => norm_num [Finset.sum_range_succ, Function.update]
  | 2 => norm_num [Finset.sum_range_succ, Function.update]
  | k + 3 =>
    have : (Function.update (fun x : ℕ => if x = 0 then (1 : ℝ) else if x = 1 then 2 else
        if x = 2 then 1 else 0) 1 1) (k + 3) = 0 := by
      rw [Function.update_of_ne (by omega), if_neg (by omega), if_neg (by omega),
        if_neg (by omega)]
    simp only [this]
    simp

/-- A molality of zero cannot be asked for: the species keeps the amount it had. -/
theorem byName_zero (X mol : ℕ → ℝ) (k : ℕ) (h : mol k = 0) : byName M X mol k = X k := by
  unfold byName; rw [h, if_neg (lt_irrefl _)]

example : ∃ (M : Sol) (X mol Y : ℕ → ℝ), 1 ≤ M.n ∧ 0 < M.M0 ∧ 0 < M.xmin ∧ M.z 0 = 0 ∧
    (∀ k, 0 ≤ X k) ∧ M.xmin ≤ X 0 ∧ mol 0 ≤ 0 ∧ setByName M X mol = some Y := by
  refine ⟨⟨1, 1, 1, fun _ => 0⟩, fun _ => 1, fun _ => 0, ?_⟩
  have : neutralize ⟨1, 1, 1, fun _ => 0⟩ (byName ⟨1, 1, 1, fun _ => 0⟩ (fun _ => 1) fun _ => 0)
      ≠ none := by
    rw [Ne, neutralize_none]
    simp
  obtain ⟨mf, hmf⟩ := Option.ne_none_iff_exists'.1 this
  refine ⟨normalize ⟨1, 1, 1, fun _ => 0⟩ (fun k => mf k * (1 / ∑ k ∈ Finset.range 1, mf k)), by norm_num, by norm_num, by norm_num, rfl,
    fun _ => by norm_num, by norm_num, by norm_num, ?_⟩
  unfold setByName
  rw [hmf]
  rfl

/-! ## Activities -/

/-- Activity coefficients and activities: on the scale of molalities for the solutes and of mole
fractions for the solvent. -/
theorem activity_coeff (C : Cut) (X : ℕ → ℝ) (h0 : M.xmin ≤ X 0) (hX : 0 < X 0) (k : ℕ) :
    activity M C X k = molActCoeff M C X k * (if k = 0 then X 0 else molality M X k) := by
  unfold activity molActCoeff
  rw [max_eq_right h0]
  split_ifs with h1 h2 h2
  · field_simp
  · ring
  · ring
  · ring

/-- Without a cutoff the activities of the solutes are their molalities, and that of the solvent
the exponential of `1 - 1/x`. -/
theorem activity_ideal (C : Cut) (hC : C.type = 0) (X : ℕ → ℝ) (h0 : M.xmin ≤ X 0) (hX : 0 < X 0)
    (k : ℕ) : activity M C X k = if k = 0 then Real.exp (1 - 1 / X 0) else X k / (M.M0 * X 0) := by
  unfold activity
  rw [if_pos hC, max_eq_right h0, molality_formula, max_eq_left h0]
  congr 2
  field_simp

/-- The same holds with a cutoff above one and a half times its mole fraction. -/
theorem activity_above (C : Cut) (X : ℕ → ℝ) (h0 : M.xmin ≤ X 0) (hX : 0 < X 0)
    (hc : 3 * C.Xo / 2 < X 0) (k : ℕ) :
    activity M C X k = if k = 0 then Real.exp (1 - 1 / X 0) else X k / (M.M0 * X 0) := by
  by_cases hC : C.type = 0
  · exact activity_ideal M C hC X h0 hX k
  have hXo : C.Xo < X 0 := by linarith
  have e : Real.exp (idealO (X 0)) * X 0 = Real.exp (1 - 1 / X 0) := by
    unfold idealO
    rw [Real.exp_add, Real.exp_neg, Real.exp_log hX]
    have : (X 0 - 1) / X 0 = 1 - 1 / X 0 := by field_simp
    rw [this]
    field_simp
  have hO : lnActO C M.xmin (X 0) = idealO (X 0) := by
    unfold lnActO
    rw [if_pos hc, if_pos hXo, max_eq_right h0]
    split_ifs <;> rfl
  have hK : lnActK C M.xmin (X 0) = 0 := by
    unfold lnActK
    rw [if_pos hc, if_pos hXo]
    split_ifs <;> rfl
  unfold activity
  rw [if_neg hC, hO, hK, e, molality_formula, max_eq_left h0, Real.exp_zero, mul_one]

/-- Chemical potentials, standard ones and activities: for all cutoffs. -/
theorem chemPot_activity (C : Cut) (mu0 : ℕ → ℝ) (RT : ℝ) (X : ℕ → ℝ)
    (h0 : M.xmin ≤ X 0) (hs : small ≤ X 0) (k : ℕ) (hk : k ≠ 0 → small ≤ molality M X k) :
    chemPot M C mu0 RT X k = mu0 k + RT * Real.log (activity M C X k) := by
  have hX : 0 < X 0 := lt_of_lt_of_le small_pos hs
  have e1 : 1 - 1 / X 0 = (X 0 - 1) / X 0 := by field_simp
  unfold chemPot
  rw [max_eq_left hs]
  split_ifs with h1 h2 h2
  · subst h2
    have : activity M C X 0 = Real.exp (1 - 1 / X 0) := by
      rcases h1 with h1 | h1
      · rw [activity_ideal M C h1 X h0 hX, if_pos rfl]
      · rw [activity_above M C X h0 hX h1, if_pos rfl]
    rw [this, Real.log_exp, e1, mul_div_assoc]
  · have : activity M C X k = molality M X k := by
      rw [molality_formula, max_eq_left h0]
      rcases h1 with h1 | h1
      · rw [activity_ideal M C h1 X h0 hX, if_neg h2]
      · rw [activity_above M C X h0 hX h1, if_neg h2]
    rw [this, max_eq_left (hk h2)]
  · push Not at h1
    subst h2
    unfold activity
    rw [if_neg h1.1, if_pos rfl, Real.log_mul (Real.exp_pos _).ne' hX.ne', Real.log_exp]
    ring
  · push Not at h1
    have hm : 0 < molality M X k := lt_of_lt_of_le small_pos (hk h2)
    unfold activity
    rw [if_neg h1.1, if_neg h2, Real.log_mul hm.ne' (Real.exp_pos _).ne', Real.log_exp,
      max_eq_left (hk h2)]

/-- In terms of the logarithms of the activity coefficients. -/
theorem chemPot_coeff (C : Cut) (mu0 : ℕ → ℝ) (RT : ℝ) (X : ℕ → ℝ)
    (h0 : M.xmin ≤ X 0) (hs : small ≤ X 0) (k : ℕ) (hk : k ≠ 0 → small ≤ molality M X k) :
    chemPot M C mu0 RT X k = mu0 k + RT * (if k = 0 then
      Real.log (X 0) + lnActO C M.xmin (X 0)
      else Real.log (molality M X k) + lnActK C M.xmin (X 0)) := by
  have hX : 0 < X 0 := lt_of_lt_of_le small_pos hs
  rw [chemPot_activity M C mu0 RT X h0 hs k hk]
  unfold activity
  split_ifs with h1 h2 h2
  · have : lnActO C M.xmin (X 0) = idealO (X 0) := by
      unfold lnActO; rw [h1, max_eq_right h0]; simp
    rw [this, Real.log_exp, max_eq_right h0]
    unfold idealO
    ring
  · have : lnActK C M.xmin (X 0) = 0 := by
      unfold lnActK; rw [h1]; simp
    rw [this, add_zero]
  · rw [Real.log_mul (Real.exp_pos _).ne' hX.ne', Real.log_exp]
    ring
  · have hm : 0 < molality M X k := lt_of_lt_of_le small_pos (hk h2)
    rw [Real.log_mul hm.ne' (Real.exp_pos _).ne', Real.log_exp]

/-- Partial molar entropies are wrong: chemical potential, enthalpy and entropy differ by the
dimensionless entropy of the standard state that was not multiplied with the gas constant. -/
theorem entropy_defect (C : Cut) (hRT sR : ℕ → ℝ) (R T : ℝ) (X : ℕ → ℝ)
    (h0 : M.xmin ≤ X 0) (hs : small ≤ X 0) (k : ℕ) (hk : k ≠ 0 → small ≤ molality M X k) :
    chemPot M C (fun k => R * T * (hRT k - sR k)) (R * T) X k
      - (pmEnthalpy hRT (R * T) k - T * pmEntropy M C sR R X k) = (1 - R) * T * sR k := by
  have hX : 0 < X 0 := lt_of_lt_of_le small_pos hs
  rw [chemPot_coeff M C _ _ X h0 hs k hk]
  unfold pmEnthalpy pmEntropy
  rw [max_eq_right hs]
  split_ifs with h1 h2 h2
  · have : lnActO C M.xmin (X 0) = idealO (X 0) := by
      unfold lnActO; rw [h2, max_eq_right h0]; simp
    rw [this]
    unfold idealO
    ring
  · ring
  · have : lnActK C M.xmin (X 0) = 0 := by
      unfold lnActK; rw [h2]; simp
    rw [this, max_eq_right (hk h1)]
    ring
  · rw [max_eq_right (hk h1)]
    ring

/-- So the Gibbs energies of the species are not `h - T s`. -/
theorem entropy_wrong : ∃ (M : Sol) (C : Cut) (hRT sR : ℕ → ℝ) (R T : ℝ) (X : ℕ → ℝ),
    M.xmin ≤ X 0 ∧ small ≤ X 0 ∧ 0 < T ∧
    chemPot M C (fun k => R * T * (hRT k - sR k)) (R * T) X 0
      ≠ pmEnthalpy hRT (R * T) 0 - T * pmEntropy M C sR R X 0 := by
  have hs : small ≤ 1 := by
    unfold small
    rw [div_le_one (by positivity)]
    exact one_le_pow₀ (by norm_num)
  refine ⟨⟨1, 1, 1 / 2, fun _ => 0⟩, ⟨0, 1, 1, 1, 1, 1, 1, 1, 1, 1, 1, 1, 1, 1, 1⟩, fun _ => 0,
    fun _ => 1, 8314, 1, fun _ => 1, by norm_num, hs, by norm_num, ?_⟩
  intro h
  have := entropy_defect ⟨1, 1, 1 / 2, fun _ => 0⟩
    ⟨0, 1, 1, 1, 1, 1, 1, 1, 1, 1, 1, 1, 1, 1, 1⟩ (fun _ => 0) (fun _ => 1) 8314 1
    (fun _ => 1) (by norm_num) hs 0 (fun h => absurd rfl h)
  rw [h] at this
  norm_num at this

/-- The osmotic coefficient of the ideal molal solution is one. -/
theorem osmotic_ideal (hn : 1 ≤ M.n) (hM : 0 < M.M0) (C : Cut) (X : ℕ → ℝ)
    (hC : C.type = 0 ∨ 3 * C.Xo / 2 < X 0) (hnn : ∀ k, 0 ≤ X k)
    (h1 : ∑ k ∈ Finset.range M.n, X k = 1) (h0 : M.xmin ≤ X 0) (hX : 0 < X 0) :
    osmotic M X (activity M C X 0) = 1 := by
  have ha : activity M C X 0 = Real.exp (1 - 1 / X 0) := by
    rcases hC with hC | hC
    · rw [activity_ideal M C hC X h0 hX, if_pos rfl]
    · rw [activity_above M C X h0 hX hC, if_pos rfl]
  have hs : ∑ k ∈ Finset.Ico 1 M.n, max (molality M X k) 0 = (1 - X 0) / (M.M0 * X 0) := by
    have : ∀ k, max (molality M X k) 0 = X k / (M.M0 * X 0) := by
      intro k
      rw [molality_formula, max_eq_left h0]
      exact max_eq_left (div_nonneg (hnn k) (by positivity))
    simp only [this]
    rw [← Finset.sum_div]
    rw [range_eq M hn] at h1
    rw [← h1]
    ring
  unfold osmotic
  simp only []
  rw [hs, ha, Real.log_exp]
  split_ifs with h
  · have : 1 - X 0 ≠ 0 := by
      intro h2
      rw [h2, zero_div] at h
      exact absurd h (not_lt.2 (by positivity))
    have h3 : -(1 - 1 / X 0) = (1 - X 0) / X 0 := by field_simp; ring
    rw [h3]
    field_simp
  · rfl

/-- The general formula, which defines the osmotic coefficient. -/
theorem osmotic_formula (X : ℕ → ℝ) (a0 : ℝ)
    (h : 1 / 10 ^ 200 < ∑ k ∈ Finset.Ico 1 M.n, max (molality M X k) 0) (ha : 0 < a0) :
    a0 = Real.exp (-(M.M0 * osmotic M X a0 * ∑ k ∈ Finset.Ico 1 M.n, max (molality M X k) 0)) ∨
      M.M0 = 0 := by
  by_cases hM : M.M0 = 0
  · exact Or.inr hM
  left
  have hs : (0 : ℝ) < ∑ k ∈ Finset.Ico 1 M.n, max (molality M X k) 0 :=
    lt_trans (by positivity) h
  unfold osmotic
  simp only []
  rw [if_pos h]
  generalize ∑ k ∈ Finset.Ico 1 M.n, max (molality M X k) 0 = S at hs ⊢
  have : -(M.M0 * (-Real.log a0 / (M.M0 * S)) * S) = Real.log a0 := by field_simp
  rw [this, Real.exp_log ha]

example : ∃ (M : Sol) (C : Cut) (X : ℕ → ℝ), 1 ≤ M.n ∧ 0 < M.M0 ∧ C.type = 0 ∧ (∀ k, 0 ≤ X k) ∧
    ∑ k ∈ Finset.range M.n, X k = 1 ∧ M.xmin ≤ X 0 ∧ 0 < X 0 :=
  ⟨⟨2, 1, 1 / 2, fun _ => 0⟩, ⟨0, 1, 1, 1, 1, 1, 1, 1, 1, 1, 1, 1, 1, 1, 1⟩, fun _ => 1 / 2,
    by norm_num, by norm_num, rfl, fun _ => by norm_num, by norm_num [Finset.sum_range_succ],
    by norm_num, by norm_num⟩

end Verif.Molal
