import Verif.Thermo.LatticeSolid
import Mathlib.Algebra.Order.BigOperators.Ring.Finset
import Mathlib.Algebra.BigOperators.Field
import Mathlib.Tactic.FieldSimp
import Mathlib.Tactic.Linarith
import Mathlib.Tactic.Ring
import Mathlib.Tactic.NormNum
import Mathlib.Tactic.Positivity

/-!
# Properties of LatticeSolidPhase
-/

namespace Verif.LatticeSolid

variable {M : Mech}

theorem lkstart_succ (n : ℕ) : lkstart M (n + 1) = lkstart M n + M.nsp n := by
  unfold lkstart; rw [Finset.sum_range_succ]

theorem lkstart_mono {i j : ℕ} (h : i ≤ j) : lkstart M i ≤ lkstart M j := by
  induction h with
  | refl => exact le_rfl
  | step _ ih => rw [lkstart_succ]; omega

/-! ## Finding a species -/

/-- Refuted: the test finds no species.  Every answer of the search is the index `k` in lattice 0,
where it is out of range; species of lattice 0, and the first of lattice 1, are not found. -/
theorem lookup_wrong (k : ℕ) :
    (lookup M k = none ∧ (M.N = 0 ∨ k ≤ M.nsp 0)) ∨ (lookup M k = some (0, k) ∧ M.nsp 0 < k) := by
  have h1 : lkstart M 1 = M.nsp 0 := by simp [lkstart]
  rcases Nat.eq_zero_or_pos M.N with h0 | h0
  · left; simp [lookup, h0]
  obtain ⟨m, hm⟩ : ∃ m, M.N = m + 1 := ⟨M.N - 1, by omega⟩
  by_cases hk : M.nsp 0 < k
  · right
    refine ⟨?_, hk⟩
    unfold lookup
    rw [hm, List.range_succ_eq_map, List.find?_cons_of_pos (by simpa [h1] using hk)]
    simp [lkstart]
  · left
    refine ⟨?_, Or.inr (by omega)⟩
    unfold lookup
    rw [Option.map_eq_none_iff, List.find?_eq_none]
    intro n _
    have : lkstart M 1 ≤ lkstart M (n + 1) := lkstart_mono (by omega)
    simp only [decide_eq_true_eq]
    omega

/-- The limit reported for a species is that of the whole phase or of lattice 0, never that of the
species. -/
theorem minTemp_eq (tmin : ℕ → ℕ → ℝ) (tlow : ℕ → ℝ) (k : ℕ) (hN : 0 < M.N) :
    minTemp M tmin tlow k =
      if M.nsp 0 < k then tlow 0 else ((List.range M.N).map tlow).foldl max 0 := by
  rcases lookup_wrong (M := M) k with ⟨h, h2⟩ | ⟨h, h2⟩
  · have : ¬ M.nsp 0 < k := by omega
    simp only [minTemp, h, this, if_false]
  · have : ¬ k < M.nsp 0 := by omega
    simp only [minTemp, h, h2, this, if_true, if_false]

/-- Two lattices of one species each: species 1 is valid from 500 K, but the limit reported is the
largest; species 0 is valid from 200 K, reported 500 K. -/
theorem minTemp_witness : ∃ (M : Mech) (tmin : ℕ → ℕ → ℝ) (tlow : ℕ → ℝ),
    M.N = 2 ∧ (∀ n, tlow n = tmin n 0) ∧ tmin 0 0 = 200 ∧ minTemp M tmin tlow 0 = 500 := by
  refine ⟨⟨2, fun _ => 1, fun _ => 1⟩, fun n _ => if n = 0 then 200 else 500,
    fun n => if n = 0 then 200 else 500, rfl, fun n => rfl, by simp, ?_⟩
  rw [minTemp_eq _ _ _ (by norm_num)]
  norm_num [List.range_succ, List.foldl]

/-- Refuted: `modifyOneHf298SS` never changes a heat of formation. -/
theorem modifyHf_nothing (k : ℕ) (H : ℝ) (hf : ℕ → ℕ → ℝ) : modifyHf M k H hf = hf := by
  unfold modifyHf
  generalize List.range M.N = l
  induction l generalizing hf with
  | nil => rfl
  | cons n l ih =>
    rw [List.foldl_cons]
    have : (if lkstart M (n + 1) < k then
        let kk := k - lkstart M n
        if kk < M.nsp n then Function.update hf n (Function.update (hf n) kk H) else hf
      else hf) = hf := by
      split_ifs with h1
      · have := lkstart_succ (M := M) n
        have h2 : ¬ (k - lkstart M n < M.nsp n) := by omega
        simp only [h2, if_false]
      · rfl
    rw [this]; exact ih hf

/-- The species wanted exists: every index of the phase is one of one lattice. -/
theorem species_exists (k : ℕ) (hk : k < lkstart M M.N) :
    ∃ n < M.N, ∃ j < M.nsp n, k = lkstart M n + j := by
  have : ∀ m, k < lkstart M m → ∃ n < m, ∃ j < M.nsp n, k = lkstart M n + j := by
    intro m
    induction m with
    | zero => intro h; simp [lkstart] at h
    | succ m ih =>
      intro h
      by_cases h1 : k < lkstart M m
      · obtain ⟨n, hn, r⟩ := ih h1; exact ⟨n, by omega, r⟩
      · rw [lkstart_succ] at h
        exact ⟨m, by omega, k - lkstart M m, by omega, by omega⟩
  exact this M.N hk

/-! ## Composition -/

/-- The fractions given: not negative, with a positive sum in each lattice. -/
structure Proper (M : Mech) (x : ℕ → ℕ → ℝ) : Prop where
  N : 0 < M.N
  pos : ∀ n < M.N, ∀ k < M.nsp n, 0 ≤ x n k
  sum : ∀ n < M.N, 0 < ∑ k ∈ Finset.range (M.nsp n), x n k

variable {x : ℕ → ℕ → ℝ}

theorem latSum_clip (h : Proper M x) (n : ℕ) (hn : n < M.N) :
    latSum M (clip x) n = ∑ k ∈ Finset.range (M.nsp n), x n k :=
  Finset.sum_congr rfl (fun k hk => max_eq_left (h.pos n hn k (Finset.mem_range.1 hk)))

theorem total_pos (h : Proper M x) :
    0 < ∑ n ∈ Finset.range M.N, ∑ k ∈ Finset.range (M.nsp n), x n k :=
  Finset.sum_pos (fun n hn => h.sum n (Finset.mem_range.1 hn)) ⟨0, Finset.mem_range.2 h.N⟩

theorem clip_div (h : Proper M x) (n k : ℕ) (hn : n < M.N) (hk : k < M.nsp n) :
    clip (fun n k => x n k / M.N) n k = x n k / M.N :=
  max_eq_left (div_nonneg (h.pos n hn k hk) (Nat.cast_nonneg _))

theorem total_clip_div (h : Proper M x) : total M (clip (fun n k => x n k / M.N)) =
    (∑ n ∈ Finset.range M.N, ∑ k ∈ Finset.range (M.nsp n), x n k) / M.N := by
  unfold total
  rw [Finset.sum_div]
  refine Finset.sum_congr rfl (fun n hn => ?_)
  rw [Finset.sum_div]
  exact Finset.sum_congr rfl (fun k hk =>
    clip_div h n k (Finset.mem_range.1 hn) (Finset.mem_range.1 hk))

/-- After `setMoleFractions`: each lattice has its share normalized, the phase the whole. -/
theorem setX_spec (h : Proper M x) (n k : ℕ) (hn : n < M.N) (hk : k < M.nsp n) :
    (setX M x).lat n k = x n k / (∑ j ∈ Finset.range (M.nsp n), x n j) ∧
    (setX M x).ph n k =
      x n k / (∑ i ∈ Finset.range M.N, ∑ j ∈ Finset.range (M.nsp i), x i j) := by
  have hN : (0 : ℝ) < M.N := Nat.cast_pos.2 h.N
  have ht := total_pos h
  constructor
  · show clip x n k / latSum M (clip x) n = _
    rw [latSum_clip h n hn]
    show max (x n k) 0 / _ = _
    rw [max_eq_left (h.pos n hn k hk)]
  · show clip (fun n k => x n k / M.N) n k / total M (clip (fun n k => x n k / M.N)) = _
    rw [total_clip_div h, clip_div h n k hn hk]
    field_simp

/-- The fractions of each lattice, and of the phase, sum to one. -/
theorem setX_sum (h : Proper M x) :
    (∀ n < M.N, ∑ k ∈ Finset.range (M.nsp n), (setX M x).lat n k = 1) ∧
    ∑ n ∈ Finset.range M.N, ∑ k ∈ Finset.range (M.nsp n), (setX M x).ph n k = 1 := by
  constructor
  · intro n hn
    rw [Finset.sum_congr rfl (fun k hk => (setX_spec h n k hn (Finset.mem_range.1 hk)).1),
      ← Finset.sum_div]
    exact div_self (h.sum n hn).ne'
  · rw [Finset.sum_congr rfl (fun n hn => Finset.sum_congr rfl (fun k hk =>
      (setX_spec h n k (Finset.mem_range.1 hn) (Finset.mem_range.1 hk)).2))]
    simp only [← Finset.sum_div]
    exact div_self (total_pos h).ne'

/-- The normalized fractions read from the phase are those of the lattices. -/
theorem ph_lat (h : Proper M x) (n k : ℕ) (hn : n < M.N) (hk : k < M.nsp n) :
    (setX M x).ph n k / latSum M (setX M x).ph n = (setX M x).lat n k := by
  have ht := total_pos h
  have hs := h.sum n hn
  have e : latSum M (setX M x).ph n = (∑ j ∈ Finset.range (M.nsp n), x n j) /
      (∑ i ∈ Finset.range M.N, ∑ j ∈ Finset.range (M.nsp i), x i j) := by
    unfold latSum
    rw [Finset.sum_congr rfl (fun k hk => (setX_spec h n k hn (Finset.mem_range.1 hk)).2),
      ← Finset.sum_div]
  obtain ⟨e1, e2⟩ := setX_spec h n k hn hk
  rw [e, e1, e2]
  field_simp

/-- `getMoleFractions` after `setMoleFractions` succeeds and gives the fractions in each lattice. -/
theorem get_set (h : Proper M x) : ∃ y, getX M (setX M x) = some y ∧
    ∀ n < M.N, ∀ k < M.nsp n, y n k = x n k / (∑ j ∈ Finset.range (M.nsp n), x n j) := by
  refine ⟨fun n k => (setX M x).ph n k / latSum M (setX M x).ph n, ?_, ?_⟩
  · unfold getX
    simp only
    rw [if_pos]
    intro n hn k hk
    rw [ph_lat h n k hn hk, sub_self, abs_zero]
    norm_num
  · intro n hn k hk
    show _ / _ = _
    rw [ph_lat h n k hn hk]
    exact (setX_spec h n k hn hk).1

/-- `_updateThermo` changes nothing, as long as the fractions of the lattices are normalized,
whatever the fractions of the phase. -/
theorem updateThermo_id (s : St) (hpos : ∀ n < M.N, ∀ k < M.nsp n, 0 ≤ s.lat n k)
    (hsum : ∀ n < M.N, ∑ k ∈ Finset.range (M.nsp n), s.lat n k = 1) :
    (updateThermo M s).ph = s.ph ∧
    ∀ n < M.N, ∀ k < M.nsp n, (updateThermo M s).lat n k = s.lat n k := by
  refine ⟨rfl, fun n hn k hk => ?_⟩
  unfold updateThermo
  simp only
  have e : ∀ j < M.nsp n, clip (fun n k => if n < M.N ∧ k < M.nsp n then s.lat n k else
      s.ph n k / latSum M s.ph n) n j = s.lat n j := by
    intro j hj
    show max (if n < M.N ∧ j < M.nsp n then s.lat n j else _) 0 = _
    rw [if_pos ⟨hn, hj⟩]
    exact max_eq_left (hpos n hn j hj)
  have e2 : latSum M (clip (fun n k => if n < M.N ∧ k < M.nsp n then s.lat n k else
      s.ph n k / latSum M s.ph n)) n = 1 := by
    exact (Finset.sum_congr rfl (fun j hj => e j (Finset.mem_range.1 hj))).trans (hsum n hn)
  rw [e k hk, e2, div_one]

/-- Refuted: restoring a saved composition.  The lattices, from which all properties are computed,
keep the composition set last; `getMoleFractions` throws when the two differ by more than `1e-14`
in some species. -/
theorem restore_stale (x' : ℕ → ℕ → ℝ) (h : Proper M x) (h' : Proper M x') :
    (∀ n < M.N, ∀ k < M.nsp n,
      (updateThermo M (restore (setX M x') (setX M x).ph)).lat n k = (setX M x').lat n k) ∧
    ((∃ n < M.N, ∃ k < M.nsp n, 1 / 10 ^ 14 < |x n k / (∑ j ∈ Finset.range (M.nsp n), x n j) -
        x' n k / (∑ j ∈ Finset.range (M.nsp n), x' n j)|) →
      getX M (restore (setX M x') (setX M x).ph) = none) := by
  constructor
  · refine (updateThermo_id _ (fun n hn k hk => ?_) (fun n hn => ?_)).2
    · show 0 ≤ (setX M x').lat n k
      rw [(setX_spec h' n k hn hk).1]
      exact div_nonneg (h'.pos n hn k hk) (h'.sum n hn).le
    · exact (setX_sum h').1 n hn
  · rintro ⟨n, hn, k, hk, hlt⟩
    unfold getX
    simp only
    rw [if_neg]
    intro hall
    refine hall n hn k hk ?_
    show |(setX M x).ph n k / latSum M (setX M x).ph n - (setX M x').lat n k| > _
    rw [ph_lat h n k hn hk, (setX_spec h n k hn hk).1, (setX_spec h' n k hn hk).1]
    exact hlt

/-! ## Molar properties -/

/-- Molar property from partial molar ones: the sum over the lattices, weighted with the
stoichiometry. -/
theorem molar_partial (q : ℕ → ℕ → ℝ) (lat : ℕ → ℕ → ℝ) :
    molar M (fun n => ∑ k ∈ Finset.range (M.nsp n), lat n k * q n k) =
      ∑ n ∈ Finset.range M.N, ∑ k ∈ Finset.range (M.nsp n), M.θ n * lat n k * q n k := by
  unfold molar
  refine Finset.sum_congr rfl (fun n _ => ?_)
  rw [Finset.mul_sum]
  exact Finset.sum_congr rfl (fun k _ => by ring)

/-- `g = h - T s` for the phase, when it holds for the lattices. -/
theorem molar_gibbs (g h s : ℕ → ℝ) (T : ℝ) (hg : ∀ n < M.N, g n = h n - T * s n) :
    molar M g = molar M h - T * molar M s := by
  unfold molar
  rw [Finset.mul_sum, ← Finset.sum_sub_distrib]
  exact Finset.sum_congr rfl (fun n hn => by rw [hg n (Finset.mem_range.1 hn)]; ring)

/-- The mean over the mole fractions of the phase weights every lattice alike when the fractions
given sum to one in each lattice. -/
theorem meanX_eq (h : Proper M x) (h1 : ∀ n < M.N, ∑ k ∈ Finset.range (M.nsp n), x n k = 1)
    (q : ℕ → ℕ → ℝ) : meanX M (setX M x) q =
      (∑ n ∈ Finset.range M.N, ∑ k ∈ Finset.range (M.nsp n), x n k * q n k) / M.N := by
  have ht : ∑ i ∈ Finset.range M.N, ∑ j ∈ Finset.range (M.nsp i), x i j = M.N := by
    rw [Finset.sum_congr rfl (fun n hn => h1 n (Finset.mem_range.1 hn))]; simp
  unfold meanX total
  rw [Finset.sum_div]
  refine Finset.sum_congr rfl (fun n hn => ?_)
  rw [Finset.sum_div]
  refine Finset.sum_congr rfl (fun k hk => ?_)
  show (setX M x).ph n k * q n k = _
  rw [(setX_spec h n k (Finset.mem_range.1 hn) (Finset.mem_range.1 hk)).2, ht]
  ring

/-- The molar value and the mean of the partial molar ones agree when each stoichiometric
coefficient is one over the number of lattices. -/
theorem molar_meanX_partial (h : Proper M x)
    (h1 : ∀ n < M.N, ∑ k ∈ Finset.range (M.nsp n), x n k = 1) (q : ℕ → ℕ → ℝ)
    (hθ : ∀ n < M.N, M.θ n = 1 / M.N) :
    molar M (fun n => ∑ k ∈ Finset.range (M.nsp n), (setX M x).lat n k * q n k) =
      meanX M (setX M x) q := by
  rw [meanX_eq h h1, molar_partial, Finset.sum_div]
  refine Finset.sum_congr rfl (fun n hn => ?_)
  rw [Finset.sum_div]
  refine Finset.sum_congr rfl (fun k hk => ?_)
  have hn' := Finset.mem_range.1 hn
  rw [(setX_spec h n k hn' (Finset.mem_range.1 hk)).1, h1 n hn', hθ n hn']
  ring

/-- Refuted: otherwise they do not, for some partial molar property. -/
theorem molar_meanX_refuted (h : Proper M x)
    (h1 : ∀ n < M.N, ∑ k ∈ Finset.range (M.nsp n), x n k = 1) (n : ℕ) (hn : n < M.N)
    (hθ : M.θ n ≠ 1 / M.N) : ∃ q : ℕ → ℕ → ℝ,
    molar M (fun n => ∑ k ∈ Finset.range (M.nsp n), (setX M x).lat n k * q n k) ≠
      meanX M (setX M x) q := by
  refine ⟨fun i _ => if i = n then 1 else 0, ?_⟩
  rw [meanX_eq h h1]
  have e1 : ∀ i ∈ Finset.range M.N, ∑ k ∈ Finset.range (M.nsp i), x i k * (if i = n then 1 else 0) =
      if i = n then (1 : ℝ) else 0 := by
    intro i hi
    rw [← Finset.sum_mul, h1 i (Finset.mem_range.1 hi), one_mul]
  have e2 : ∀ i ∈ Finset.range M.N, M.θ i * ∑ k ∈ Finset.range (M.nsp i),
      (setX M x).lat i k * (if i = n then 1 else 0) = if i = n then M.θ n else 0 := by
    intro i hi
    rw [← Finset.sum_mul, (setX_sum h).1 i (Finset.mem_range.1 hi), one_mul]
    split_ifs with hin
    · rw [hin, mul_one]
    · rw [mul_zero]
  unfold molar
  rw [Finset.sum_congr rfl e1, Finset.sum_congr rfl e2, Finset.sum_ite_eq' (Finset.range M.N) n,
    Finset.sum_ite_eq' (Finset.range M.N) n, if_pos (Finset.mem_range.2 hn),
    if_pos (Finset.mem_range.2 hn)]
  exact hθ

/-- The density is the weighted sum of the densities of the lattices. -/
theorem density_eq (ρ : ℕ → ℝ) : density M ρ = ∑ n ∈ Finset.range M.N, M.θ n * ρ n := rfl

/-! ## The constraint of the stoichiometry -/

/-- The constraint for lattice `i`: `theta_i` times the moles in it less `theta_0` times the moles
in lattice 0. -/
theorem constraint_eq (i : ℕ) (hi : i ≠ 0) (hN : i < M.N) (m : ℕ → ℕ → ℝ) :
    constraint M i m = M.θ i * (∑ k ∈ Finset.range (M.nsp i), m i k) -
      M.θ 0 * (∑ k ∈ Finset.range (M.nsp 0), m 0 k) := by
  unfold constraint total
  have e : ∀ n ∈ Finset.range M.N, ∑ k ∈ Finset.range (M.nsp n), constraintEntry M i n * m n k =
      (if n = 0 then -M.θ 0 * ∑ k ∈ Finset.range (M.nsp 0), m 0 k else 0) +
      (if n = i then M.θ i * ∑ k ∈ Finset.range (M.nsp i), m i k else 0) := by
    intro n _
    rw [← Finset.mul_sum]
    unfold constraintEntry
    by_cases h0 : n = 0
    · have : ¬ (n = i) := by omega
      rw [if_pos h0, if_pos h0, if_neg this, h0, add_zero]
    · rw [if_neg h0, if_neg h0]
      by_cases h1 : n = i
      · rw [if_pos h1, if_pos h1, h1, zero_add]
      · rw [if_neg h1, if_neg h1]; ring
  rw [Finset.sum_congr rfl e, Finset.sum_add_distrib, Finset.sum_ite_eq' (Finset.range M.N) 0,
    Finset.sum_ite_eq' (Finset.range M.N) i, if_pos (Finset.mem_range.2 (by omega)),
    if_pos (Finset.mem_range.2 hN)]
  ring

/-- Refuted: for moles in the ratio of the stoichiometry (`f` formula units) the constraint is
zero only if the two coefficients are equal. -/
theorem constraint_refuted (i : ℕ) (hi : i ≠ 0) (hN : i < M.N) (m : ℕ → ℕ → ℝ) (f : ℝ)
    (hf : 0 < f) (h0 : 0 < M.θ 0) (h1 : 0 < M.θ i)
    (hm : ∀ n < M.N, ∑ k ∈ Finset.range (M.nsp n), m n k = f * M.θ n) :
    constraint M i m = 0 ↔ M.θ i = M.θ 0 := by
  rw [constraint_eq i hi hN, hm i hN, hm 0 (by omega)]
  constructor
  · intro h
    have : (M.θ i - M.θ 0) * (f * (M.θ i + M.θ 0)) = 0 := by linarith
    rcases mul_eq_zero.1 this with h2 | h2
    · linarith
    · have : 0 < f * (M.θ i + M.θ 0) := by positivity
      linarith
  · intro h; rw [h]; ring

/-! ## Example -/

/-- Two lattices with two species each, one site of the second for every two of the first. -/
noncomputable def two : Mech := ⟨2, fun _ => 2, fun n => if n = 0 then 2 else 1⟩

theorem two_proper : Proper two (fun _ k => if k = 0 then 1 / 4 else 3 / 4) :=
  ⟨by norm_num [two], fun _ _ k _ => by split_ifs <;> norm_num,
   fun n _ => by norm_num [two, Finset.sum_range_succ]⟩

example : ∃ q : ℕ → ℕ → ℝ, molar two (fun n => ∑ k ∈ Finset.range (two.nsp n),
    (setX two (fun _ k => if k = 0 then 1 / 4 else 3 / 4)).lat n k * q n k) ≠
    meanX two (setX two (fun _ k => if k = 0 then 1 / 4 else 3 / 4)) q :=
  molar_meanX_refuted two_proper (fun n _ => by norm_num [two, Finset.sum_range_succ]) 0
    (by norm_num [two]) (by norm_num [two])

/-- Swapping the two fractions, then restoring the saved state: an error. -/
example : getX two (restore (setX two (fun _ k => if k = 0 then 3 / 4 else 1 / 4))
    (setX two (fun _ k => if k = 0 then 1 / 4 else 3 / 4)).ph) = none := by
  refine (restore_stale _ two_proper ⟨by norm_num [two],
    fun _ _ k _ => by split_ifs <;> norm_num,
    fun n _ => by norm_num [two, Finset.sum_range_succ]⟩).2
    ⟨0, by norm_num [two], 0, by norm_num [two], ?_⟩
  norm_num [two, Finset.sum_range_succ]

end Verif.LatticeSolid
