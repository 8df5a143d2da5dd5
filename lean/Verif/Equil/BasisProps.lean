import Verif.Equil.Basis
import Mathlib.Algebra.BigOperators.Ring.Finset
import Mathlib.Algebra.Order.BigOperators.Group.Finset
import Mathlib.Data.Set.Function
import Mathlib.Tactic.Ring
import Mathlib.Tactic.Linarith
import Mathlib.Tactic.FieldSimp
import Mathlib.Tactic.NormNum
import Mathlib.Tactic.IntervalCases

/-!
# The chosen components: independence, order, completeness
-/

namespace Verif.Basis

open Verif

/-! ## Projections -/

theorem ip_comm (n : ℕ) (u w : ℕ → ℝ) : ip n u w = ip n w u := by
  unfold ip; exact Finset.sum_congr rfl fun _ _ => mul_comm _ _

theorem ip_list (n : ℕ) (w : ℕ → ℝ) (t : (ℕ → ℝ) → ℝ) (L : List (ℕ → ℝ)) :
    ip n w (fun e => (L.map fun c => t c * c e).sum) = (L.map fun c => t c * ip n w c).sum := by
  induction L with
  | nil => simp [ip]
  | cons a L ih =>
    simp only [List.map_cons, List.sum_cons]
    rw [← ih]
    unfold ip
    rw [Finset.mul_sum, ← Finset.sum_add_distrib]
    exact Finset.sum_congr rfl fun _ _ => by ring

theorem ip_residual (n : ℕ) (w v : ℕ → ℝ) (cols : List (ℕ → ℝ)) :
    ip n w (residual n cols v) =
      ip n w v - (cols.map fun c => ip n v c / ip n c c * ip n w c).sum := by
  rw [← ip_list n w (fun c => ip n v c / ip n c c)]
  unfold residual ip
  rw [← Finset.sum_sub_distrib]
  exact Finset.sum_congr rfl fun _ _ => by ring

/-- Orthogonal columns, each longer than the limit. -/
def Orth (n : ℕ) (cols : List (ℕ → ℝ)) : Prop :=
  cols.Pairwise (fun a b => ip n a b = 0) ∧ ∀ c ∈ cols, 1e-6 < ip n c c

theorem sum_single {n : ℕ} {cols : List (ℕ → ℝ)} (h : cols.Pairwise (fun a b => ip n a b = 0))
    (t : (ℕ → ℝ) → ℝ) {c : ℕ → ℝ} (hc : c ∈ cols) :
    (∀ b ∈ cols, b = c ∨ ip n c b = 0) → cols.Nodup →
    (cols.map fun b => t b * ip n c b).sum = t c * ip n c c := by
  induction cols with
  | nil => simp at hc
  | cons a L ih =>
    intro h1 h2
    rw [List.map_cons, List.sum_cons]
    have hp := List.pairwise_cons.1 h
    have hnd := List.nodup_cons.1 h2
    rcases List.mem_cons.1 hc with rfl | hc'
    · have : (L.map fun b => t b * ip n c b).sum = 0 := by
        apply List.sum_eq_zero
        intro x hx
        obtain ⟨b, hb, rfl⟩ := List.mem_map.1 hx
        rw [hp.1 b hb, mul_zero]
      rw [this, add_zero]
    · have ha : ip n c a = 0 := by
        rw [ip_comm]; exact hp.1 c hc'
      rw [ha, mul_zero, zero_add]
      exact ih hp.2 hc' (fun b hb => h1 b (List.mem_cons_of_mem _ hb)) hnd.2

theorem Orth.facts {n : ℕ} {cols : List (ℕ → ℝ)} (h : Orth n cols) :
    cols.Nodup ∧ ∀ c ∈ cols, ∀ b ∈ cols, b = c ∨ ip n c b = 0 := by
  obtain ⟨h1, h2⟩ := h
  induction cols with
  | nil => simp
  | cons a L ih =>
    have hp := List.pairwise_cons.1 h1
    obtain ⟨i1, i2⟩ := ih hp.2 fun c hc => h2 c (List.mem_cons_of_mem _ hc)
    have ha : 1e-6 < ip n a a := h2 a (by simp)
    refine ⟨List.nodup_cons.2 ⟨fun hm => ?_, i1⟩, ?_⟩
    · have := hp.1 a hm
      rw [this] at ha; norm_num at ha
    · intro c hc b hb
      rcases List.mem_cons.1 hc with rfl | hc
      · rcases List.mem_cons.1 hb with rfl | hb
        · exact Or.inl rfl
        · exact Or.inr (hp.1 b hb)
      · rcases List.mem_cons.1 hb with hba | hb
        · rw [hba]; exact Or.inr (by rw [ip_comm]; exact hp.1 _ (by assumption))
        · exact i2 c hc b hb

/-- The remainder is orthogonal to every column. -/
theorem residual_orth {n : ℕ} {cols : List (ℕ → ℝ)} (h : Orth n cols) (v : ℕ → ℝ) {c : ℕ → ℝ}
    (hc : c ∈ cols) : ip n c (residual n cols v) = 0 := by
  obtain ⟨f1, f2⟩ := h.facts
  rw [ip_residual, sum_single h.1 (fun b => ip n v b / ip n b b) hc (f2 c hc) f1]
  have : ip n c c ≠ 0 := by
    have := h.2 c hc
    intro h0; rw [h0] at this; norm_num at this
  rw [div_mul_cancel₀ _ this, ip_comm n v c, sub_self]

theorem Orth.snoc {n : ℕ} {cols : List (ℕ → ℝ)} (h : Orth n cols) (v : ℕ → ℝ)
    (hl : 1e-6 < ip n (residual n cols v) (residual n cols v)) :
    Orth n (cols ++ [residual n cols v]) := by
  refine ⟨List.pairwise_append.2 ⟨h.1, by simp, ?_⟩, ?_⟩
  · intro a ha b hb
    rw [List.mem_singleton.1 hb]
    exact residual_orth h v ha
  · intro c hc
    rcases List.mem_append.1 hc with hc | hc
    · exact h.2 c hc
    · rw [List.mem_singleton.1 hc]; exact hl

/-! ## What the columns know about the vectors they came from -/

/-- Vectors `V 0, …, V (m-1)` and the columns made from them. -/
structure Gram (n : ℕ) (V : ℕ → ℕ → ℝ) (cols : List (ℕ → ℝ)) : Prop where
  orth : Orth n cols
  sub : ∀ w, (∀ c ∈ cols, ip n c w = 0) → ∀ i < cols.length, ip n (V i) w = 0
  comb : ∀ c ∈ cols, ∃ b : ℕ → ℝ, ∀ e, c e = ∑ i ∈ Finset.range cols.length, b i * V i e
  indep : ∀ a : ℕ → ℝ, (∀ e < n, ∑ i ∈ Finset.range cols.length, a i * V i e = 0) →
    ∀ i < cols.length, a i = 0

theorem Gram.nil (n : ℕ) (V : ℕ → ℕ → ℝ) : Gram n V [] :=
  ⟨⟨List.Pairwise.nil, by simp⟩, by simp, by simp, by simp⟩

theorem comb_list {m : ℕ} {V : ℕ → ℕ → ℝ} (t : (ℕ → ℝ) → ℝ) (L : List (ℕ → ℝ))
    (h : ∀ c ∈ L, ∃ b : ℕ → ℝ, ∀ e, c e = ∑ i ∈ Finset.range m, b i * V i e) :
    ∃ b : ℕ → ℝ, ∀ e, (L.map fun c => t c * c e).sum = ∑ i ∈ Finset.range m, b i * V i e := by
  induction L with
  | nil => exact ⟨fun _ => 0, by simp⟩
  | cons a L ih =>
    obtain ⟨b, hb⟩ := ih fun c hc => h c (List.mem_cons_of_mem _ hc)
    obtain ⟨d, hd⟩ := h a (by simp)
    refine ⟨fun i => t a * d i + b i, fun e => ?_⟩
    rw [List.map_cons, List.sum_cons, hb e, hd e, Finset.mul_sum, ← Finset.sum_add_distrib]
    exact Finset.sum_congr rfl fun _ _ => by ring

/-- The remainder is the vector minus a combination of the earlier ones. -/
theorem residual_comb {n : ℕ} {V : ℕ → ℕ → ℝ} {cols : List (ℕ → ℝ)} (h : Gram n V cols) (v : ℕ → ℝ) :
    ∃ b : ℕ → ℝ, ∀ e, residual n cols v e = v e - ∑ i ∈ Finset.range cols.length, b i * V i e := by
  obtain ⟨b, hb⟩ := comb_list (fun c => ip n v c / ip n c c) cols h.comb
  exact ⟨b, fun e => by unfold residual; rw [hb e]⟩

theorem Gram.snoc {n : ℕ} {V : ℕ → ℕ → ℝ} {cols : List (ℕ → ℝ)} (h : Gram n V cols)
    (hl : 1e-6 < ip n (residual n cols (V cols.length)) (residual n cols (V cols.length))) :
    Gram n V (cols ++ [residual n cols (V cols.length)]) := by
  set c := residual n cols (V cols.length) with hcdef
  have hsub : ∀ w, (∀ b ∈ cols ++ [c], ip n b w = 0) → ∀ i < cols.length + 1, ip n (V i) w = 0 := by
    intro w hw i hi
    rcases Nat.lt_succ_iff_lt_or_eq.1 hi with hi | rfl
    · exact h.sub w (fun b hb => hw b (List.mem_append_left _ hb)) i hi
    · have h1 : ip n w c = 0 := by rw [ip_comm]; exact hw c (by simp)
      rw [hcdef, ip_residual] at h1
      have : (cols.map fun b => ip n (V cols.length) b / ip n b b * ip n w b).sum = 0 := by
        apply List.sum_eq_zero
        intro x hx
        obtain ⟨b, hb, rfl⟩ := List.mem_map.1 hx
        rw [ip_comm n w b, hw b (List.mem_append_left _ hb), mul_zero]
      rw [this, sub_zero] at h1
      rw [ip_comm]; exact h1
  have hlen : (cols ++ [c]).length = cols.length + 1 := by simp
  refine ⟨h.orth.snoc _ hl, by rw [hlen]; exact hsub, ?_, ?_⟩
  · intro d hd
    rw [hlen]
    rcases List.mem_append.1 hd with hd | hd
    · obtain ⟨b, hb⟩ := h.comb d hd
      refine ⟨fun i => if i < cols.length then b i else 0, fun e => ?_⟩
      rw [hb e, Finset.sum_range_succ]
      simp only
      rw [if_neg (lt_irrefl _), zero_mul, add_zero]
      exact Finset.sum_congr rfl fun i hi => by rw [if_pos (Finset.mem_range.1 hi)]
    · rw [List.mem_singleton.1 hd]
      obtain ⟨b, hb⟩ := residual_comb h (V cols.length)
      refine ⟨fun i => if i < cols.length then -b i else 1, fun e => ?_⟩
      rw [hcdef, hb e, Finset.sum_range_succ]
      simp only
      rw [if_neg (lt_irrefl _)]
      have : ∑ i ∈ Finset.range cols.length, (if i < cols.length then -b i else 1) * V i e =
          -∑ i ∈ Finset.range cols.length, b i * V i e := by
        rw [← Finset.sum_neg_distrib]
        exact Finset.sum_congr rfl fun i hi => by rw [if_pos (Finset.mem_range.1 hi)]; ring
      rw [this]; ring
  · intro a ha
    rw [hlen] at ha ⊢
    have hco : ∀ i < cols.length, ip n (V i) c = 0 :=
      h.sub c fun b hb => residual_orth h.orth _ hb
    have hself : ip n (V cols.length) c = ip n c c := by
      conv_rhs => rw [ip_comm, hcdef, ip_residual]
      have : (cols.map fun b => ip n (V cols.length) b / ip n b b * ip n c b).sum = 0 := by
        apply List.sum_eq_zero
        intro x hx
        obtain ⟨b, hb, rfl⟩ := List.mem_map.1 hx
        rw [ip_comm n c b, residual_orth h.orth _ hb, mul_zero]
      rw [← hcdef, this, sub_zero, ip_comm]
    have htot : ∑ e ∈ Finset.range n, (∑ i ∈ Finset.range (cols.length + 1), a i * V i e) * c e = 0 :=
      Finset.sum_eq_zero fun e he => by rw [ha e (Finset.mem_range.1 he), zero_mul]
    have hsw : ∑ e ∈ Finset.range n, (∑ i ∈ Finset.range (cols.length + 1), a i * V i e) * c e =
        ∑ i ∈ Finset.range (cols.length + 1), a i * ip n (V i) c := by
      simp only [Finset.sum_mul]
      rw [Finset.sum_comm]
      refine Finset.sum_congr rfl fun i _ => ?_
      unfold ip
      rw [Finset.mul_sum]
      exact Finset.sum_congr rfl fun _ _ => by ring
    rw [hsw, Finset.sum_range_succ, Finset.sum_eq_zero, zero_add, hself] at htot
    swap
    · intro i hi
      rw [hco i (Finset.mem_range.1 hi), mul_zero]
    have hlast : a cols.length = 0 := by
      rcases mul_eq_zero.1 htot with h0 | h0
      · exact h0
      · rw [h0] at hl; norm_num at hl
    intro i hi
    rcases Nat.lt_succ_iff_lt_or_eq.1 hi with hi | rfl
    · refine h.indep a (fun e he => ?_) i hi
      have := ha e he
      rw [Finset.sum_range_succ, hlast, zero_mul, add_zero] at this
      exact this
    · exact hlast

theorem Gram.congr {n : ℕ} {V W : ℕ → ℕ → ℝ} {cols : List (ℕ → ℝ)} (h : Gram n V cols)
    (hv : ∀ i < cols.length, V i = W i) : Gram n W cols := by
  have hs : ∀ (b : ℕ → ℝ) e, ∑ i ∈ Finset.range cols.length, b i * W i e =
      ∑ i ∈ Finset.range cols.length, b i * V i e := fun b e =>
    Finset.sum_congr rfl fun i hi => by rw [hv i (Finset.mem_range.1 hi)]
  refine ⟨h.orth, fun w hw i hi => by rw [← hv i hi]; exact h.sub w hw i hi, fun c hc => ?_, fun a ha => ?_⟩
  · obtain ⟨b, hb⟩ := h.comb c hc
    exact ⟨b, fun e => by rw [hs, hb e]⟩
  · exact h.indep a fun e he => by rw [← hs]; exact ha e he

/-- `x` is a combination of the first `m` vectors up to the limit. -/
def Close (n : ℕ) (V : ℕ → ℕ → ℝ) (m : ℕ) (x : ℕ → ℝ) : Prop :=
  ∃ a : ℕ → ℝ, ∑ e ∈ Finset.range n, (x e - ∑ i ∈ Finset.range m, a i * V i e) ^ 2 ≤ 1e-6

theorem Close.of_mem {n : ℕ} {V : ℕ → ℕ → ℝ} {m i : ℕ} (hi : i < m) : Close n V m (V i) := by
  refine ⟨fun j => if j = i then 1 else 0, ?_⟩
  have : ∀ e, ∑ j ∈ Finset.range m, (if j = i then (1 : ℝ) else 0) * V j e = V i e := by
    intro e
    rw [Finset.sum_eq_single i]
    · simp
    · intro b _ hb; simp [hb]
    · intro h; exact absurd (Finset.mem_range.2 hi) h
  simp only [this, sub_self]
  norm_num

theorem Close.mono {n : ℕ} {V W : ℕ → ℕ → ℝ} {m m' : ℕ} {x : ℕ → ℝ} (h : Close n V m x) (hm : m ≤ m')
    (hv : ∀ i < m, V i = W i) : Close n W m' x := by
  obtain ⟨a, ha⟩ := h
  refine ⟨fun i => if i < m then a i else 0, ?_⟩
  have : ∀ e, ∑ i ∈ Finset.range m', (if i < m then a i else 0) * W i e =
      ∑ i ∈ Finset.range m, a i * V i e := by
    intro e
    rw [← Finset.sum_subset (Finset.range_subset_range.2 hm)]
    · exact Finset.sum_congr rfl fun i hi => by
        rw [if_pos (Finset.mem_range.1 hi), hv i (Finset.mem_range.1 hi)]
    · intro i _ hi
      rw [if_neg (by simpa using hi), zero_mul]
  simp only [this]
  exact ha

theorem Close.of_residual {n : ℕ} {V : ℕ → ℕ → ℝ} {cols : List (ℕ → ℝ)} (h : Gram n V cols) (v : ℕ → ℝ)
    (hl : ¬ 1e-6 < ip n (residual n cols v) (residual n cols v)) : Close n V cols.length v := by
  obtain ⟨b, hb⟩ := residual_comb h v
  refine ⟨b, ?_⟩
  have : ip n (residual n cols v) (residual n cols v) =
      ∑ e ∈ Finset.range n, (v e - ∑ i ∈ Finset.range cols.length, b i * V i e) ^ 2 := by
    unfold ip
    exact Finset.sum_congr rfl fun e _ => by rw [hb e]; ring
  rw [← this]
  exact not_lt.1 hl

/-- `x` is further than the limit from every combination of the first `m` vectors. -/
def Far (n : ℕ) (V : ℕ → ℕ → ℝ) (m : ℕ) (x : ℕ → ℝ) : Prop :=
  ∀ a : ℕ → ℝ, 1e-6 < ∑ e ∈ Finset.range n, (x e - ∑ i ∈ Finset.range m, a i * V i e) ^ 2

theorem Far.of_residual {n : ℕ} {V : ℕ → ℕ → ℝ} {cols : List (ℕ → ℝ)} (h : Gram n V cols) (v : ℕ → ℝ)
    (hl : 1e-6 < ip n (residual n cols v) (residual n cols v)) : Far n V cols.length v := by
  intro a
  obtain ⟨b, hb⟩ := residual_comb h v
  set c := residual n cols v with hc
  have ho : ∀ i < cols.length, ip n (V i) c = 0 := h.sub c fun d hd => residual_orth h.orth _ hd
  set d : ℕ → ℝ := fun e => ∑ i ∈ Finset.range cols.length, (b i - a i) * V i e with hd
  have hw : ∀ e, v e - ∑ i ∈ Finset.range cols.length, a i * V i e = c e + d e := by
    intro e
    rw [hb e, hd]
    simp only [sub_mul, Finset.sum_sub_distrib]
    ring
  have hcd : ∑ e ∈ Finset.range n, c e * d e = 0 := by
    have : ∑ e ∈ Finset.range n, c e * d e =
        ∑ i ∈ Finset.range cols.length, (b i - a i) * ip n (V i) c := by
      rw [hd]
      simp only [Finset.mul_sum]
      rw [Finset.sum_comm]
      refine Finset.sum_congr rfl fun i _ => ?_
      unfold ip
      rw [Finset.mul_sum]
      exact Finset.sum_congr rfl fun _ _ => by ring
    rw [this]
    exact Finset.sum_eq_zero fun i hi => by rw [ho i (Finset.mem_range.1 hi), mul_zero]
  have hsum : ∑ e ∈ Finset.range n, (v e - ∑ i ∈ Finset.range cols.length, a i * V i e) ^ 2 =
      ip n c c + 2 * ∑ e ∈ Finset.range n, c e * d e + ∑ e ∈ Finset.range n, d e ^ 2 := by
    unfold ip
    rw [Finset.mul_sum, ← Finset.sum_add_distrib, ← Finset.sum_add_distrib]
    exact Finset.sum_congr rfl fun e _ => by rw [hw e]; ring
  rw [hsum, hcd]
  have : 0 ≤ ∑ e ∈ Finset.range n, d e ^ 2 := Finset.sum_nonneg fun e _ => sq_nonneg _
  linarith

theorem Far.congr {n : ℕ} {V W : ℕ → ℕ → ℝ} {m : ℕ} {x : ℕ → ℝ} (h : Far n V m x)
    (hv : ∀ i < m, V i = W i) : Far n W m x := by
  intro a
  have : ∀ e, ∑ i ∈ Finset.range m, a i * W i e = ∑ i ∈ Finset.range m, a i * V i e := fun e =>
    Finset.sum_congr rfl fun i hi => by rw [hv i (Finset.mem_range.1 hi)]
  simp only [this]
  exact h a

end Verif.Basis
