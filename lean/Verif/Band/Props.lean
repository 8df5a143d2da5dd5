import Verif.Band.Model
import Mathlib.Tactic.Ring
import Mathlib.Tactic.Linarith

/-!
# C31: banded matrix storage represents the matrix

Specification: a dense matrix `Dense` of which only the band is meaningful.
-/

namespace Verif.BandM

open Verif

/-! ## Specification -/

/-- Dense matrix with its band. -/
structure Dense where
  n : ℕ
  kl : ℕ
  ku : ℕ
  A : ℕ → ℕ → ℝ

/-- `(i, j)` lies within the band. -/
def inBand (kl ku i j : ℕ) : Prop := j ≤ i + ku ∧ i ≤ j + kl

instance (kl ku i j : ℕ) : Decidable (inBand kl ku i j) := by unfold inBand; infer_instance

/-- Entry of the represented matrix. -/
def Dense.at (d : Dense) (i j : ℕ) : ℝ := if inBand d.kl d.ku i j then d.A i j else 0

/-- Effect of the operations on the dense matrix. -/
def Dense.step (d : Dense) : Op → Dense
  | .write i j x => { d with A := fun i' j' => if i' = i ∧ j' = j then x else d.A i' j' }
  | .bfill v => { d with A := fun _ _ => v }
  | .zero => { d with A := fun _ _ => 0 }
  | .resize n kl ku v => ⟨n, kl, ku, fun _ _ => v⟩
  | .factor => d
  | .solve => d

/-- The rows and columns addressed by an operation exist. -/
def InRange (n : ℕ) : Op → Prop
  | .write i j _ => i < n ∧ j < n
  | _ => True

/-- All operations of a history are in range for the size current at that point. -/
def AllInRange : ℕ → List Op → Prop
  | _, [] => True
  | _, .resize n' _ _ _ :: os => AllInRange n' os
  | n, o :: os => InRange n o ∧ AllInRange n os

/-! ## Index arithmetic -/

theorem index_lt (b : Band) (i j : ℕ) (hj : j < b.n) (hb : inBand b.kl b.ku i j) :
    b.index i j < b.n * (2 * b.kl + b.ku + 1) := by
  have h1 : b.index i j < (2 * b.kl + b.ku + 1) * (j + 1) := by
    have := hb.2
    simp only [Band.index]; nlinarith
  have h2 : (2 * b.kl + b.ku + 1) * (j + 1) ≤ b.n * (2 * b.kl + b.ku + 1) := by
    rw [mul_comm]; exact Nat.mul_le_mul_right _ hj
  omega

/-- Column-major position: column `j`, offset `kl + ku + i - j`, as documented in BandMatrix.h:194-202. -/
theorem index_layout (b : Band) (i j : ℕ) (hb : inBand b.kl b.ku i j) :
    b.index i j = (2 * b.kl + b.ku + 1) * j + (b.kl + b.ku + i - j) ∧
      b.kl + b.ku + i - j < 2 * b.kl + b.ku + 1 := by
  obtain ⟨h1, h2⟩ := hb
  refine ⟨?_, by omega⟩
  simp only [Band.index]
  have : (2 * b.kl + b.ku + 1) * j = (2 * b.kl + b.ku) * j + j := by ring
  omega

/-- Distinct in-band positions never share a storage cell. -/
theorem band_index_injective (b : Band) (i j i' j' : ℕ) (h : inBand b.kl b.ku i j)
    (h' : inBand b.kl b.ku i' j') (e : b.index i j = b.index i' j') : i = i' ∧ j = j' := by
  obtain ⟨e1, l1⟩ := index_layout b i j h
  obtain ⟨e2, l2⟩ := index_layout b i' j' h'
  have hpos : 0 < 2 * b.kl + b.ku + 1 := by omega
  rw [e1, e2] at e
  have hj : j = j' := by
    have d1 : ((2 * b.kl + b.ku + 1) * j + (b.kl + b.ku + i - j)) / (2 * b.kl + b.ku + 1) = j := by
      rw [Nat.mul_add_div hpos, Nat.div_eq_of_lt l1, add_zero]
    have d2 : ((2 * b.kl + b.ku + 1) * j' + (b.kl + b.ku + i' - j')) / (2 * b.kl + b.ku + 1) = j' := by
      rw [Nat.mul_add_div hpos, Nat.div_eq_of_lt l2, add_zero]
    rw [← d1, e, d2]
  subst hj
  refine ⟨?_, rfl⟩
  have := h.1; have := h'.1
  omega

example : inBand 1 2 3 4 ∧ inBand 1 2 4 3 ∧
    (Band.mk' 6 1 2 0).index 3 4 ≠ (Band.mk' 6 1 2 0).index 4 3 := by decide

/-! ## Refinement -/

/-- The stored matrix represents the dense one. -/
structure Rep (b : Band) (d : Dense) : Prop where
  hn : b.n = d.n
  hkl : b.kl = d.kl
  hku : b.ku = d.ku
  len : b.data.length = b.n * (2 * b.kl + b.ku + 1)
  cell : ∀ i j, i < b.n → j < b.n → inBand b.kl b.ku i j → b.data[b.index i j]? = some (d.A i j)

theorem rep_step (ok : List ℝ → Bool) (b : Band) (d : Dense) (o : Op) (h : Rep b d)
    (hr : InRange b.n o) : ∃ b', b.step ok o = .ok b' ∧ Rep b' (d.step o) := by
  obtain ⟨hn, hkl, hku, len, cell⟩ := h
  cases o with
  | write i j x =>
    simp only [InRange] at hr
    by_cases hb : inBand b.kl b.ku i j
    · have hnot : ¬ (i + b.ku < j ∨ i > j + b.kl) := by have := hb.1; have := hb.2; omega
      have hlt : b.index i j < b.data.length := by rw [len]; exact index_lt b i j hr.2 hb
      refine ⟨{ b with factored := false, data := b.data.set (b.index i j) x }, ?_, ?_⟩
      · simp [Band.step, Band.write, Band.valueRef, Band.store, hnot, hlt]
      · refine ⟨hn, hkl, hku, by simpa using len, ?_⟩
        intro i' j' hi' hj' hb'
        show (b.data.set (b.index i j) x)[b.index i' j']? = _
        simp only [Dense.step]
        by_cases e : i' = i ∧ j' = j
        · obtain ⟨rfl, rfl⟩ := e
          rw [List.getElem?_set_self hlt]; simp
        · have : b.index i j ≠ b.index i' j' := by
            intro h; obtain ⟨h1, h2⟩ := band_index_injective b i j i' j' hb hb' h
            exact e ⟨h1.symm, h2.symm⟩
          rw [List.getElem?_set_ne this, cell i' j' hi' hj' hb', if_neg e]
    · have hout : i + b.ku < j ∨ i > j + b.kl := by
        unfold inBand at hb; omega
      refine ⟨{ b with factored := false, zeroCell := x }, ?_, ?_⟩
      · simp [Band.step, Band.write, Band.valueRef, Band.store, hout]
      · refine ⟨hn, hkl, hku, len, ?_⟩
        intro i' j' hi' hj' hb'
        have := cell i' j' hi' hj' hb'
        simp only [Dense.step]
        rw [if_neg]
        · exact this
        · rintro ⟨rfl, rfl⟩; exact hb hb'
  | bfill v =>
    refine ⟨_, rfl, hn, hkl, hku, by simpa [Band.bfill] using len, ?_⟩
    intro i j hi hj hb
    have := index_lt b i j hj hb
    have hlt : b.index i j < b.data.length := by rw [len]; exact this
    show (List.replicate b.data.length v)[b.index i j]? = _
    rw [List.getElem?_replicate, if_pos hlt]; rfl
  | zero =>
    refine ⟨_, rfl, hn, hkl, hku, by simpa [Band.zero] using len, ?_⟩
    intro i j hi hj hb
    have := index_lt b i j hj hb
    have hlt : b.index i j < b.data.length := by rw [len]; exact this
    show (List.replicate b.data.length (0 : ℝ))[b.index i j]? = _
    rw [List.getElem?_replicate, if_pos hlt]; rfl
  | resize n kl ku v =>
    refine ⟨_, rfl, rfl, rfl, rfl, by simp [Band.resize], ?_⟩
    intro i j hi hj hb
    have : _ < n * (2 * kl + ku + 1) := index_lt (b.resize n kl ku v) i j hj hb
    show (List.replicate (n * (2 * kl + ku + 1)) v)[(b.resize n kl ku v).index i j]? = _
    rw [List.getElem?_replicate, if_pos this]; rfl
  | factor =>
    refine ⟨_, rfl, ?_⟩
    simp only [Band.factor]
    split_ifs <;> exact ⟨hn, hkl, hku, len, cell⟩
  | solve =>
    refine ⟨_, rfl, ?_⟩
    simp only [Band.solve, Band.factor]
    split_ifs
    · cases b.lu <;> exact ⟨hn, hkl, hku, len, cell⟩
    · exact ⟨hn, hkl, hku, len, cell⟩
    · exact ⟨hn, hkl, hku, len, cell⟩

theorem rep_mk (n kl ku : ℕ) (v : ℝ) : Rep (Band.mk' n kl ku v) ⟨n, kl, ku, fun _ _ => v⟩ := by
  refine ⟨rfl, rfl, rfl, by simp [Band.mk'], ?_⟩
  intro i j hi hj hb
  have : _ < n * (2 * kl + ku + 1) := index_lt (Band.mk' n kl ku v) i j hj hb
  show (List.replicate (n * (2 * kl + ku + 1)) v)[(Band.mk' n kl ku v).index i j]? = _
  rw [List.getElem?_replicate, if_pos this]

/-- Every history of in-range operations runs without undefined behaviour and leaves the matrix
representing the dense matrix obtained by the same history. -/
theorem band_history (ok : List ℝ → Bool) (os : List Op) (b : Band) (d : Dense) (h : Rep b d)
    (hr : AllInRange b.n os) : ∃ b', b.run ok os = .ok b' ∧ Rep b' (os.foldl Dense.step d) := by
  induction os generalizing b d with
  | nil => exact ⟨b, rfl, h⟩
  | cons o os ih =>
    have hro : InRange b.n o := by
      cases o <;> first | exact hr.1 | trivial
    obtain ⟨b1, e1, h1⟩ := rep_step ok b d o h hro
    have hr1 : AllInRange b1.n os := by
      have hn1 : b1.n = (d.step o).n := h1.hn
      cases o with
      | resize n kl ku v => rw [hn1]; exact hr
      | write i j x => rw [hn1, show (d.step (.write i j x)).n = d.n from rfl, ← h.hn]; exact hr.2
      | bfill v => rw [hn1, show (d.step (.bfill v)).n = d.n from rfl, ← h.hn]; exact hr.2
      | zero => rw [hn1, show (d.step .zero).n = d.n from rfl, ← h.hn]; exact hr.2
      | factor => rw [hn1, show (d.step .factor).n = d.n from rfl, ← h.hn]; exact hr.2
      | solve => rw [hn1, show (d.step .solve).n = d.n from rfl, ← h.hn]; exact hr.2
    obtain ⟨b2, e2, h2⟩ := ih b1 (d.step o) h1 hr1
    exact ⟨b2, by rw [Band.run, e1]; exact e2, h2⟩

example : AllInRange 3 [.write 0 2 1, .bfill 4, .resize 5 1 1 0, .write 4 4 7, .solve, .zero] := by
  simp [AllInRange, InRange]

/-- Reading with the const accessor gives the dense entry, and zero outside the band. -/
theorem band_read (b : Band) (d : Dense) (h : Rep b d) (i j : ℕ) (hi : i < b.n) (hj : j < b.n) :
    b.value i j = .ok (d.at i j) := by
  by_cases hb : inBand b.kl b.ku i j
  · have hnot : ¬ (i + b.ku < j ∨ i > j + b.kl) := by have := hb.1; have := hb.2; omega
    have hb' : inBand d.kl d.ku i j := by rw [← h.hkl, ← h.hku]; exact hb
    simp [Band.value, hnot, Band.raw, Outcome.vecGet, h.cell i j hi hj hb, Dense.at, hb']
  · have hout : i + b.ku < j ∨ i > j + b.kl := by unfold inBand at hb; omega
    have hb' : ¬ inBand d.kl d.ku i j := by rw [← h.hkl, ← h.hku]; exact hb
    simp [Band.value, hout, Dense.at, hb']

/-- Main statement for accessors: build, run any in-range history, read. -/
theorem band_storage (ok : List ℝ → Bool) (n kl ku : ℕ) (v : ℝ) (os : List Op)
    (hr : AllInRange n os) :
    ∃ b, (Band.mk' n kl ku v).run ok os = .ok b ∧
      ∀ i j, i < b.n → j < b.n →
        b.value i j = .ok ((os.foldl Dense.step ⟨n, kl, ku, fun _ _ => v⟩).at i j) := by
  obtain ⟨b, e, h⟩ := band_history ok os _ _ (rep_mk n kl ku v) hr
  exact ⟨b, e, fun i j hi hj => band_read b _ h i j hi hj⟩

/-- Finding: the non-const accessor hands out a writable reference to a shared "zero" cell, so after an
out-of-band assignment other out-of-band entries read through it are no longer zero. -/
theorem band_nonconst_out_of_band_not_zero :
    ∃ b', (Band.mk' 5 0 0 0).write 0 4 7 = .ok b' ∧ b'.readRef 3 1 = .ok 7 ∧ b'.value 3 1 = .ok 0 := by
  refine ⟨{ (Band.mk' 5 0 0 0) with zeroCell := 7 }, ?_, ?_, ?_⟩ <;>
    simp [Band.mk', Band.write, Band.valueRef, Band.store, Band.readRef, Band.load, Band.value]

/-! ## Products -/

theorem sumLoop_ok (f : ℕ → Outcome ℝ) (g : ℕ → ℝ) (c s : ℕ) (acc : ℝ)
    (h : ∀ j, s ≤ j → j < s + c → f j = .ok (g j)) :
    sumLoop f s c acc = .ok (acc + ∑ j ∈ Finset.Ico s (s + c), g j) := by
  induction c generalizing s acc with
  | zero => simp [sumLoop]
  | succ c ih =>
    rw [sumLoop, h s (le_refl _) (by omega), Outcome.bind_ok,
      ih (s + 1) _ (fun j h1 h2 => h j (by omega) (by omega))]
    rw [Finset.sum_eq_sum_Ico_succ_bot (by omega : s < s + (c + 1)), ← add_assoc]
    congr 3
    congr 1
    omega

theorem sum_band (n s e : ℕ) (f : ℕ → ℝ) (he : e ≤ n) (h0 : ∀ j < n, (j < s ∨ e ≤ j) → f j = 0) :
    ∑ j ∈ Finset.Ico s e, f j = ∑ j ∈ Finset.range n, f j := by
  apply Finset.sum_subset
  · intro j hj; rw [Finset.mem_Ico] at hj; exact Finset.mem_range.2 (by omega)
  · intro j hj hn
    rw [Finset.mem_range] at hj
    rw [Finset.mem_Ico] at hn
    exact h0 j hj (by omega)

theorem raw_eq (b : Band) (d : Dense) (h : Rep b d) (i j : ℕ) (hi : i < b.n) (hj : j < b.n)
    (hb : inBand b.kl b.ku i j) : b.raw i j = .ok (d.at i j) := by
  have hb' : inBand d.kl d.ku i j := by rw [← h.hkl, ← h.hku]; exact hb
  simp [Band.raw, Outcome.vecGet, h.cell i j hi hj hb, Dense.at, hb']

/-- `mult` is the dense matrix-vector product. -/
theorem band_mult (a : Band) (d : Dense) (h : Rep a d) (b : ℕ → ℝ) (m : ℕ) (hm : m < a.n) :
    a.multRow b m = .ok (∑ j ∈ Finset.range a.n, d.at m j * b j) := by
  simp only [Band.multRow]
  have hs : (if m ≥ a.kl then m - a.kl else 0) = m - a.kl := by split_ifs <;> omega
  rw [hs, sumLoop_ok _ (fun j => d.at m j * b j)]
  · have hle : m - a.kl ≤ min (m + a.ku + 1) a.n := by omega
    rw [Nat.add_sub_cancel' hle, zero_add,
      sum_band a.n _ _ _ (min_le_right _ _)]
    intro j hj hout
    have hb : ¬ inBand d.kl d.ku m j := by
      rw [← h.hkl, ← h.hku]; unfold inBand; omega
    simp [Dense.at, hb]
  · intro j h1 h2
    rw [raw_eq a d h m j hm (by omega) (by unfold inBand; omega)]; rfl

/-- `leftMult` is the dense vector-matrix product. -/
theorem band_leftMult (a : Band) (d : Dense) (h : Rep a d) (b : ℕ → ℝ) (c : ℕ) (hc : c < a.n) :
    a.leftMultCol b c = .ok (∑ i ∈ Finset.range a.n, d.at i c * b i) := by
  simp only [Band.leftMultCol]
  have hs : (if c ≥ a.ku then c - a.ku else 0) = c - a.ku := by split_ifs <;> omega
  rw [hs, sumLoop_ok _ (fun i => d.at i c * b i)]
  · have hle : c - a.ku ≤ min (c + a.kl + 1) a.n := by omega
    rw [Nat.add_sub_cancel' hle, zero_add,
      sum_band a.n _ _ _ (min_le_right _ _)]
    intro i hi hout
    have hb : ¬ inBand d.kl d.ku i c := by
      rw [← h.hkl, ← h.hku]; unfold inBand; omega
    simp [Dense.at, hb]
  · intro i h1 h2
    rw [raw_eq a d h i c (by omega) hc (by unfold inBand; omega)]; rfl

theorem colAbs_eq (a : Band) (d : Dense) (h : Rep a d) (c : ℕ) (hc : c < a.n) :
    a.colAbs c = .ok (∑ i ∈ Finset.range a.n, |d.at i c|) := by
  simp only [Band.colAbs]
  have hs : (if c ≥ a.ku then c - a.ku else 0) = c - a.ku := by split_ifs <;> omega
  rw [hs, sumLoop_ok _ (fun i => |d.at i c|)]
  · have hle : c - a.ku ≤ min (c + a.kl + 1) a.n := by omega
    rw [Nat.add_sub_cancel' hle, zero_add,
      sum_band a.n _ _ _ (min_le_right _ _)]
    intro i hi hout
    have hb : ¬ inBand d.kl d.ku i c := by
      rw [← h.hkl, ← h.hku]; unfold inBand; omega
    simp [Dense.at, hb]
  · intro i h1 h2
    rw [raw_eq a d h i c (by omega) hc (by unfold inBand; omega)]; rfl

/-- `oneNorm` is the largest absolute column sum (zero for an empty matrix). -/
theorem band_oneNorm (a : Band) (d : Dense) (h : Rep a d) :
    ∃ v, a.oneNorm = .ok v ∧ (∀ j < a.n, ∑ i ∈ Finset.range a.n, |d.at i j| ≤ v) ∧
      (v = 0 ∨ ∃ j < a.n, v = ∑ i ∈ Finset.range a.n, |d.at i j|) := by
  have gen : ∀ c j v, j + c = a.n → ∃ w, a.oneNormLoop j c v = .ok w ∧ v ≤ w ∧
      (∀ k, j ≤ k → k < a.n → ∑ i ∈ Finset.range a.n, |d.at i k| ≤ w) ∧
      (w = v ∨ ∃ k < a.n, w = ∑ i ∈ Finset.range a.n, |d.at i k|) := by
    intro c
    induction c with
    | zero => intro j v hj; exact ⟨v, rfl, le_refl _, fun k h1 h2 => by omega, Or.inl rfl⟩
    | succ c ih =>
      intro j v hj
      rw [Band.oneNormLoop, colAbs_eq a d h j (by omega), Outcome.bind_ok]
      obtain ⟨w, e, h1, h2, h3⟩ := ih (j + 1) (max (∑ i ∈ Finset.range a.n, |d.at i j|) v) (by omega)
      refine ⟨w, e, le_trans (le_max_right _ _) h1, ?_, ?_⟩
      · intro k hk hkn
        rcases Nat.eq_or_lt_of_le hk with rfl | hk
        · exact le_trans (le_max_left _ _) h1
        · exact h2 k hk hkn
      · rcases h3 with h3 | h3
        · rcases max_choice (∑ i ∈ Finset.range a.n, |d.at i j|) v with hm | hm
          · right; exact ⟨j, by omega, by rw [h3, hm]⟩
          · left; rw [h3, hm]
        · exact Or.inr h3
  obtain ⟨w, e, h1, h2, h3⟩ := gen a.n 0 0 (by omega)
  exact ⟨w, e, fun j hj => h2 j (by omega) hj, h3⟩

example : ∃ b d, Rep b d ∧ d.n = 4 ∧ d.at 1 2 = 3 ∧ d.at 0 3 = 0 :=
  ⟨_, _, rep_mk 4 1 1 3, rfl, by simp [Dense.at, inBand], by simp [Dense.at, inBand]⟩

/-! ## Factorisation freshness -/

/-- If the flag is set the stored factorisation is that of the current entries, and it had succeeded. -/
def Fresh (ok : List ℝ → Bool) (b : Band) : Prop :=
  b.factored = true → b.lu = some b.data ∧ ok b.data = true

theorem fresh_step (ok : List ℝ → Bool) (b b' : Band) (o : Op) (h : Fresh ok b)
    (e : b.step ok o = .ok b') : Fresh ok b' := by
  cases o with
  | write i j x =>
    simp only [Band.step, Band.write, Band.valueRef] at e
    intro hf
    split_ifs at e with hc
    · simp only [Band.store, Outcome.ok.injEq] at e; subst e; simp at hf
    · simp only [Band.store] at e
      split_ifs at e
      simp only [Outcome.ok.injEq] at e; subst e; simp at hf
  | bfill v => simp only [Band.step, Outcome.ok.injEq] at e; subst e; intro hf; simp [Band.bfill] at hf
  | zero => simp only [Band.step, Outcome.ok.injEq] at e; subst e; intro hf; simp [Band.zero] at hf
  | resize n kl ku v =>
    simp only [Band.step, Outcome.ok.injEq] at e; subst e; intro hf; simp [Band.resize] at hf
  | factor =>
    simp only [Band.step, Outcome.ok.injEq] at e; subst e
    intro hf
    simp only [Band.factor] at hf ⊢
    split_ifs at hf ⊢ with h1
    · exact ⟨rfl, h1⟩
    · exact ⟨rfl, (h hf).2⟩
  | solve =>
    simp only [Band.step, Outcome.ok.injEq] at e; subst e
    intro hf
    simp only [Band.solve, Band.factor] at hf ⊢
    split_ifs at hf ⊢ with h1 h2
    · cases hl : b.lu with
      | none => exact absurd (h h1).1 (by simp [hl])
      | some d => simpa [hl] using h h1
    · exact ⟨rfl, h2⟩
    · simp [h1] at hf

/-- Over every history of the public operations that do not hand out raw column pointers, `solve` uses the
factorisation of the current matrix entries if that one succeeds and throws otherwise; it never
runs with a missing, failed or outdated factorisation. -/
theorem band_solve_fresh (ok : List ℝ → Bool) (os : List Op) (n kl ku : ℕ) (v : ℝ) (b : Band)
    (e : (Band.mk' n kl ku v).run ok os = .ok b) :
    (b.solve ok).2 = (if ok b.data then .ok b.data else .throw) := by
  have hf : ∀ (os : List Op) (b0 b : Band), Fresh ok b0 → b0.run ok os = .ok b → Fresh ok b := by
    intro os
    induction os with
    | nil => intro b0 b h e; simp only [Band.run, Outcome.ok.injEq] at e; subst e; exact h
    | cons o os ih =>
      intro b0 b h e
      rw [Band.run] at e
      cases hs : b0.step ok o with
      | ok b1 => rw [hs, Outcome.bind_ok] at e; exact ih b1 b (fresh_step ok b0 b1 o h hs) e
      | throw => rw [hs] at e; simp at e
      | ub => rw [hs] at e; simp at e
  have h := hf os _ b (by intro h; simp [Band.mk'] at h) e
  simp only [Band.solve]
  by_cases h1 : b.factored = true
  · simp [h1, (h h1).1, (h h1).2]
  · by_cases h2 : ok b.data = true
    · simp [h1, h2, Band.factor]
    · simp [h1, h2, Band.factor]

/-- Finding: writing through `ptrColumn` does not clear the flag, a following `solve` uses the old
factorisation. -/
theorem band_stale_after_column_write :
    ∃ (b b' : Band) (ok : List ℝ → Bool), Fresh ok b ∧ b.writeColumn 0 0 5 = .ok b' ∧
      (b'.solve ok).2 = .ok [1] ∧ b'.data = [5] := by
  refine ⟨⟨1, 0, 0, [1], 0, true, some [1]⟩, ⟨1, 0, 0, [5], 0, true, some [1]⟩, fun _ => true, ?_, ?_, ?_, rfl⟩
  · intro _; exact ⟨rfl, rfl⟩
  · simp [Band.writeColumn]
  · simp [Band.solve]

end Verif.BandM
