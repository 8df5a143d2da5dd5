import Verif.Thermo.Poly
import Mathlib.Topology.Order.Basic
import Mathlib.Analysis.SpecialFunctions.Log.Basic

/-!
# C27 (and C25 for this form): piecewise Gibbs energy table (src/thermo/Mu0Poly.cpp:36-127)

The members `m_t0_int`, `m_mu0_R_int`, … are functions on `Nat` of which the first `n+1` entries
matter, `n` being `m_numIntervals`.  Temperatures come from a `std::map`, hence are strictly
increasing.  The gas constant is already divided out: `mu` are μ/R, `H298` is h0/R.
-/

namespace Verif.Mu0

open Verif.Poly

/-- `m_h0_R_int`, `m_s0_R_int`, `m_cp0_R_int` -/
structure Arr where
  h : Nat → ℝ
  s : Nat → ℝ
  cp : Nat → ℝ

/-- One pass of the upward loop (Mu0Poly.cpp:69-78). -/
noncomputable def upStep (t mu : Nat → ℝ) (A : Arr) (i : Nat) : Arr :=
  let T1 := t i
  let s1 := A.s i
  let T2 := t (i + 1)
  let deltaMu := mu (i + 1) - mu i
  let deltaT := T2 - T1
  let cpi := (deltaMu - T1 * s1 + T2 * s1) / (deltaT - T2 * Real.log (T2 / T1))
  { h := upd A.h (i + 1) (A.h i + cpi * deltaT)
    s := upd A.s (i + 1) (s1 + cpi * Real.log (T2 / T1))
    cp := upd (upd A.cp i cpi) (i + 1) cpi }

/-- One pass of the downward loop (Mu0Poly.cpp:86-97). -/
noncomputable def downStep (t mu : Nat → ℝ) (n : Nat) (A : Arr) (i : Nat) : Arr :=
  let T1 := t i
  let T2 := t (i + 1)
  let s2 := A.s (i + 1)
  let deltaMu := mu (i + 1) - mu i
  let deltaT := T2 - T1
  let cpi := (deltaMu - T1 * s2 + T2 * s2) / (deltaT - T1 * Real.log (T2 / T1))
  { h := upd A.h i (A.h (i + 1) - cpi * deltaT)
    s := upd A.s i (s2 - cpi * Real.log (T2 / T1))
    cp := if i + 1 = n then upd (upd A.cp i cpi) (i + 1) cpi else upd A.cp i cpi }

/-- Values at the 298.15 K point (Mu0Poly.cpp:66-67, repeated at 83-84). -/
noncomputable def seed (t mu : Nat → ℝ) (H298 : ℝ) (i0 : Nat) (A : Arr) : Arr :=
  { A with
    h := upd A.h i0 H298
    s := upd A.s i0 (-(mu i0 - H298) / t i0) }

/-- Mu0Poly.cpp:68-79: `cnt` passes upwards from `i0`. -/
noncomputable def upLoop (t mu : Nat → ℝ) (i0 : Nat) : Nat → Arr → Arr
  | 0, A => A
  | cnt + 1, A => upStep t mu (upLoop t mu i0 cnt A) (i0 + cnt)

/-- Mu0Poly.cpp:85-98: `cnt` passes downwards from `i0 - 1`. -/
noncomputable def downLoop (t mu : Nat → ℝ) (n i0 : Nat) : Nat → Arr → Arr
  | 0, A => A
  | cnt + 1, A => downStep t mu n (downLoop t mu n i0 cnt A) (i0 - 1 - cnt)

/-- The computed part of setParameters (Mu0Poly.cpp:60-99); the vectors start as zeros. -/
noncomputable def build (t mu : Nat → ℝ) (n i0 : Nat) (H298 : ℝ) : Arr :=
  let A := upLoop t mu i0 (n - i0) (seed t mu H298 i0 ⟨fun _ => 0, fun _ => 0, fun _ => 0⟩)
  if i0 ≠ 0 then downLoop t mu n i0 i0 (seed t mu H298 i0 A) else A

/-- The search loop of updateProperties (Mu0Poly.cpp:105-113) from interval `i` with `k` intervals
left. -/
noncomputable def find (t : Nat → ℝ) (T : ℝ) : Nat → Nat → Nat
  | i, 0 => i
  | i, k + 1 => if T ≤ t (i + 1) then i else find t T (i + 1) k

/-- Mu0Poly::updateProperties (Mu0Poly.cpp:102-119) -/
noncomputable def props (t : Nat → ℝ) (n : Nat) (A : Arr) (T : ℝ) : Props :=
  let j := find t T 0 n
  { cp := A.cp j
    h := (A.h j + (T - t j) * A.cp j) / T
    s := A.s j + A.cp j * Real.log (T / t j) }

/-! ### setParameters as a call on an existing object -/

/-- The data vectors of an object: `m_t0_int` and `m_mu0_R_int`. -/
structure Obj where
  t : List ℝ
  mu : List ℝ

open Classical in
/-- Mu0Poly::setParameters (Mu0Poly.cpp:36-100) for a table given in the order of its map.  The data
are appended to the vectors of the object; the vectors of results have `nPoints` entries and are
indexed with the position of 298.15 K in the *whole* data vector: beyond their end this is undefined
behaviour. -/
noncomputable def setParameters (o : Obj) (h0R : ℝ) (tab : List (ℝ × ℝ)) : Outcome (Obj × Arr) :=
  if tab.length < 2 then .throw
  else
    match tab.findIdx? (fun e => decide (e.1 = 29815 / 100)) with
    | none => .throw
    | some k =>
      let o' : Obj := ⟨o.t ++ tab.map Prod.fst, o.mu ++ tab.map Prod.snd⟩
      let i0 := o.t.length + k
      if i0 < tab.length then
        .ok (o', build (fun i => o'.t.getD i 0) (fun i => o'.mu.getD i 0) (tab.length - 1) i0 h0R)
      else .ub

/-! ### Lemmas -/

/-- A table: positive, strictly increasing temperatures. -/
structure Table (t : Nat → ℝ) (n : Nat) : Prop where
  pos : ∀ i, i ≤ n → 0 < t i
  inc : ∀ i, i < n → t i < t (i + 1)

theorem up_denom {a b : ℝ} (ha : 0 < a) (hab : a < b) : b - a - b * Real.log (b / a) ≠ 0 := by
  have hb : 0 < b := ha.trans hab
  have h1 : Real.log (a / b) < a / b - 1 :=
    Real.log_lt_sub_one_of_pos (div_pos ha hb) (by
      intro h; rw [div_eq_one_iff_eq hb.ne'] at h; exact hab.ne h)
  have h2 : Real.log (b / a) = -Real.log (a / b) := by
    rw [← Real.log_inv, inv_div]
  have h3 : b * (a / b - 1) = a - b := by field_simp
  rw [h2]
  have := mul_lt_mul_of_pos_left h1 hb
  rw [h3] at this
  have e : b * -Real.log (a / b) = -(b * Real.log (a / b)) := by ring
  rw [e]
  intro h
  linarith

theorem down_denom {a b : ℝ} (ha : 0 < a) (hab : a < b) : b - a - a * Real.log (b / a) ≠ 0 := by
  have hb : 0 < b := ha.trans hab
  have h1 : Real.log (b / a) < b / a - 1 :=
    Real.log_lt_sub_one_of_pos (div_pos hb ha) (by
      intro h; rw [div_eq_one_iff_eq ha.ne'] at h; exact hab.ne' h)
  have h3 : a * (b / a - 1) = b - a := by field_simp
  have := mul_lt_mul_of_pos_left h1 ha
  rw [h3] at this
  intro h
  linarith

/-- What must hold of the arrays on the points `lo … hi`. -/
structure Good (t mu : Nat → ℝ) (A : Arr) (lo hi : Nat) : Prop where
  mu : ∀ j, lo ≤ j → j ≤ hi → A.h j - t j * A.s j = mu j
  h : ∀ j, lo ≤ j → j < hi → A.h (j + 1) = A.h j + A.cp j * (t (j + 1) - t j)
  s : ∀ j, lo ≤ j → j < hi → A.s (j + 1) = A.s j + A.cp j * Real.log (t (j + 1) / t j)
  last : lo < hi → A.cp hi = A.cp (hi - 1)

theorem good_up {t mu : Nat → ℝ} {n : Nat} (ht : Table t n) {A : Arr} {lo hi : Nat} (hlo : lo ≤ hi)
    (hn : hi < n) (h : Good t mu A lo hi) : Good t mu (upStep t mu A hi) lo (hi + 1) := by
  have hd := up_denom (ht.pos hi hn.le) (ht.inc hi hn)
  have hm := h.mu hi hlo le_rfl
  have key : ∀ c : ℝ, c = (mu (hi + 1) - mu hi - t hi * A.s hi + t (hi + 1) * A.s hi) /
      (t (hi + 1) - t hi - t (hi + 1) * Real.log (t (hi + 1) / t hi)) →
      A.h hi + c * (t (hi + 1) - t hi) - t (hi + 1) * (A.s hi + c * Real.log (t (hi + 1) / t hi))
        = mu (hi + 1) := by
    intro c hc
    rw [eq_div_iff hd] at hc
    linear_combination hc + hm
  refine ⟨?_, ?_, ?_, ?_⟩
  · intro j h1 h2
    by_cases hj : j = hi + 1
    · subst hj
      simp only [upStep, upd, if_true]
      exact key _ rfl
    · simp only [upStep, upd, hj, if_false]
      exact h.mu j h1 (by omega)
  · intro j h1 h2
    by_cases hj : j = hi
    · subst hj
      simp [upStep, upd]
    · have a : j + 1 ≠ hi + 1 := by omega
      have b : j ≠ hi + 1 := by omega
      simp only [upStep, upd, hj, a, b, if_false]
      exact h.h j h1 (by omega)
  · intro j h1 h2
    by_cases hj : j = hi
    · subst hj
      simp [upStep, upd]
    · have a : j + 1 ≠ hi + 1 := by omega
      have b : j ≠ hi + 1 := by omega
      simp only [upStep, upd, hj, a, b, if_false]
      exact h.s j h1 (by omega)
  · intro _
    simp [upStep, upd]

theorem good_down {t mu : Nat → ℝ} {n : Nat} (ht : Table t n) {A : Arr} {lo : Nat}
    (hn : lo + 1 ≤ n) (h : Good t mu A (lo + 1) n) :
    Good t mu (downStep t mu n A lo) lo n := by
  have hd := down_denom (ht.pos lo (by omega)) (ht.inc lo (by omega))
  have hm := h.mu (lo + 1) le_rfl hn
  have key : ∀ c : ℝ, c = (mu (lo + 1) - mu lo - t lo * A.s (lo + 1) + t (lo + 1) * A.s (lo + 1)) /
      (t (lo + 1) - t lo - t lo * Real.log (t (lo + 1) / t lo)) →
      A.h (lo + 1) - c * (t (lo + 1) - t lo) -
        t lo * (A.s (lo + 1) - c * Real.log (t (lo + 1) / t lo)) = mu lo := by
    intro c hc
    rw [eq_div_iff hd] at hc
    linear_combination hm - hc
  refine ⟨?_, ?_, ?_, ?_⟩
  · intro j h1 h2
    by_cases hj : j = lo
    · subst hj
      simp only [downStep, upd, if_true]
      exact key _ rfl
    · simp only [downStep, upd, hj, if_false]
      exact h.mu j (by omega) h2
  · intro j h1 h2
    by_cases hj : j = lo
    · subst hj
      simp only [downStep]
      split_ifs <;> simp [upd]
    · have a : j + 1 ≠ lo := by omega
      simp only [downStep, upd, hj, a, if_false]
      rw [h.h j (by omega) h2]
      split_ifs with hc
      · omega
      · simp only [upd, hj, if_false]
  · intro j h1 h2
    by_cases hj : j = lo
    · subst hj
      simp only [downStep]
      split_ifs <;> simp [upd]
    · have a : j + 1 ≠ lo := by omega
      simp only [downStep, upd, hj, a, if_false]
      rw [h.s j (by omega) h2]
      split_ifs with hc
      · omega
      · simp only [upd, hj, if_false]
  · intro _
    simp only [downStep]
    split_ifs with hc
    · have : n - 1 = lo := by omega
      simp [upd, ← hc]
    · have a : n ≠ lo := by omega
      have b : n - 1 ≠ lo := by omega
      simp only [upd, a, b, if_false]
      exact h.last (by omega)

theorem upLoop_good {t mu : Nat → ℝ} {n : Nat} (ht : Table t n) {i0 : Nat} {A : Arr}
    (h : Good t mu A i0 i0) : ∀ cnt, i0 + cnt ≤ n →
      Good t mu (upLoop t mu i0 cnt A) i0 (i0 + cnt) ∧ (upLoop t mu i0 cnt A).h i0 = A.h i0 ∧
      (upLoop t mu i0 cnt A).s i0 = A.s i0 := by
  intro cnt
  induction cnt with
  | zero => intro _; exact ⟨h, rfl, rfl⟩
  | succ cnt ih =>
    intro hc
    obtain ⟨h1, h2, h3⟩ := ih (by omega)
    refine ⟨good_up ht (by omega) (by omega) h1, ?_, ?_⟩
    · simp only [upLoop, upStep, upd, show i0 ≠ i0 + cnt + 1 by omega, if_false]; exact h2
    · simp only [upLoop, upStep, upd, show i0 ≠ i0 + cnt + 1 by omega, if_false]; exact h3

theorem downLoop_good {t mu : Nat → ℝ} {n : Nat} (ht : Table t n) {i0 : Nat} (hi : i0 ≤ n) {A : Arr}
    (h : Good t mu A i0 n) : ∀ cnt, cnt ≤ i0 →
      Good t mu (downLoop t mu n i0 cnt A) (i0 - cnt) n ∧ (downLoop t mu n i0 cnt A).h i0 = A.h i0 := by
  intro cnt
  induction cnt with
  | zero => intro _; exact ⟨h, rfl⟩
  | succ cnt ih =>
    intro hc
    obtain ⟨h1, h2⟩ := ih (by omega)
    have e : i0 - cnt = i0 - 1 - cnt + 1 := by omega
    rw [e] at h1
    refine ⟨?_, ?_⟩
    · have := good_down ht (by omega) h1
      have e2 : i0 - (cnt + 1) = i0 - 1 - cnt := by omega
      rw [e2]; exact this
    · simp only [downLoop, downStep, upd, show i0 ≠ i0 - 1 - cnt by omega, if_false]; exact h2

theorem build_good {t mu : Nat → ℝ} {n i0 : Nat} (ht : Table t n) (hi : i0 ≤ n) (H298 : ℝ) :
    Good t mu (build t mu n i0 H298) 0 n ∧ (build t mu n i0 H298).h i0 = H298 := by
  have hp := ht.pos i0 hi
  have hseed : Good t mu (seed t mu H298 i0 ⟨fun _ => 0, fun _ => 0, fun _ => 0⟩) i0 i0 := by
    refine ⟨fun j h1 h2 => ?_, fun j h1 h2 => by omega, fun j h1 h2 => by omega, fun h => by omega⟩
    have : j = i0 := by omega
    subst this
    simp only [seed, upd, if_true]
    field_simp; ring
  obtain ⟨g1, g2, g3⟩ := upLoop_good ht hseed (n - i0) (by omega)
  have hn : i0 + (n - i0) = n := by omega
  rw [hn] at g1
  simp only [seed, upd, if_true] at g2 g3
  unfold build
  generalize hU : upLoop t mu i0 (n - i0) (seed t mu H298 i0 ⟨fun _ => 0, fun _ => 0, fun _ => 0⟩) = U
    at g1
  have g2' : U.h i0 = H298 := by rw [← hU]; exact g2
  have g3' : U.s i0 = -(mu i0 - H298) / t i0 := by rw [← hU]; exact g3
  have e : seed t mu H298 i0 U = U := by
    have a : upd U.h i0 H298 = U.h := by
      funext k; unfold upd; split_ifs with hk
      · rw [hk]; exact g2'.symm
      · rfl
    have b : upd U.s i0 (-(mu i0 - H298) / t i0) = U.s := by
      funext k; unfold upd; split_ifs with hk
      · rw [hk]; exact g3'.symm
      · rfl
    unfold seed
    rw [a, b]
  simp only [e]
  split_ifs with h0
  · obtain ⟨d1, d2⟩ := downLoop_good ht hi g1 i0 le_rfl
    rw [Nat.sub_self] at d1
    exact ⟨d1, d2.trans g2'⟩
  · push Not at h0
    subst h0
    exact ⟨g1, g2'⟩

theorem find_spec (t : Nat → ℝ) (T : ℝ) (i k : Nat) :
    i ≤ find t T i k ∧ find t T i k ≤ i + k ∧
    (∀ j, i ≤ j → j < find t T i k → t (j + 1) < T) ∧
    (find t T i k < i + k → T ≤ t (find t T i k + 1)) := by
  induction k generalizing i with
  | zero => exact ⟨le_rfl, le_rfl, fun j h1 h2 => by simp [find] at h2; omega, fun h => by simp [find] at h⟩
  | succ k ih =>
    unfold find
    split_ifs with h
    · exact ⟨le_rfl, by omega, fun j h1 h2 => by omega, fun _ => h⟩
    · obtain ⟨a, b, c, d⟩ := ih (i + 1)
      refine ⟨by omega, by omega, fun j h1 h2 => ?_, fun hh => d (by omega)⟩
      by_cases hj : j = i
      · subst hj; exact not_le.mp h
      · exact c j (by omega) h2

theorem table_mono {t : Nat → ℝ} {n : Nat} (ht : Table t n) {i j : Nat} (hij : i < j) (hj : j ≤ n) :
    t i < t j := by
  induction j with
  | zero => omega
  | succ j ih =>
    rcases Nat.lt_or_ge i j with h | h
    · exact (ih h (by omega)).trans (ht.inc j (by omega))
    · have : i = j := by omega
      subst this; exact ht.inc i (by omega)

/-- The interval used for a temperature. -/
theorem find_eq {t : Nat → ℝ} {n : Nat} (ht : Table t n) {T : ℝ} {i : Nat} (hi : i ≤ n)
    (h1 : i = 0 ∨ t i < T) (h2 : i = n ∨ T ≤ t (i + 1)) : find t T 0 n = i := by
  obtain ⟨_, b, c, d⟩ := find_spec t T 0 n
  rw [Nat.zero_add] at b d
  rcases Nat.lt_trichotomy (find t T 0 n) i with h | h | h
  · exfalso
    have hd := d (by omega)
    rcases h1 with h1 | h1
    · omega
    · by_cases he : find t T 0 n + 1 = i
      · rw [he] at hd; linarith
      · have := table_mono ht (show find t T 0 n + 1 < i by omega) hi
        linarith
  · exact h
  · exfalso
    have hc := c i (by omega) h
    rcases h2 with h2 | h2
    · omega
    · linarith

/-- Piece `i` of enthalpy and entropy. -/
noncomputable def pieceH (t : Nat → ℝ) (A : Arr) (i : Nat) (T : ℝ) : ℝ := A.h i + (T - t i) * A.cp i

/-- Entropy of piece `i`. -/
noncomputable def pieceS (t : Nat → ℝ) (A : Arr) (i : Nat) (T : ℝ) : ℝ :=
  A.s i + A.cp i * Real.log (T / t i)

/-- On the closed interval the properties are those of the piece, and beyond the ends those of the
first and the last piece. -/
theorem props_piece {t mu : Nat → ℝ} {n : Nat} (ht : Table t n) {A : Arr} (hA : Good t mu A 0 n)
    {T : ℝ} (hT : 0 < T) {i : Nat} (hi : i ≤ n) (h1 : i = 0 ∨ t i ≤ T) (h2 : i = n ∨ T ≤ t (i + 1)) :
    T * (props t n A T).h = pieceH t A i T ∧ (props t n A T).s = pieceS t A i T := by
  have hg : ∀ j, find t T 0 n = j →
      T * (props t n A T).h = pieceH t A j T ∧ (props t n A T).s = pieceS t A j T := by
    rintro j rfl
    refine ⟨?_, rfl⟩
    simp only [props, pieceH]
    field_simp
  by_cases he : i = 0 ∨ t i < T
  · exact hg i (find_eq ht hi he h2)
  · push Not at he
    have hTi : T = t i := le_antisymm he.2 (h1.resolve_left he.1)
    obtain ⟨k, rfl⟩ := Nat.exists_eq_succ_of_ne_zero he.1
    have hk : find t T 0 n = k := by
      refine find_eq ht (by omega) (Or.inr ?_) (Or.inr (by rw [hTi]))
      rw [hTi]; exact ht.inc k (by omega)
    obtain ⟨a, b⟩ := hg k hk
    rw [a, b, hTi]
    constructor
    · simp only [pieceH, Nat.succ_eq_add_one]
      rw [hA.h k (by omega) (by omega)]; ring
    · simp only [pieceS, Nat.succ_eq_add_one]
      rw [hA.s k (by omega) (by omega), div_self (ht.pos (k + 1) hi).ne', Real.log_one]; ring

theorem exists_piece {t : Nat → ℝ} (n : Nat) (T : ℝ) : ∃ i, i ≤ n ∧ (i = 0 ∨ t i < T) ∧
    (i = n ∨ T ≤ t (i + 1)) := by
  obtain ⟨_, b, c, d⟩ := find_spec t T 0 n
  rw [Nat.zero_add] at b d
  refine ⟨find t T 0 n, b, ?_, ?_⟩
  · rcases Nat.eq_zero_or_pos (find t T 0 n) with h | h
    · exact Or.inl h
    · right
      have := c (find t T 0 n - 1) (by omega) (by omega)
      rwa [show find t T 0 n - 1 + 1 = find t T 0 n by omega] at this
  · rcases Nat.lt_or_ge (find t T 0 n) n with h | h
    · exact Or.inr (d h)
    · exact Or.inl (by omega)

/-! ### Properties -/

/-- Every tabulated chemical potential is reproduced: `T_k (h/RT - s/R) = μ_k/R`; the enthalpy at the
298.15 K point is the given one. -/
theorem reproduces_data {t mu : Nat → ℝ} {n i0 : Nat} (ht : Table t n) (hi : i0 ≤ n) (H298 : ℝ)
    (k : Nat) (hk : k ≤ n) :
    t k * ((props t n (build t mu n i0 H298) (t k)).h - (props t n (build t mu n i0 H298) (t k)).s)
      = mu k ∧
    t i0 * (props t n (build t mu n i0 H298) (t i0)).h = H298 := by
  obtain ⟨hA, h0⟩ := build_good (mu := mu) ht hi H298
  have hnode : ∀ k, k ≤ n → t k * (props t n (build t mu n i0 H298) (t k)).h
        = (build t mu n i0 H298).h k ∧
      (props t n (build t mu n i0 H298) (t k)).s = (build t mu n i0 H298).s k := by
    intro k hk
    obtain ⟨a, b⟩ := props_piece ht hA (ht.pos k hk) hk (Or.inr le_rfl)
      (by rcases Nat.lt_or_ge k n with h | h
          · exact Or.inr (ht.inc k h).le
          · exact Or.inl (by omega))
    rw [a, b]
    simp only [pieceH, pieceS, sub_self, zero_mul, add_zero, div_self (ht.pos k hk).ne', Real.log_one,
      mul_zero, and_self]
  refine ⟨?_, ?_⟩
  · rw [mul_sub, (hnode k hk).1, (hnode k hk).2]
    exact hA.mu k (by omega) hk
  · rw [(hnode i0 hi).1, h0]

/-- Enthalpy and entropy are continuous at every positive temperature, in particular at the nodes. -/
theorem continuous_across {t mu : Nat → ℝ} {n i0 : Nat} (ht : Table t n) (hi : i0 ≤ n) (H298 T : ℝ)
    (hT : 0 < T) :
    ContinuousAt (fun x => x * (props t n (build t mu n i0 H298) x).h) T ∧
    ContinuousAt (fun x => (props t n (build t mu n i0 H298) x).s) T := by
  obtain ⟨hA, _⟩ := build_good (mu := mu) ht hi H298
  generalize build t mu n i0 H298 = A at hA ⊢
  have hcH : ∀ i, ContinuousAt (pieceH t A i) T := by
    intro i
    unfold pieceH
    exact (continuous_const.add ((continuous_id.sub continuous_const).mul continuous_const)).continuousAt
  have hcS : ∀ i, i ≤ n → ContinuousAt (pieceS t A i) T := by
    intro i hi
    unfold pieceS
    refine continuousAt_const.add (continuousAt_const.mul ?_)
    exact (continuousAt_id.div_const _).log (div_pos hT (ht.pos i hi)).ne'
  -- the piece to the left and to the right of T
  obtain ⟨i, hin, h1, h2⟩ := exists_piece (t := t) n T
  have hleft : ∀ᶠ x in nhds T, x ≤ T → (0 < x ∧ (i = 0 ∨ t i ≤ x) ∧ (i = n ∨ x ≤ t (i + 1))) := by
    have hpos : ∀ᶠ x in nhds T, 0 < x := lt_mem_nhds hT
    rcases h1 with h1 | h1
    · filter_upwards [hpos] with x hx hxT
      exact ⟨hx, Or.inl h1, h2.imp id (fun h => hxT.trans h)⟩
    · filter_upwards [hpos, lt_mem_nhds h1] with x hx hx2 hxT
      exact ⟨hx, Or.inr hx2.le, h2.imp id (fun h => hxT.trans h)⟩
  obtain ⟨j, hjn, hTj, hright⟩ : ∃ j, j ≤ n ∧ ((j = 0 ∨ t j ≤ T) ∧ (j = n ∨ T ≤ t (j + 1))) ∧
      ∀ᶠ x in nhds T, T ≤ x → (0 < x ∧ (j = 0 ∨ t j ≤ x) ∧ (j = n ∨ x ≤ t (j + 1))) := by
    have hpos : ∀ᶠ x in nhds T, 0 < x := lt_mem_nhds hT
    rcases h2 with h2 | h2
    · refine ⟨i, hin, ⟨h1.imp id le_of_lt, Or.inl h2⟩, ?_⟩
      filter_upwards [hpos] with x hx hxT
      exact ⟨hx, h1.imp id (fun h => h.le.trans hxT), Or.inl h2⟩
    · rcases Nat.eq_or_lt_of_le hin with hn | hn
      · refine ⟨i, hin, ⟨h1.imp id le_of_lt, Or.inl hn⟩, ?_⟩
        filter_upwards [hpos] with x hx hxT
        exact ⟨hx, h1.imp id (fun h => h.le.trans hxT), Or.inl hn⟩
      · rcases h2.lt_or_eq with h3 | h3
        · refine ⟨i, hin, ⟨h1.imp id le_of_lt, Or.inr h2⟩, ?_⟩
          filter_upwards [hpos, gt_mem_nhds h3] with x hx hx2 hxT
          exact ⟨hx, h1.imp id (fun h => h.le.trans hxT), Or.inr hx2.le⟩
        · rcases Nat.eq_or_lt_of_le (show i + 1 ≤ n from hn) with hn1 | hn1
          · refine ⟨i + 1, hn, ⟨Or.inr h3.ge, Or.inl hn1⟩, ?_⟩
            filter_upwards [hpos] with x hx hxT
            exact ⟨hx, Or.inr (h3.ge.trans hxT), Or.inl hn1⟩
          · have h4 : T < t (i + 1 + 1) := by rw [h3]; exact ht.inc _ hn1
            refine ⟨i + 1, hn, ⟨Or.inr h3.ge, Or.inr h4.le⟩, ?_⟩
            filter_upwards [hpos, gt_mem_nhds h4] with x hx hx2 hxT
            exact ⟨hx, Or.inr (h3.ge.trans hxT), Or.inr hx2.le⟩
  have hTi := hleft.self_of_nhds le_rfl
  have pT := props_piece ht hA hT hin hTi.2.1 hTi.2.2
  have qT := props_piece ht hA hT hjn hTj.1 hTj.2
  constructor
  · rw [continuousAt_iff_continuous_left_right]
    constructor
    · refine ((hcH i).continuousWithinAt).congr_of_eventuallyEq ?_ pT.1
      filter_upwards [mem_nhdsWithin_of_mem_nhds hleft, self_mem_nhdsWithin] with x hx hxT
      exact (props_piece ht hA (hx hxT).1 hin (hx hxT).2.1 (hx hxT).2.2).1
    · refine ((hcH j).continuousWithinAt).congr_of_eventuallyEq ?_ qT.1
      filter_upwards [mem_nhdsWithin_of_mem_nhds hright, self_mem_nhdsWithin] with x hx hxT
      exact (props_piece ht hA (hx hxT).1 hjn (hx hxT).2.1 (hx hxT).2.2).1
  · rw [continuousAt_iff_continuous_left_right]
    constructor
    · refine ((hcS i hin).continuousWithinAt).congr_of_eventuallyEq ?_ pT.2
      filter_upwards [mem_nhdsWithin_of_mem_nhds hleft, self_mem_nhdsWithin] with x hx hxT
      exact (props_piece ht hA (hx hxT).1 hin (hx hxT).2.1 (hx hxT).2.2).2
    · refine ((hcS j hjn).continuousWithinAt).congr_of_eventuallyEq ?_ qT.2
      filter_upwards [mem_nhdsWithin_of_mem_nhds hright, self_mem_nhdsWithin] with x hx hxT
      exact (props_piece ht hA (hx hxT).1 hjn (hx hxT).2.1 (hx hxT).2.2).2

/-- Away from the nodes cp is the derivative of the enthalpy and cp/T that of the entropy. -/
theorem mu0_consistent {t mu : Nat → ℝ} {n i0 : Nat} (ht : Table t n) (hi : i0 ≤ n) (H298 T : ℝ)
    (hT : 0 < T) (hne : ∀ k, 1 ≤ k → k ≤ n → T ≠ t k) :
    ConsistentAt (props t n (build t mu n i0 H298)) T := by
  obtain ⟨hA, _⟩ := build_good (mu := mu) ht hi H298
  generalize build t mu n i0 H298 = A at hA ⊢
  obtain ⟨i, hin, h1, h2⟩ := exists_piece (t := t) n T
  have hloc : ∀ᶠ x in nhds T, find t x 0 n = i ∧ 0 < x := by
    have hup : ∀ᶠ x in nhds T, i = n ∨ x ≤ t (i + 1) := by
      rcases Nat.eq_or_lt_of_le hin with hn | hn
      · exact Filter.Eventually.of_forall fun _ => Or.inl hn
      · have : T < t (i + 1) := lt_of_le_of_ne (h2.resolve_left hn.ne) (hne (i + 1) (by omega) hn)
        filter_upwards [gt_mem_nhds this] with x hx
        exact Or.inr hx.le
    have hdn : ∀ᶠ x in nhds T, i = 0 ∨ t i < x := by
      rcases h1 with h1 | h1
      · exact Filter.Eventually.of_forall fun _ => Or.inl h1
      · filter_upwards [lt_mem_nhds h1] with x hx
        exact Or.inr hx
    filter_upwards [hup, hdn, lt_mem_nhds hT] with x a b c
    exact ⟨find_eq ht hin b a, c⟩
  have hcp : (props t n A T).cp = A.cp i := by
    simp only [props, hloc.self_of_nhds.1]
  have hid := hasDerivAt_id T
  constructor
  · have h : HasDerivAt (pieceH t A i) (A.cp i) T := by
      have := ((hid.sub_const (t i)).mul_const (A.cp i)).const_add (A.h i)
      exact hd this (fun x => rfl) (by simp)
    rw [hcp]
    refine h.congr_of_eventuallyEq ?_
    filter_upwards [hloc] with x hx
    simp only [props, hx.1, pieceH]
    have := hx.2.ne'
    field_simp
  · have h : HasDerivAt (pieceS t A i) (A.cp i / T) T := by
      have hpos := ht.pos i hin
      have := (((hid.div_const (t i)).log (div_pos hT hpos).ne').const_mul (A.cp i)).const_add (A.s i)
      refine hd this (fun x => rfl) ?_
      simp only [id]
      field_simp
    rw [hcp]
    refine h.congr_of_eventuallyEq ?_
    filter_upwards [hloc] with x hx
    simp only [props, hx.1, pieceS]

/-- Above the last temperature the heat capacity is that of the last interval. -/
theorem beyond_last {t mu : Nat → ℝ} {n i0 : Nat} (ht : Table t n) (hi : i0 ≤ n) (hn : 0 < n)
    (H298 T T' : ℝ) (hT : t n < T) (h1 : t (n - 1) < T') (h2 : T' ≤ t n) :
    (props t n (build t mu n i0 H298) T).cp = (props t n (build t mu n i0 H298) T').cp := by
  obtain ⟨hA, _⟩ := build_good (mu := mu) ht hi H298
  have e1 : find t T 0 n = n := find_eq ht le_rfl (Or.inr hT) (Or.inl rfl)
  have e2 : find t T' 0 n = n - 1 := find_eq ht (by omega) (Or.inr h1)
    (Or.inr (by rwa [show n - 1 + 1 = n by omega]))
  simp only [props, e1, e2]
  exact hA.last hn

/-- A fresh object given an admissible table reproduces it. -/
theorem fresh_reproduces_partial (h0R : ℝ) (tab : List (ℝ × ℝ)) (o : Obj) (A : Arr)
    (hs : (tab.map Prod.fst).Pairwise (· < ·)) (hp : ∀ e ∈ tab, 0 < e.1)
    (h : setParameters ⟨[], []⟩ h0R tab = .ok (o, A)) :
    ∀ (k : Nat) (e : ℝ × ℝ), tab[k]? = some e →
      e.1 * ((props (fun i => o.t.getD i 0) (tab.length - 1) A e.1).h
        - (props (fun i => o.t.getD i 0) (tab.length - 1) A e.1).s) = e.2 ∧
      (e.1 = 29815 / 100 → e.1 * (props (fun i => o.t.getD i 0) (tab.length - 1) A e.1).h = h0R) := by
  unfold setParameters at h
  split_ifs at h with hlen
  cases hf : tab.findIdx? (fun e => decide (e.1 = 29815 / 100)) with
  | none => rw [hf] at h; simp at h
  | some i0 =>
    rw [hf] at h
    simp only [List.length_nil, Nat.zero_add, List.nil_append] at h
    split_ifs at h with hlt
    simp only [Outcome.ok.injEq, Prod.mk.injEq] at h
    obtain ⟨rfl, rfl⟩ := h
    have hget : ∀ i, i < tab.length → ∃ e, tab[i]? = some e ∧ (tab.map Prod.fst).getD i 0 = e.1 ∧
        (tab.map Prod.snd).getD i 0 = e.2 := by
      intro i hi
      exact ⟨tab[i], List.getElem?_eq_getElem hi, by simp [hi], by simp [hi]⟩
    have ht : Table (fun i => (tab.map Prod.fst).getD i 0) (tab.length - 1) := by
      constructor
      · intro i hi
        obtain ⟨e, h1, h2, _⟩ := hget i (by omega)
        simp only [h2]
        exact hp e (List.mem_of_getElem? h1)
      · intro i hi
        have := (List.pairwise_iff_getElem.mp hs) i (i + 1) (by simp; omega) (by simp; omega) (by omega)
        have a : i < tab.length := by omega
        have b : i + 1 < tab.length := by omega
        simp only [List.getElem_map] at this
        simp [a, b, this]
    intro k e hk
    have hkl := (List.getElem?_eq_some_iff.mp hk).1
    obtain ⟨e', h1, h2, h3⟩ := hget k hkl
    rw [hk] at h1
    simp only [Option.some.injEq] at h1
    subst h1
    obtain ⟨r1, r2⟩ := reproduces_data (mu := fun i => (tab.map Prod.snd).getD i 0) ht
      (show i0 ≤ tab.length - 1 by omega) h0R k (by omega)
    simp only [h2, h3] at r1
    refine ⟨r1, fun he => ?_⟩
    obtain ⟨e0, g1, g2, _⟩ := hget i0 hlt
    simp only [g2] at r2
    have h0 : e0.1 = 29815 / 100 := by
      rw [List.findIdx?_eq_some_iff_getElem] at hf
      obtain ⟨hl, hx, _⟩ := hf
      have : tab[i0] = e0 := by
        have := (List.getElem?_eq_some_iff.mp g1).2; exact this
      rw [this] at hx
      simpa using hx
    rw [he, ← h0]; exact r2

/-- **Finding.** `setParameters` appends to the data of the object: called again with a table that is
not longer than the data already present it writes outside its result vectors. -/
theorem second_call_ub (o : Obj) (h0R : ℝ) (tab : List (ℝ × ℝ)) (h2 : 2 ≤ tab.length)
    (h298 : ∃ e ∈ tab, e.1 = 29815 / 100) (hlen : tab.length ≤ o.t.length) :
    setParameters o h0R tab = .ub := by
  unfold setParameters
  rw [if_neg (by omega)]
  cases hf : tab.findIdx? (fun e => decide (e.1 = 29815 / 100)) with
  | none =>
    rw [List.findIdx?_eq_none_iff] at hf
    obtain ⟨e, he, h⟩ := h298
    have := hf e he
    simp [h] at this
  | some k =>
    simp only
    rw [if_neg (by omega)]

/-! ### Examples -/

/-- Three points with the reference in the middle: both loops run. -/
example : Table (fun i => 29815 / 100 + 50 * (i : ℝ) - 50) 2 := by
  constructor
  · intro i hi
    have : (0 : ℝ) ≤ i := Nat.cast_nonneg i
    linarith
  · intro i hi
    push_cast; linarith

example : ∃ r, setParameters ⟨[], []⟩ 1 [(200, 5), (29815 / 100, 7)] = .ok r := by
  have hf : (List.findIdx? (fun e : ℝ × ℝ => decide (e.1 = 29815 / 100)) [(200, 5), (29815 / 100, 7)])
      = some 1 := by
    rw [List.findIdx?_cons]; norm_num
  unfold setParameters
  rw [if_neg (by simp), hf]
  simp only
  rw [if_pos (by simp)]
  exact ⟨_, rfl⟩

end Verif.Mu0
