import Verif.Basic
import Mathlib.Analysis.SpecialFunctions.Log.Base
import Mathlib.RingTheory.Polynomial.Chebyshev
import Mathlib.Tactic.Common
import Mathlib.Tactic.SplitIfs
import Mathlib.Tactic.Linarith
import Mathlib.Tactic.Ring
import Mathlib.Tactic.FieldSimp
import Mathlib.Tactic.NormNum

/-!
# C23: Chebyshev rates (ChebyshevRate.h:133-171, ChebyshevRate.cpp:96-124)

The comparison value `m_log10P` is `none` for NaN.  Only non-empty coefficient arrays are modelled
(`setData` replaces an empty one by a 1×1 array of NaN).  The data object is reduced to `recipT` and
`log10P`.
-/

namespace Verif.Cheb

open Verif Polynomial

/-- A coefficient array: rows, columns, entries. -/
structure Arr where
  m : Nat
  n : Nat
  v : Nat → Nat → ℝ

/-- The object (ChebyshevRate.h:222-229); `size` is the size of `dotProd_`. -/
structure Obj where
  logP : Option ℝ
  trNum : ℝ
  trDen : ℝ
  prNum : ℝ
  prDen : ℝ
  co : Arr
  dot : Nat → ℝ
  size : Nat

/-- setLimits (ChebyshevRate.cpp:96-112) -/
noncomputable def Obj.setLimits (o : Obj) (Tmin Tmax Pmin Pmax : ℝ) : Obj :=
  { o with
    trNum := -(1 / Tmin) - 1 / Tmax
    trDen := 1 / (1 / Tmax - 1 / Tmin)
    prNum := -Real.logb 10 Pmin - Real.logb 10 Pmax
    prDen := 1 / (Real.logb 10 Pmax - Real.logb 10 Pmin) }

/-- setData (ChebyshevRate.cpp:114-124); `resize` keeps the first entries and appends zeros. -/
noncomputable def Obj.setData (o : Obj) (c : Arr) : Obj :=
  { o with
    co := c
    dot := fun i => if i < o.size then o.dot i else 0
    size := c.m }

/-- One pass of the loop over columns (ChebyshevRate.h:143-150); state: Cnm1, Cn, dotProd_. -/
noncomputable def colStep (Pr : ℝ) (c : Arr) (s : ℝ × ℝ × (Nat → ℝ)) (j : Nat) : ℝ × ℝ × (Nat → ℝ) :=
  (s.2.1, 2 * Pr * s.2.1 - s.1,
    fun i => if i < c.m then s.2.2 i + (2 * Pr * s.2.1 - s.1) * c.v i j else s.2.2 i)

/-- The new `dotProd_` (ChebyshevRate.h:136-150). -/
noncomputable def newDot (Pr : ℝ) (c : Arr) (dot : Nat → ℝ) : Nat → ℝ :=
  ((List.range' 1 (c.n - 1)).foldl (colStep Pr c)
    (Pr, 1, fun i => if i < c.m then c.v i 0 else dot i)).2.2

/-- updateFromStruct (ChebyshevRate.h:133-152) -/
noncomputable def Obj.update (o : Obj) (log10P : ℝ) : Obj :=
  if some log10P ≠ o.logP then
    { o with
      logP := some log10P
      dot := newDot ((2 * log10P + o.prNum) * o.prDen) o.co o.dot }
  else o

/-- One pass of the loop over rows (ChebyshevRate.h:164-169); state: Cnm1, Cn, logk. -/
noncomputable def rowStep (Tr : ℝ) (dot : Nat → ℝ) (s : ℝ × ℝ × ℝ) (i : Nat) : ℝ × ℝ × ℝ :=
  (s.2.1, 2 * Tr * s.2.1 - s.1, s.2.2 + (2 * Tr * s.2.1 - s.1) * dot i)

/-- The exponent of evalFromStruct. -/
noncomputable def Obj.logk (o : Obj) (recipT : ℝ) : ℝ :=
  ((List.range' 1 (o.co.m - 1)).foldl (rowStep ((2 * recipT + o.trNum) * o.trDen) o.dot)
    ((2 * recipT + o.trNum) * o.trDen, 1, o.dot 0)).2.2

/-- evalFromStruct (ChebyshevRate.h:158-171) -/
noncomputable def Obj.eval (o : Obj) (recipT : ℝ) : ℝ := (10 : ℝ) ^ o.logk recipT

/-! ### Specification -/

/-- Reduced temperature of the documentation (ChebyshevRate.h:72-73). -/
noncomputable def redT (Tmin Tmax T : ℝ) : ℝ := (2 * T⁻¹ - Tmin⁻¹ - Tmax⁻¹) / (Tmax⁻¹ - Tmin⁻¹)

/-- Reduced pressure of the documentation (ChebyshevRate.h:76-77). -/
noncomputable def redP (Pmin Pmax P : ℝ) : ℝ :=
  (2 * Real.logb 10 P - Real.logb 10 Pmin - Real.logb 10 Pmax) /
    (Real.logb 10 Pmax - Real.logb 10 Pmin)

/-- The double Chebyshev series. -/
noncomputable def series (c : Arr) (t p : ℝ) : ℝ :=
  ∑ i ∈ Finset.range c.m, ∑ j ∈ Finset.range c.n,
    c.v i j * (Chebyshev.T ℝ (i : ℤ)).eval t * (Chebyshev.T ℝ (j : ℤ)).eval p

theorem cheb_step (x : ℝ) (k : ℤ) :
    2 * x * (Chebyshev.T ℝ k).eval x - (Chebyshev.T ℝ (k - 1)).eval x = (Chebyshev.T ℝ (k + 1)).eval x := by
  have h := Chebyshev.T_add_two ℝ (k - 1)
  rw [show k - 1 + 2 = k + 1 by ring, show k - 1 + 1 = k by ring] at h
  rw [h]; simp

/-- Generic recurrence: state after `n` steps. -/
theorem colFold (Pr : ℝ) (c : Arr) (d : Nat → ℝ) (n : Nat) :
    (List.range' 1 n).foldl (colStep Pr c) (Pr, 1, d) =
      ((Chebyshev.T ℝ ((n : ℤ) - 1)).eval Pr, (Chebyshev.T ℝ (n : ℤ)).eval Pr,
        fun i => if i < c.m then d i + ∑ j ∈ Finset.range n, c.v i (j + 1) * (Chebyshev.T ℝ ((j : ℤ) + 1)).eval Pr
          else d i) := by
  induction n with
  | zero =>
    simp [Chebyshev.T_neg]
  | succ n ih =>
    rw [List.range'_concat, List.foldl_append, ih]
    simp only [List.foldl_cons, List.foldl_nil, colStep]
    rw [cheb_step]
    refine Prod.ext ?_ (Prod.ext ?_ ?_)
    · simp
    · simp
    · funext i
      simp only
      split_ifs with hi
      · rw [Finset.sum_range_succ, show 1 + 1 * n = n + 1 by ring]; ring
      · rfl

theorem newDot_spec (Pr : ℝ) (c : Arr) (d : Nat → ℝ) (hn : 0 < c.n) (i : Nat) (hi : i < c.m) :
    newDot Pr c d i = ∑ j ∈ Finset.range c.n, c.v i j * (Chebyshev.T ℝ (j : ℤ)).eval Pr := by
  unfold newDot
  rw [colFold]
  simp only [if_pos hi]
  obtain ⟨n, hn'⟩ : ∃ n, c.n = n + 1 := ⟨c.n - 1, by omega⟩
  rw [hn', Finset.sum_range_succ']
  simp [add_comm]

theorem rowFold (Tr : ℝ) (d : Nat → ℝ) (n : Nat) :
    (List.range' 1 n).foldl (rowStep Tr d) (Tr, 1, d 0) =
      ((Chebyshev.T ℝ ((n : ℤ) - 1)).eval Tr, (Chebyshev.T ℝ (n : ℤ)).eval Tr,
        ∑ i ∈ Finset.range (n + 1), (Chebyshev.T ℝ (i : ℤ)).eval Tr * d i) := by
  induction n with
  | zero => simp [Chebyshev.T_neg]
  | succ n ih =>
    rw [List.range'_concat, List.foldl_append, ih]
    simp only [List.foldl_cons, List.foldl_nil, rowStep]
    rw [cheb_step]
    refine Prod.ext ?_ (Prod.ext ?_ ?_)
    · simp
    · simp
    · simp only
      rw [Finset.sum_range_succ (fun i => (Chebyshev.T ℝ (i : ℤ)).eval Tr * d i) (n + 1),
        show 1 + 1 * n = n + 1 by ring]
      push_cast; rfl

/-- The stored dot products belong to the current array, limits and stored pressure. -/
def Obj.Good (o : Obj) : Prop :=
  ∀ p, o.logP = some p → ∀ i < o.co.m, o.dot i =
    ∑ j ∈ Finset.range o.co.n, o.co.v i j * (Chebyshev.T ℝ (j : ℤ)).eval ((2 * p + o.prNum) * o.prDen)

theorem logk_of_good (o : Obj) (h : o.Good) {p : ℝ} (hp : o.logP = some p) (hm : 0 < o.co.m) (r : ℝ) :
    o.logk r = series o.co ((2 * r + o.trNum) * o.trDen) ((2 * p + o.prNum) * o.prDen) := by
  unfold Obj.logk series
  rw [rowFold, show o.co.m - 1 + 1 = o.co.m by omega]
  simp only
  refine Finset.sum_congr rfl fun i hi => ?_
  rw [h p hp i (Finset.mem_range.mp hi), Finset.mul_sum]
  exact Finset.sum_congr rfl fun j _ => by ring

theorem update_good (o : Obj) (hn : 0 < o.co.n) (p : ℝ) (h : o.Good ∨ o.logP ≠ some p) :
    (o.update p).Good ∧ (o.update p).logP = some p ∧ (o.update p).co = o.co ∧
      (o.update p).trNum = o.trNum ∧ (o.update p).trDen = o.trDen ∧
      (o.update p).prNum = o.prNum ∧ (o.update p).prDen = o.prDen := by
  unfold Obj.update
  by_cases hp : some p ≠ o.logP
  · rw [if_pos hp]
    refine ⟨?_, rfl, rfl, rfl, rfl, rfl, rfl⟩
    intro q hq i hi
    simp only [Option.some.injEq] at hq
    subst hq
    exact newDot_spec _ _ _ hn i hi
  · rw [if_neg hp]
    rw [not_not] at hp
    refine ⟨h.resolve_right (fun hh => hh hp.symm), hp.symm, rfl, rfl, rfl, rfl, rfl⟩

/-- The reduced variables of the code are those of the documentation. -/
theorem reduced_vars (o : Obj) (Tmin Tmax Pmin Pmax T P : ℝ) :
    (2 * (1 / T) + (o.setLimits Tmin Tmax Pmin Pmax).trNum) * (o.setLimits Tmin Tmax Pmin Pmax).trDen
      = redT Tmin Tmax T ∧
    (2 * Real.logb 10 P + (o.setLimits Tmin Tmax Pmin Pmax).prNum) * (o.setLimits Tmin Tmax Pmin Pmax).prDen
      = redP Pmin Pmax P := by
  unfold Obj.setLimits redT redP
  simp only [one_div]
  constructor
  · rw [div_eq_mul_inv]; congr 1; ring
  · rw [div_eq_mul_inv]; congr 1; ring

/-- The limits are mapped onto −1 and 1, and values between them into [−1, 1]. -/
theorem reduced_limits {Tmin Tmax Pmin Pmax : ℝ} (hT : 0 < Tmin) (hT2 : Tmin < Tmax) (hP : 0 < Pmin)
    (hP2 : Pmin < Pmax) :
    redT Tmin Tmax Tmin = -1 ∧ redT Tmin Tmax Tmax = 1 ∧ redP Pmin Pmax Pmin = -1 ∧
      redP Pmin Pmax Pmax = 1 ∧
      (∀ T, Tmin ≤ T → T ≤ Tmax → -1 ≤ redT Tmin Tmax T ∧ redT Tmin Tmax T ≤ 1) ∧
      (∀ P, Pmin ≤ P → P ≤ Pmax → -1 ≤ redP Pmin Pmax P ∧ redP Pmin Pmax P ≤ 1) := by
  have hd : Tmax⁻¹ - Tmin⁻¹ < 0 := by
    have := inv_strictAnti₀ hT hT2; linarith
  have hpd : 0 < Real.logb 10 Pmax - Real.logb 10 Pmin := by
    have := Real.logb_lt_logb (b := 10) (by norm_num) hP hP2; linarith
  unfold redT redP
  refine ⟨?_, ?_, ?_, ?_, ?_, ?_⟩
  · rw [div_eq_iff hd.ne]; ring
  · rw [div_eq_iff hd.ne]; ring
  · rw [div_eq_iff hpd.ne']; ring
  · rw [div_eq_iff hpd.ne']; ring
  · intro T h1 h2
    have i1 : T⁻¹ ≤ Tmin⁻¹ := inv_anti₀ hT h1
    have i2 : Tmax⁻¹ ≤ T⁻¹ := inv_anti₀ (by linarith) h2
    constructor
    · rw [le_div_iff_of_neg hd]; linarith
    · rw [div_le_iff_of_neg hd]; linarith
  · intro P h1 h2
    have i1 : Real.logb 10 Pmin ≤ Real.logb 10 P := Real.logb_le_logb_of_le (by norm_num) hP h1
    have i2 : Real.logb 10 P ≤ Real.logb 10 Pmax := Real.logb_le_logb_of_le (by norm_num) (by linarith) h2
    constructor
    · rw [le_div_iff₀ hpd]; linarith
    · rw [div_le_iff₀ hpd]; linarith

/-- A configured object: default construction, `setLimits`, `setData`. -/
noncomputable def configured (o : Obj) (Tmin Tmax Pmin Pmax : ℝ) (c : Arr) : Obj :=
  (({ o with logP := none }).setLimits Tmin Tmax Pmin Pmax).setData c

/-- For every coefficient array, all limits and any history of pressures evaluated before, the rate is
ten to the power of the double Chebyshev series in the reduced variables. -/
theorem eval_series_partial (o : Obj) (Tmin Tmax Pmin Pmax : ℝ) (c : Arr) (hm : 0 < c.m) (hn : 0 < c.n)
    (hist : List ℝ) (T P : ℝ) :
    ((hist.foldl Obj.update (configured o Tmin Tmax Pmin Pmax c)).update (Real.logb 10 P)).eval (1 / T)
      = (10 : ℝ) ^ series c (redT Tmin Tmax T) (redP Pmin Pmax P) := by
  have key : ∀ (hist : List ℝ) (a : Obj), a.Good → a.co = c →
      a.trNum = (o.setLimits Tmin Tmax Pmin Pmax).trNum → a.trDen = (o.setLimits Tmin Tmax Pmin Pmax).trDen →
      a.prNum = (o.setLimits Tmin Tmax Pmin Pmax).prNum → a.prDen = (o.setLimits Tmin Tmax Pmin Pmax).prDen →
      ((hist.foldl Obj.update a).update (Real.logb 10 P)).eval (1 / T)
      = (10 : ℝ) ^ series c (redT Tmin Tmax T) (redP Pmin Pmax P) := by
    intro hist
    induction hist with
    | nil =>
      intro a hg hc h1 h2 h3 h4
      obtain ⟨g1, g2, g3, g4, g5, g6, g7⟩ := update_good a (by rw [hc]; exact hn) (Real.logb 10 P) (Or.inl hg)
      simp only [List.foldl_nil, Obj.eval]
      rw [logk_of_good _ g1 g2 (by rw [g3, hc]; exact hm), g3, g4, g5, g6, g7, hc, h1, h2, h3, h4,
        (reduced_vars o Tmin Tmax Pmin Pmax T P).1, (reduced_vars o Tmin Tmax Pmin Pmax T P).2]
    | cons p hist ih =>
      intro a hg hc h1 h2 h3 h4
      obtain ⟨g1, g2, g3, g4, g5, g6, g7⟩ := update_good a (by rw [hc]; exact hn) p (Or.inl hg)
      exact ih _ g1 (by rw [g3, hc]) (by rw [g4, h1]) (by rw [g5, h2]) (by rw [g6, h3]) (by rw [g7, h4])
  refine key hist _ ?_ rfl rfl rfl rfl rfl
  intro p hp
  simp [configured, Obj.setData, Obj.setLimits] at hp

/-- Operations of an object. -/
inductive Op where
  | limits (Tmin Tmax Pmin Pmax : ℝ)
  | data (c : Arr)
  | update (p : ℝ)

/-- Semantics of an operation. -/
noncomputable def Op.run (o : Obj) : Op → Obj
  | .limits a b c d => o.setLimits a b c d
  | .data c => o.setData c
  | .update p => o.update p

/-- After an arbitrary history (including new data and new limits) evaluation at a pressure other than
the one stored gives the series for the current data and limits. -/
theorem eval_after_change_partial (o : Obj) (ops : List Op) (p r : ℝ)
    (hne : (ops.foldl Op.run o).logP ≠ some p)
    (hm : 0 < (ops.foldl Op.run o).co.m) (hn : 0 < (ops.foldl Op.run o).co.n) :
    ((ops.foldl Op.run o).update p).logk r = series (ops.foldl Op.run o).co
      ((2 * r + (ops.foldl Op.run o).trNum) * (ops.foldl Op.run o).trDen)
      ((2 * p + (ops.foldl Op.run o).prNum) * (ops.foldl Op.run o).prDen) := by
  generalize ops.foldl Op.run o = a at *
  obtain ⟨g1, g2, g3, g4, g5, g6, g7⟩ := update_good a hn p (Or.inr hne)
  rw [logk_of_good _ g1 g2 (by rw [g3]; exact hm), g3, g4, g5, g6, g7]

/-- **Finding.** New coefficients are ignored while the pressure stays the same: the value after
`setData` at an unchanged pressure is that of the old coefficients. -/
theorem stale_data (o : Obj) (a b p r : ℝ) :
    ((((o.setData ⟨1, 1, fun _ _ => a⟩).update p).setData ⟨1, 1, fun _ _ => b⟩).update p).logk r =
      ((o.setData ⟨1, 1, fun _ _ => a⟩).update p).logk r := by
  have h : ∀ q : Obj, q.logP = some p → q.update p = q := by
    intro q hq; unfold Obj.update; rw [if_neg (by rw [hq]; simp)]
  have h1 : ((o.setData ⟨1, 1, fun _ _ => a⟩).update p).logP = some p := by
    unfold Obj.update
    split_ifs with hh
    · rfl
    · rw [not_not] at hh; exact hh.symm
  rw [h _ (by simpa [Obj.setData] using h1)]
  have hs : ((o.setData ⟨1, 1, fun _ _ => a⟩).update p).size = 1 := by
    unfold Obj.update; split_ifs <;> rfl
  have hc : ((o.setData ⟨1, 1, fun _ _ => a⟩).update p).co.m = 1 := by
    unfold Obj.update; split_ifs <;> rfl
  unfold Obj.logk
  rw [hc]
  generalize (o.setData ⟨1, 1, fun _ _ => a⟩).update p = q at *
  simp [Obj.setData, hs]

/-- … which is not the series of the new coefficients. -/
theorem stale_data_wrong (o : Obj) (h0 : o.logP = none) (r : ℝ) :
    ((((o.setData ⟨1, 1, fun _ _ => 1⟩).update 5).setData ⟨1, 1, fun _ _ => 2⟩).update 5).logk r = 1 ∧
    ((o.setData ⟨1, 1, fun _ _ => 2⟩).update 5).logk r = 2 := by
  refine ⟨?_, ?_⟩
  · rw [stale_data]
    unfold Obj.update
    rw [if_pos (by simp [Obj.setData, h0])]
    simp [Obj.logk, newDot, Obj.setData]
  · unfold Obj.update
    rw [if_pos (by simp [Obj.setData, h0])]
    simp [Obj.logk, newDot, Obj.setData]

/-- The same for new limits: they are ignored for the pressure dependence. -/
theorem stale_limits (o : Obj) (p : ℝ) (hp : o.logP = some p) (Tmin Tmax Pmin Pmax : ℝ) :
    ((o.setLimits Tmin Tmax Pmin Pmax).update p).dot = o.dot := by
  unfold Obj.update
  rw [if_neg (by simp [Obj.setLimits, hp])]
  rfl

/-- Non-vacuity of `eval_series_partial`: a 2×2 array whose series depends on both variables. -/
example (o : Obj) : ((configured o 1 2 10 100 ⟨2, 2, fun i j => (i : ℝ) * j⟩).update (Real.logb 10 100)).eval (1 / 2)
    = 10 := by
  have := eval_series_partial o 1 2 10 100 ⟨2, 2, fun i j => (i : ℝ) * j⟩ (by simp) (by simp) [] 2 100
  simp only [List.foldl_nil] at this
  rw [this, (reduced_limits (Pmin := 10) (Pmax := 100) (by norm_num) (by norm_num) (by norm_num) (by norm_num)).2.1,
    (reduced_limits (Tmin := 1) (Tmax := 2) (by norm_num) (by norm_num) (by norm_num) (by norm_num)).2.2.2.1]
  simp [series, Finset.sum_range_succ]

end Verif.Cheb
