import Verif.Rates.LinearBurke
import Mathlib.Algebra.BigOperators.Group.Finset.Basic
import Mathlib.Algebra.Order.BigOperators.Group.Finset
import Mathlib.Algebra.BigOperators.Group.List.Basic
import Mathlib.Data.List.Perm.Basic

/-!
# C86: properties of linear Burke rates
-/

namespace Verif.Burke

open Verif Outcome

/-! ## Evaluation -/

/-- A collider whose species exists and whose efficiencies are numbers. -/
structure Good where
  i : ℕ
  a1 : Arr
  a2 : Arr
  rate : Rate
  name : String := ""
  own : Bool := true

def Good.item (g : Good) : Item :=
  (some g.i, { name := g.name, e1 := some g.a1, e2 := some g.a2, rate := g.rate, own := g.own })

/-- The efficiency as a formula. -/
noncomputable def Good.w (d : TData) (g : Good) : ℝ :=
  g.a1.A * Real.exp (g.a1.b * d.logT - g.a1.E * d.recipT)

noncomputable def Good.w2 (d : TData) (g : Good) : ℝ :=
  g.a2.A * Real.exp (g.a2.b * d.logT - g.a2.E * d.recipT)

/-- Mole fraction of all species that are not colliders. -/
def rest (X : List ℝ) (gs : List Good) : ℝ := X.sum - (gs.map fun g => X.getD g.i 0).sum

/-- Efficiency of the mixture. -/
noncomputable def mix (d : TData) (X : List ℝ) (gs : List Good) : ℝ :=
  (gs.map fun g => X.getD g.i 0 * g.w d).sum + rest X gs

theorem moleFraction_some {X : List ℝ} {i : ℕ} (h : i < X.length) :
    moleFraction X (some i) = .ok (X.getD i 0) := by
  simp [moleFraction, vecGet, List.getD, h]

theorem mixLoop_good (d : TData) (X : List ℝ) (gs : List Good) (hi : ∀ g ∈ gs, g.i < X.length)
    (e s : ℝ) :
    mixLoop d X (gs.map Good.item) (some e, s) =
      .ok (some (e + (gs.map fun g => X.getD g.i 0 * g.w d).sum),
        s - (gs.map fun g => X.getD g.i 0).sum) := by
  induction gs generalizing e s with
  | nil => simp [mixLoop]
  | cons g gs ih =>
    have h1 := moleFraction_some (hi g (by simp))
    have ih' := ih (fun g hg => hi g (by simp [hg])) (e + X.getD g.i 0 * g.w d) (s - X.getD g.i 0)
    simp only [List.map_cons, mixLoop, Good.item, h1, bind_ok, Item.eps1, Option.map_some,
      List.sum_cons]
    simp only [Good.w, Arr.eval] at ih' ⊢
    rw [ih']
    congr 1
    refine Prod.ext ?_ ?_
    · simp only [Option.some.injEq]; ring
    · simp only; ring

theorem sumLoop_good (d : TData) (X : List ℝ) (logP E : ℝ) (hE : 0 < E) (gs : List Good)
    (hi : ∀ g ∈ gs, g.i < X.length) (h2 : ∀ g ∈ gs, 0 < g.w2 d) (s : ℝ) :
    sumLoop d X logP E (gs.map Good.item) (some s) =
      .ok (some (s + (gs.map fun g =>
        g.rate.k d (logP + Real.log E - Real.log (g.w2 d)) * g.w d * X.getD g.i 0 / E).sum)) := by
  induction gs generalizing s with
  | nil => simp [sumLoop]
  | cons g gs ih =>
    have h1 := moleFraction_some (hi g (by simp))
    have h2' : 0 < g.a2.A * Real.exp (g.a2.b * d.logT - g.a2.E * d.recipT) := h2 g (by simp)
    have ih' := fun s => ih (fun g hg => hi g (by simp [hg])) (fun g hg => h2 g (by simp [hg])) s
    simp only [List.map_cons, sumLoop, Good.item, h1, bind_ok, Item.eps1, Item.eps2, Option.map_some,
      List.sum_cons, Option.bind_some, logPeff, Arr.eval, if_pos (And.intro hE h2'), rateAt]
    rw [ih']
    simp only [Good.w, Good.w2]
    congr 2
    ring

/-- **Value of the rate.**  The rates of the colliders at their effective pressures and the rate of M
are weighted with the contributions to the efficiency of the mixture. -/
theorem eval_formula (d : TData) (X : List ℝ) (logP : ℝ) (rM : Rate) (gs : List Good)
    (hi : ∀ g ∈ gs, g.i < X.length) (h2 : ∀ g ∈ gs, 0 < g.w2 d) (hE : 0 < mix d X gs) :
    evalItems d X logP rM (gs.map Good.item) = .ok (some (
      (gs.map fun g => g.rate.k d (logP + Real.log (mix d X gs) - Real.log (g.w2 d)) * g.w d
          * X.getD g.i 0 / mix d X gs).sum
      + rM.k d (logP + Real.log (mix d X gs)) * rest X gs / mix d X gs)) := by
  unfold evalItems
  rw [mixLoop_good d X gs hi]
  simp only [bind_ok, Option.map_some, zero_add]
  change (if mix d X gs = 0 then _ else sumLoop d X logP (mix d X gs) _ _ >>= _) = _
  rw [if_neg hE.ne', sumLoop_good d X logP _ hE gs hi h2]
  have hl : logPeff logP (mix d X gs) 1 = some (logP + Real.log (mix d X gs)) := by
    unfold logPeff
    rw [if_pos ⟨hE, one_pos⟩, Real.log_one, sub_zero]
  change (match logPeff logP (mix d X gs) 1 with
    | some l => Outcome.ok (some (rM.k d l))
    | none => if rM.kind = Kind.plog then .ub else .ok none) >>= _ = _
  rw [hl]
  simp only [bind_ok, zero_add]
  rfl

/-- Two colliders, one with its own rate. -/
noncomputable def exRate (c : ℝ) (kd : Kind) : Rate := { kind := kd, k := fun _ l => c + Real.exp l }

noncomputable def exGs : List Good :=
  [{ i := 0, a1 := ⟨3, 0, 0⟩, a2 := ⟨3, 0, 0⟩, rate := exRate 2 .plog },
   { i := 2, a1 := ⟨5, 0, 0⟩, a2 := effM, rate := exRate 1 .troe }]

theorem exGs_ok (d : TData) : (∀ g ∈ exGs, g.i < [(1/2 : ℝ), 1/4, 1/4].length) ∧
    (∀ g ∈ exGs, 0 < g.w2 d) ∧ mix d [1/2, 1/4, 1/4] exGs = 3 := by
  refine ⟨by simp [exGs], by simp [exGs, Good.w2, effM], ?_⟩
  simp [mix, rest, exGs, Good.w]; norm_num

example (d : TData) : evalItems d [1/2, 1/4, 1/4] 0 (exRate 1 .troe) (exGs.map Good.item) ≠ .throw := by
  obtain ⟨h1, h2, h3⟩ := exGs_ok d
  rw [eval_formula d _ _ _ _ h1 h2 (by rw [h3]; norm_num)]; simp

/-! ### Sums of mole fractions -/

theorem list_eq_range (X : List ℝ) : X = (List.range X.length).map fun i => X.getD i 0 := by
  apply List.ext_getElem
  · simp
  · intro i h1 h2; simp [List.getD, h1]

theorem sum_idx_le (X : List ℝ) (hX : ∀ x ∈ X, 0 ≤ x) (l : List ℕ) (hl : l.Nodup)
    (hi : ∀ i ∈ l, i < X.length) : (l.map fun i => X.getD i 0).sum ≤ X.sum := by
  rw [← List.sum_toFinset _ hl]
  have h2 : X.sum = (Finset.range X.length).sum fun i => X.getD i 0 := by
    conv_lhs => rw [list_eq_range X]
    rw [← List.sum_toFinset _ (List.nodup_range), List.toFinset_range]
  rw [h2]
  apply Finset.sum_le_sum_of_subset_of_nonneg
  · intro i h; simp only [List.mem_toFinset] at h; simpa using hi i h
  · intro i hi' _
    have hi'' : i < X.length := by simpa using hi'
    simp only [List.getD, List.getElem?_eq_getElem hi'', Option.getD_some]
    exact hX _ (List.getElem_mem _)

theorem getD_nonneg (X : List ℝ) (hX : ∀ x ∈ X, 0 ≤ x) (i : ℕ) : 0 ≤ X.getD i 0 := by
  by_cases h : i < X.length
  · simp only [List.getD, List.getElem?_eq_getElem h, Option.getD_some]
    exact hX _ (List.getElem_mem _)
  · simp [List.getD, List.getElem?_eq_none (not_lt.mp h)]

theorem rest_nonneg (X : List ℝ) (hX : ∀ x ∈ X, 0 ≤ x) (gs : List Good)
    (hi : ∀ g ∈ gs, g.i < X.length) (hn : (gs.map Good.i).Nodup) : 0 ≤ rest X gs := by
  have := sum_idx_le X hX (gs.map Good.i) hn (by simpa using hi)
  rw [List.map_map] at this
  unfold rest
  simp only [Function.comp_def] at this
  linarith

theorem weighted_ge (f : Good → ℝ) (w : Good → ℝ) (gs : List Good) (lo : ℝ)
    (hw : ∀ g ∈ gs, 0 ≤ w g) (hf : ∀ g ∈ gs, lo ≤ f g) :
    lo * (gs.map w).sum ≤ (gs.map fun g => f g * w g).sum := by
  induction gs with
  | nil => simp
  | cons g gs ih =>
    have h1 := ih (fun g hg => hw g (by simp [hg])) (fun g hg => hf g (by simp [hg]))
    have h2 := mul_le_mul_of_nonneg_right (hf g (by simp)) (hw g (by simp))
    simp only [List.map_cons, List.sum_cons, mul_add]
    linarith

theorem weighted_le (f : Good → ℝ) (w : Good → ℝ) (gs : List Good) (hi : ℝ)
    (hw : ∀ g ∈ gs, 0 ≤ w g) (hf : ∀ g ∈ gs, f g ≤ hi) :
    (gs.map fun g => f g * w g).sum ≤ hi * (gs.map w).sum := by
  induction gs with
  | nil => simp
  | cons g gs ih =>
    have h1 := ih (fun g hg => hw g (by simp [hg])) (fun g hg => hf g (by simp [hg]))
    have h2 := mul_le_mul_of_nonneg_right (hf g (by simp)) (hw g (by simp))
    simp only [List.map_cons, List.sum_cons, mul_add]
    linarith

theorem sum_div_list (f : Good → ℝ) (E : ℝ) (gs : List Good) :
    (gs.map fun g => f g / E).sum = (gs.map f).sum / E := by
  induction gs with
  | nil => simp
  | cons g gs ih => simp [ih, add_div]

/-- **The rate lies between the rates it is made of** (mole fractions not negative, each collider
listed once). -/
theorem eval_bounds (d : TData) (X : List ℝ) (logP : ℝ) (rM : Rate) (gs : List Good)
    (hX : ∀ x ∈ X, 0 ≤ x) (hn : (gs.map Good.i).Nodup)
    (hi : ∀ g ∈ gs, g.i < X.length) (h2 : ∀ g ∈ gs, 0 < g.w2 d) (h1 : ∀ g ∈ gs, 0 ≤ g.w d)
    (hE : 0 < mix d X gs) (lo hi' : ℝ) (hM : ∀ l, lo ≤ rM.k d l ∧ rM.k d l ≤ hi')
    (hk : ∀ g ∈ gs, ∀ l, lo ≤ g.rate.k d l ∧ g.rate.k d l ≤ hi') :
    ∃ v, evalItems d X logP rM (gs.map Good.item) = .ok (some v) ∧ lo ≤ v ∧ v ≤ hi' := by
  refine ⟨_, eval_formula d X logP rM gs hi h2 hE, ?_⟩
  have hr := rest_nonneg X hX gs hi hn
  have hEdef : (gs.map fun g => X.getD g.i 0 * g.w d).sum + rest X gs = mix d X gs := rfl
  generalize mix d X gs = E at *
  set f : Good → ℝ := fun g => g.rate.k d (logP + Real.log E - Real.log (g.w2 d)) with hf
  have hw : ∀ g ∈ gs, 0 ≤ X.getD g.i 0 * g.w d := fun g hg =>
    mul_nonneg (getD_nonneg X hX g.i) (h1 g hg)
  have a1 := weighted_ge f (fun g => X.getD g.i 0 * g.w d) gs lo hw (fun g hg => (hk g hg _).1)
  have a2 := weighted_le f (fun g => X.getD g.i 0 * g.w d) gs hi' hw (fun g hg => (hk g hg _).2)
  have b1 := mul_le_mul_of_nonneg_right (hM (logP + Real.log E)).1 hr
  have b2 := mul_le_mul_of_nonneg_right (hM (logP + Real.log E)).2 hr
  have e : (gs.map fun g => f g * g.w d * X.getD g.i 0 / E).sum
      = (gs.map fun g => f g * (X.getD g.i 0 * g.w d)).sum / E := by
    rw [← sum_div_list]
    congr 1
    apply List.map_congr_left
    intro g _
    ring
  rw [e, ← add_div]
  constructor
  · rw [le_div_iff₀ hE]; refine le_trans (le_of_eq ?_) (add_le_add a1 b1); rw [← mul_add, hEdef]
  · rw [div_le_iff₀ hE]; refine le_trans (add_le_add a2 b2) (le_of_eq ?_); rw [← mul_add, hEdef]

example (d : TData) : ∃ v, evalItems d [1/2, 1/4, 1/4] 0 { kind := .troe, k := fun _ _ => 1 }
    (([{ i := 0, a1 := ⟨3, 0, 0⟩, a2 := ⟨3, 0, 0⟩, rate := { kind := .plog, k := fun _ _ => 2 } }] :
      List Good).map Good.item) = .ok (some v) ∧ 1 ≤ v ∧ v ≤ 2 := by
  apply eval_bounds
  · simp
  · simp
  · simp
  · simp [Good.w2]
  · simp [Good.w]
  · simp [mix, rest, Good.w]; norm_num
  · simp
  · simp

/-- **Colliders without a rate of their own** only change the effective pressure. -/
theorem eval_common (d : TData) (X : List ℝ) (logP : ℝ) (rM : Rate) (gs : List Good)
    (hi : ∀ g ∈ gs, g.i < X.length) (hE : 0 < mix d X gs)
    (hr : ∀ g ∈ gs, g.rate = rM ∧ g.a2 = { A := 1, b := 0, E := 0 }) :
    evalItems d X logP rM (gs.map Good.item) =
      .ok (some (rM.k d (logP + Real.log (mix d X gs)))) := by
  have hw2 : ∀ g ∈ gs, g.w2 d = 1 := by
    intro g hg; simp [Good.w2, (hr g hg).2]
  rw [eval_formula d X logP rM gs hi (fun g hg => by rw [hw2 g hg]; norm_num) hE]
  congr 2
  have hEdef : (gs.map fun g => X.getD g.i 0 * g.w d).sum + rest X gs = mix d X gs := rfl
  generalize mix d X gs = E at *
  have : (gs.map fun g => g.rate.k d (logP + Real.log E - Real.log (g.w2 d)) * g.w d
      * X.getD g.i 0 / E) = gs.map fun g => (rM.k d (logP + Real.log E) * (X.getD g.i 0 * g.w d)) / E := by
    apply List.map_congr_left
    intro g hg
    rw [hw2 g hg, (hr g hg).1, Real.log_one, sub_zero]
    ring
  rw [this, sum_div_list, List.sum_map_mul_left, ← add_div, ← mul_add, hEdef]
  field_simp

example (d : TData) : evalItems d [1/2, 1/2] 1 (exRate 1 .troe)
    (([{ i := 0, a1 := ⟨3, 0, 0⟩, a2 := effM, rate := exRate 1 .troe }] : List Good).map Good.item)
      = .ok (some (1 + Real.exp (1 + Real.log 2))) := by
  rw [eval_common]
  · simp [exRate, mix, rest, Good.w]; norm_num
  · simp
  · simp [mix, rest, Good.w]; norm_num
  · simp [effM]

theorem sum_single (gs : List Good) (hn : (gs.map Good.i).Nodup) (g : Good) (hg : g ∈ gs)
    (f : Good → ℝ) (hf : ∀ g' ∈ gs, g'.i ≠ g.i → f g' = 0) : (gs.map f).sum = f g := by
  induction gs with
  | nil => simp at hg
  | cons a gs ih =>
    simp only [List.map_cons, List.nodup_cons] at hn
    rcases List.mem_cons.mp hg with rfl | hg'
    · have : (gs.map f).sum = 0 := by
        apply List.sum_eq_zero
        intro x hx
        obtain ⟨g', hg', rfl⟩ := List.mem_map.mp hx
        exact hf g' (by simp [hg']) (fun he => hn.1 (he ▸ List.mem_map_of_mem hg'))
      simp [this]
    · have h0 : f a = 0 := hf a (by simp) (fun he => hn.1 (he ▸ List.mem_map_of_mem hg'))
      rw [List.map_cons, List.sum_cons, h0, zero_add]
      exact ih hn.2 hg' (fun g' h => hf g' (by simp [h]))

theorem mix_pure (d : TData) (X : List ℝ) (gs : List Good) (hn : (gs.map Good.i).Nodup)
    (hs : X.sum = 1) (g : Good) (hg : g ∈ gs) (hx : X.getD g.i 0 = 1)
    (h0 : ∀ g' ∈ gs, g'.i ≠ g.i → X.getD g'.i 0 = 0) : rest X gs = 0 ∧ mix d X gs = g.w d := by
  have e1 := sum_single gs hn g hg (fun g => X.getD g.i 0) h0
  have e2 := sum_single gs hn g hg (fun g => X.getD g.i 0 * g.w d)
    (fun g' hg' hne => by simp only [h0 g' hg' hne, zero_mul])
  have hr : rest X gs = 0 := by unfold rest; rw [e1, hs]; simp only [hx, sub_self]
  refine ⟨hr, ?_⟩
  unfold mix
  rw [e2, hr]
  simp only [hx, one_mul, add_zero]

/-- **A pure collider** with its own rate reacts with this rate at the pressure itself. -/
theorem eval_pure_own (d : TData) (X : List ℝ) (logP : ℝ) (rM : Rate) (gs : List Good)
    (hi : ∀ g ∈ gs, g.i < X.length) (h2 : ∀ g ∈ gs, 0 < g.w2 d) (hn : (gs.map Good.i).Nodup)
    (hs : X.sum = 1) (g : Good) (hg : g ∈ gs) (hx : X.getD g.i 0 = 1)
    (h0 : ∀ g' ∈ gs, g'.i ≠ g.i → X.getD g'.i 0 = 0) (ha : g.a2 = g.a1) :
    evalItems d X logP rM (gs.map Good.item) = .ok (some (g.rate.k d logP)) := by
  obtain ⟨hr, hm⟩ := mix_pure d X gs hn hs g hg hx h0
  have hw : g.w2 d = g.w d := by simp only [Good.w2, Good.w, ha]
  have hpos : 0 < g.w d := hw ▸ h2 g hg
  rw [eval_formula d X logP rM gs hi h2 (hm ▸ hpos), hm, hr]
  rw [sum_single gs hn g hg (fun g' => g'.rate.k d (logP + Real.log (g.w d) - Real.log (g'.w2 d))
    * g'.w d * X.getD g'.i 0 / g.w d) (fun g' hg' hne => by simp only [h0 g' hg' hne, mul_zero, zero_div])]
  simp only [hx, hw, mul_zero, zero_div, add_zero, mul_one]
  congr 2
  rw [mul_div_assoc, div_self hpos.ne', mul_one]
  congr 1
  ring

/-- ... and without one with the rate of M at the pressure times its efficiency. -/
theorem eval_pure_eff (d : TData) (X : List ℝ) (logP : ℝ) (rM : Rate) (gs : List Good)
    (hi : ∀ g ∈ gs, g.i < X.length) (h2 : ∀ g ∈ gs, 0 < g.w2 d) (hn : (gs.map Good.i).Nodup)
    (hs : X.sum = 1) (g : Good) (hg : g ∈ gs) (hx : X.getD g.i 0 = 1)
    (h0 : ∀ g' ∈ gs, g'.i ≠ g.i → X.getD g'.i 0 = 0) (ha : g.a2 = { A := 1, b := 0, E := 0 })
    (hr : g.rate = rM) (hpos : 0 < g.a1.A * Real.exp (g.a1.b * d.logT - g.a1.E * d.recipT)) :
    evalItems d X logP rM (gs.map Good.item) = .ok (some (rM.k d
      (logP + Real.log (g.a1.A * Real.exp (g.a1.b * d.logT - g.a1.E * d.recipT))))) := by
  obtain ⟨hr0, hm⟩ := mix_pure d X gs hn hs g hg hx h0
  have hw : g.w2 d = 1 := by simp [Good.w2, ha]
  change 0 < g.w d at hpos
  change _ = Outcome.ok (some (rM.k d (logP + Real.log (g.w d))))
  rw [eval_formula d X logP rM gs hi h2 (hm ▸ hpos), hm, hr0]
  rw [sum_single gs hn g hg (fun g' => g'.rate.k d (logP + Real.log (g.w d) - Real.log (g'.w2 d))
    * g'.w d * X.getD g'.i 0 / g.w d) (fun g' hg' hne => by simp only [h0 g' hg' hne, mul_zero, zero_div])]
  simp only [hx, hw, mul_zero, zero_div, add_zero, mul_one, hr, Real.log_one, sub_zero]
  congr 2
  rw [mul_div_assoc, div_self hpos.ne', mul_one]

example (d : TData) : evalItems d [1, 0, 0] 5 (exRate 1 .troe) (exGs.map Good.item)
    = .ok (some (2 + Real.exp 5)) := by
  rw [eval_pure_own d [1, 0, 0] 5 _ exGs (by simp [exGs]) (exGs_ok d).2.1 (by simp [exGs]) (by simp)
    { i := 0, a1 := ⟨3, 0, 0⟩, a2 := ⟨3, 0, 0⟩, rate := exRate 2 .plog } (by simp [exGs]) (by simp)
    (by simp [exGs]) rfl]
  rfl

example (d : TData) : evalItems d [0, 0, 1] 5 (exRate 1 .troe) (exGs.map Good.item)
    = .ok (some (1 + Real.exp (5 + Real.log 5))) := by
  rw [eval_pure_eff d [0, 0, 1] 5 _ exGs (by simp [exGs]) (exGs_ok d).2.1 (by simp [exGs]) (by simp)
    { i := 2, a1 := ⟨5, 0, 0⟩, a2 := effM, rate := exRate 1 .troe } (by simp [exGs]) (by simp)
    (by simp [exGs]) rfl rfl (by simp)]
  simp [exRate]

/-- **No collider present**: the rate of M at the pressure itself. -/
theorem eval_none_present (d : TData) (X : List ℝ) (logP : ℝ) (rM : Rate) (gs : List Good)
    (hi : ∀ g ∈ gs, g.i < X.length) (h2 : ∀ g ∈ gs, 0 < g.w2 d) (hs : X.sum = 1)
    (h0 : ∀ g ∈ gs, X.getD g.i 0 = 0) :
    evalItems d X logP rM (gs.map Good.item) = .ok (some (rM.k d logP)) := by
  have z : ∀ f : Good → ℝ, (∀ g ∈ gs, f g = 0) → (gs.map f).sum = 0 := by
    intro f hf
    apply List.sum_eq_zero
    intro x hx
    obtain ⟨g, hg, rfl⟩ := List.mem_map.mp hx
    exact hf g hg
  have hr : rest X gs = 1 := by unfold rest; rw [z _ h0, hs]; ring
  have hm : mix d X gs = 1 := by
    unfold mix; rw [z _ (fun g hg => by rw [h0 g hg, zero_mul]), hr]; ring
  rw [eval_formula d X logP rM gs hi h2 (by rw [hm]; norm_num), hm, hr,
    z _ (fun g hg => by simp only [h0 g hg, mul_zero, zero_div])]
  simp

example (d : TData) : evalItems d [0, 1, 0] 5 (exRate 1 .troe) (exGs.map Good.item)
    = .ok (some (1 + Real.exp 5)) := by
  rw [eval_none_present d [0, 1, 0] 5 _ exGs (by simp [exGs]) (exGs_ok d).2.1 (by simp) (by simp [exGs])]
  rfl

/-- **The order of the colliders does not matter.** -/
theorem eval_perm (d : TData) (X : List ℝ) (logP : ℝ) (rM : Rate) (gs gs' : List Good)
    (hp : gs.Perm gs') (hi : ∀ g ∈ gs, g.i < X.length) (h2 : ∀ g ∈ gs, 0 < g.w2 d)
    (hE : 0 < mix d X gs) :
    evalItems d X logP rM (gs'.map Good.item) = evalItems d X logP rM (gs.map Good.item) := by
  have hr : rest X gs' = rest X gs := by unfold rest; rw [(hp.map _).sum_eq]
  have hm : mix d X gs' = mix d X gs := by unfold mix; rw [hr, (hp.map _).sum_eq]
  rw [eval_formula d X logP rM gs hi h2 hE,
    eval_formula d X logP rM gs' (fun g hg => hi g (hp.mem_iff.mpr hg))
      (fun g hg => h2 g (hp.mem_iff.mpr hg)) (hm ▸ hE), hm, hr, (hp.map _).sum_eq]

example (d : TData) : evalItems d [1/2, 1/4, 1/4] 0 (exRate 1 .troe) (exGs.reverse.map Good.item)
    = evalItems d [1/2, 1/4, 1/4] 0 (exRate 1 .troe) (exGs.map Good.item) :=
  eval_perm d _ _ _ _ _ (List.reverse_perm _).symm (exGs_ok d).1 (exGs_ok d).2.1
    (by rw [(exGs_ok d).2.2]; norm_num)

/-- The only exception is an efficiency of the mixture of exactly zero. -/
theorem eval_throw (d : TData) (X : List ℝ) (logP : ℝ) (rM : Rate) (gs : List Good)
    (hi : ∀ g ∈ gs, g.i < X.length) (h2 : ∀ g ∈ gs, 0 < g.w2 d) (hE : 0 ≤ mix d X gs) :
    evalItems d X logP rM (gs.map Good.item) = .throw ↔ mix d X gs = 0 := by
  constructor
  · intro h
    by_contra hne
    rw [eval_formula d X logP rM gs hi h2 (lt_of_le_of_ne hE (Ne.symm hne))] at h
    cases h
  · intro h
    unfold evalItems
    rw [mixLoop_good d X gs hi]
    simp only [bind_ok, Option.map_some, zero_add]
    change (if mix d X gs = 0 then _ else _) = _
    rw [if_pos h]

example (d : TData) : evalItems d [0, 0, 0] 0 (exRate 1 .troe) (exGs.map Good.item) = .throw := by
  have hm : mix d [0, 0, 0] exGs = 0 := by simp [mix, rest, exGs]
  rw [eval_throw d _ _ _ _ (by simp [exGs]) (exGs_ok d).2.1 hm.ge]; exact hm

/-! ### What goes wrong -/

/-- A collider which is not a species of the mechanism is accepted; evaluating the rate reads outside
of the mole fractions. -/
theorem unknown_ub (d : TData) (species : List String) (X : List ℝ) (logP : ℝ) (o : Obj) (c : Coll)
    (hc : c ∈ o.cs) (hn : c.name ∉ species) : eval d species X logP o = .ub := by
  have key : ∀ (cs : List Coll) s, c ∈ cs →
      mixLoop d X ((cs.map fun c => species.findIdx? (· == c.name)).zip cs) s = .ub := by
    intro cs
    induction cs with
    | nil => intro s h; simp at h
    | cons a cs ih =>
      intro s h
      simp only [List.map_cons, List.zip_cons_cons, mixLoop]
      rcases List.mem_cons.mp h with rfl | h'
      · have : species.findIdx? (· == c.name) = none := by
          rw [List.findIdx?_eq_none_iff]
          intro x hx
          simp only [beq_eq_false_iff_ne, ne_eq]
          rintro rfl
          exact hn hx
        rw [this]
        rfl
      · cases hq : moleFraction X (species.findIdx? (· == a.name)) with
        | ok x => rw [bind_ok]; exact ih _ h'
        | throw =>
          exfalso
          unfold moleFraction at hq
          split at hq
          · cases hq
          · unfold vecGet at hq; split at hq <;> cases hq
        | ub => rfl
  unfold eval evalItems items setContext
  rw [key _ _ hc]
  rfl

example : ∃ (o : Obj) (c : Coll), c ∈ o.cs ∧ c.name ∉ ["H2", "O2"] :=
  ⟨⟨exRate 1 .troe, [⟨"Kr", some effM, some effM, exRate 1 .troe, false⟩]⟩,
    ⟨"Kr", some effM, some effM, exRate 1 .troe, false⟩, by simp, by simp⟩

/-- An efficiency of zero is accepted.  With its own PLOG rate the table is searched for an infinite
pressure (undefined behaviour), with another rate the result is not a number; this holds even when the
collider is not present. -/
theorem zero_efficiency (d : TData) (X : List ℝ) (logP : ℝ) (rM : Rate) (g : Good)
    (hi : g.i < X.length) (h0 : g.a2.A = 0) (hE : mix d X [g] ≠ 0) :
    (g.rate.kind = .plog → evalItems d X logP rM [g.item] = .ub) ∧
    (g.rate.kind ≠ .plog → rM.kind ≠ .plog → evalItems d X logP rM [g.item] = .ok none) := by
  have h1 : mixLoop d X [g.item] (some 0, X.sum) = _ :=
    mixLoop_good d X [g] (by simpa using hi) 0 X.sum
  have hx := moleFraction_some hi
  have hl : ∀ E : ℝ, (Item.eps2 d g.item).bind (logPeff logP E) = none := by
    intro E
    simp [Item.eps2, Good.item, Arr.eval, h0, logPeff]
  have main : evalItems d X logP rM [g.item] =
      (sumLoop d X logP (mix d X [g]) [g.item] (some 0) >>= fun k =>
        rateAt d rM (logPeff logP (mix d X [g]) 1) >>= fun kM =>
          .ok (match k, kM with
            | some k, some kM => some (k + kM * rest X [g] / mix d X [g])
            | _, _ => none)) := by
    unfold evalItems
    rw [h1]
    simp only [bind_ok, Option.map_some, zero_add]
    change (if mix d X [g] = 0 then _ else _) = _
    rw [if_neg hE]
    rfl
  have e1 : (Item.eps1 d g.item) = some (g.a1.eval d) := rfl
  constructor
  · intro hk
    rw [main]
    simp only [sumLoop]
    have : (g.item).1 = some g.i := rfl
    rw [this, hx, bind_ok, hl]
    have hk' : g.item.2.rate.kind = .plog := hk
    simp [rateAt, hk']
  · intro hk hM
    rw [main]
    simp only [sumLoop]
    have : (g.item).1 = some g.i := rfl
    rw [this, hx, bind_ok, hl]
    have hk' : g.item.2.rate.kind ≠ .plog := hk
    simp only [rateAt, if_neg hk', bind_ok]
    cases hq : logPeff logP (mix d X [g]) 1 with
    | none => simp [hM]
    | some l => simp

example (d : TData) : evalItems d [0, 1] 0 (exRate 1 .plog)
    [({ i := 0, a1 := ⟨0, 0, 0⟩, a2 := ⟨0, 0, 0⟩, rate := exRate 1 .plog } : Good).item] = .ub :=
  (zero_efficiency d _ _ _ _ (by simp) rfl (by simp [mix, rest, Good.w])).1 rfl

/-- A collider listed twice is subtracted twice from the mole fraction of M; the rate can be negative
although all rates it is made of are positive. -/
theorem listed_twice (d : TData) : ∃ (X : List ℝ) (rM : Rate) (gs : List Good) (v : ℝ),
    (∀ x ∈ X, 0 ≤ x) ∧ X.sum = 1 ∧ (∀ l, 0 < rM.k d l) ∧ (∀ g ∈ gs, ∀ l, 0 < g.rate.k d l) ∧
    (∀ g ∈ gs, g.i < X.length) ∧
    evalItems d X 0 rM (gs.map Good.item) = .ok (some v) ∧ v < 0 := by
  let g : Good := { i := 0, a1 := ⟨1, 0, 0⟩, a2 := ⟨1, 0, 0⟩, rate := { kind := .plog, k := fun _ _ => 1 } }
  have hm : mix d [1, 0] [g, g] = 1 := by simp [mix, rest, Good.w, g]
  refine ⟨[1, 0], { kind := .plog, k := fun _ _ => 3 }, [g, g], -1, by simp, by simp, by simp,
    by simp [g], by simp [g], ?_, by norm_num⟩
  rw [eval_formula d _ _ _ _ (by simp [g]) (by simp [g, Good.w2]) (by rw [hm]; norm_num), hm]
  simp [rest, Good.w, g]
  norm_num

/-! ## Input -/

/-- What a valid entry becomes. -/
noncomputable def collOf (m : Arr) (rM : Rate) (e : String × Arr × Option Rate) : Coll :=
  let a : Arr := { A := e.2.1.A / m.A, b := e.2.1.b - m.b, E := e.2.1.E - m.E }
  match e.2.2 with
  | some r => { name := e.1, e1 := some a, e2 := some a, rate := r, own := true }
  | none => { name := e.1, e1 := some a, e2 := some { A := 1, b := 0, E := 0 }, rate := rM, own := false }

def specOf : Option Rate → RateSpec
  | none => .absent
  | some r => .given r

def effEntry (e : String × Arr × Option Rate) : Entry :=
  { name := some e.1, rate := specOf e.2.2, eff := some e.2.1, eig := none }

def eigEntry (e : String × Arr × Option Rate) : Entry :=
  { name := some e.1, rate := specOf e.2.2, eff := none, eig := some e.2.1 }

theorem addEntries_eig (m : Arr) (hm : m.A ≠ 0) (rM : Rate) (l : List (String × Arr × Option Rate))
    (hl : ∀ e ∈ l, 0 ≤ e.2.1.A / m.A) (cs : List Coll) :
    addEntries true m rM cs (l.map eigEntry) = .ok (cs ++ l.map (collOf m rM)) := by
  induction l generalizing cs with
  | nil => simp [addEntries]
  | cons e l ih =>
    have h0 := hl e (by simp)
    obtain ⟨nm, a, r⟩ := e
    have h0' : 0 ≤ a.A / m.A := h0
    have hstep : addEntry true m rM cs (eigEntry (nm, a, r)) = .ok (cs ++ [collOf m rM (nm, a, r)]) := by
      cases r <;>
        simp [addEntry, eigEntry, relative, hm, accepted, h0', specOf, collOf, effM]
    simp only [List.map_cons, addEntries]
    rw [hstep, bind_ok, ih (fun e he => hl e (by simp [he]))]
    simp

theorem addEntries_eff (rM : Rate) (l : List (String × Arr × Option Rate))
    (hl : ∀ e ∈ l, 0 ≤ e.2.1.A) (cs : List Coll) :
    addEntries false effM rM cs (l.map effEntry) = .ok (cs ++ l.map (collOf effM rM)) := by
  induction l generalizing cs with
  | nil => simp [addEntries]
  | cons e l ih =>
    have h0 := hl e (by simp)
    obtain ⟨nm, a, r⟩ := e
    have h0' : 0 ≤ a.A := h0
    have hstep : addEntry false effM rM cs (effEntry (nm, a, r))
        = .ok (cs ++ [collOf effM rM (nm, a, r)]) := by
      cases r <;>
        simp [addEntry, effEntry, relative, accepted, h0', specOf, collOf, effM]
    simp only [List.map_cons, addEntries]
    rw [hstep, bind_ok, ih (fun e he => hl e (by simp [he]))]
    simp

/-- **Input with `eig0`.** -/
theorem set_eig (cs : List Coll) (m : Arr) (hm : m.A ≠ 0) (rM : Rate)
    (l : List (String × Arr × Option Rate)) (hl : ∀ e ∈ l, 0 ≤ e.2.1.A / m.A) :
    setParameters cs ({ name := some "M", rate := .given rM, eff := none, eig := some m } ::
      l.map eigEntry) = .ok { rateM := rM, cs := cs ++ l.map (collOf m rM) } := by
  simp [setParameters, addEntries_eig m hm rM l hl]

/-- **Input with `efficiency`.** -/
theorem set_eff (cs : List Coll) (rM : Rate)
    (l : List (String × Arr × Option Rate)) (hl : ∀ e ∈ l, 0 ≤ e.2.1.A) :
    setParameters cs ({ name := some "M", rate := .given rM, eff := none, eig := none } ::
      l.map effEntry) = .ok { rateM := rM, cs := cs ++ l.map (collOf { A := 1, b := 0, E := 0 } rM) } := by
  have h := addEntries_eff rM l hl cs
  simp only [setParameters, ne_eq, not_true_eq_false, if_false]
  rw [h]
  rfl

/-- The efficiency used is the quotient of the values of `eig0` at every temperature; giving the
quotients as `efficiency` makes the same object. -/
theorem eig_eff_same (m : Arr) (hm : m.A ≠ 0) (rM : Rate)
    (l : List (String × Arr × Option Rate)) (hl : ∀ e ∈ l, 0 ≤ e.2.1.A / m.A) :
    setParameters [] ({ name := some "M", rate := .given rM, eff := none, eig := some m } ::
      l.map eigEntry) =
    setParameters [] ({ name := some "M", rate := .given rM, eff := none, eig := none } ::
      (l.map fun e => (e.1, ({ A := e.2.1.A / m.A, b := e.2.1.b - m.b, E := e.2.1.E - m.E } : Arr),
        e.2.2)).map effEntry) ∧
    ∀ e ∈ l, ∀ d : TData, ∃ a, (collOf m rM e).e1 = some a ∧
      a.eval d = (e.2.1.A * Real.exp (e.2.1.b * d.logT - e.2.1.E * d.recipT)) /
        (m.A * Real.exp (m.b * d.logT - m.E * d.recipT)) := by
  constructor
  · rw [set_eig [] m hm rM l hl, set_eff [] rM _ (by
      intro e he
      obtain ⟨e', he', rfl⟩ := List.mem_map.mp he
      exact hl e' he')]
    rw [List.map_map]
    congr 3
    apply List.map_congr_left
    intro e _
    obtain ⟨nm, a, r⟩ := e
    cases r <;> simp [collOf]
  · intro e he d
    obtain ⟨nm, a, r⟩ := e
    refine ⟨{ A := a.A / m.A, b := a.b - m.b, E := a.E - m.E }, by cases r <;> rfl, ?_⟩
    simp only [Arr.eval]
    rw [show (a.b - m.b) * d.logT - (a.E - m.E) * d.recipT
      = (a.b * d.logT - a.E * d.recipT) - (m.b * d.logT - m.E * d.recipT) by ring, Real.exp_sub]
    have := Real.exp_ne_zero (m.b * d.logT - m.E * d.recipT)
    field_simp

example : ∃ o, setParameters []
    ((⟨some "M", .given (exRate 1 .plog), none, some ⟨2, 1, 3⟩⟩ : Entry) :: [("AR", (⟨4, 0, 1⟩ : Arr), (none : Option Rate))].map eigEntry) = .ok o ∧
    o.cs.map (·.name) = ["AR"] :=
  ⟨_, set_eig [] ⟨2, 1, 3⟩ (by norm_num) _ _ (by norm_num), by simp [collOf]⟩

/-- Inputs which are refused: first collider not M, M without a (supported) rate, an efficiency of M
that is not one. -/
theorem set_refused (cs : List Coll) (m : Entry) (es : List Entry)
    (h : m.name ≠ some "M" ∨ m.rate = .absent ∨ m.rate = .unsupported ∨
      ∃ a, m.eff = some a ∧ (a.A ≠ 1 ∨ a.b ≠ 0 ∨ a.E ≠ 0)) :
    setParameters cs (m :: es) = .throw := by
  unfold setParameters
  by_cases hm : m.name ≠ some "M"
  · simp only [if_pos hm]
  · simp only [if_neg hm]
    rcases h with h | h | h | ⟨a, ha, h⟩
    · exact absurd h hm
    · simp [h]
    · simp [h]
    · cases hr : m.rate with
      | absent => rfl
      | unsupported => rfl
      | given r => simp only [ha, if_pos h]

/-- One invalid collider refuses the input: no name, the key M does not use, both keys, negative
efficiency or an unsupported rate. -/
theorem add_refused (useEig : Bool) (ref : Arr) (rM : Rate) (cs : List Coll) (e : Entry)
    (h : e.name = none ∨ (if useEig then e.eig else e.eff) = none ∨
      (e.eig ≠ none ∧ e.eff ≠ none) ∨ e.rate = .unsupported ∨
      ∃ a, (if useEig then e.eig else e.eff) = some a ∧ ref.A ≠ 0 ∧ a.A / ref.A < 0) :
    addEntry useEig ref rM cs e = .throw := by
  unfold addEntry
  cases hn : e.name with
  | none => rfl
  | some nm =>
    cases ha : (if useEig then e.eig else e.eff) with
    | none => rfl
    | some a =>
      simp only
      rcases h with h | h | h | h | ⟨a', h, hz, hneg⟩
      · simp [hn] at h
      · rw [ha] at h; cases h
      · have : (if useEig then e.eff else e.eig).isSome = true := by
          cases useEig
          · simpa [Option.isSome_iff_ne_none] using h.1
          · simpa [Option.isSome_iff_ne_none] using h.2
        rw [if_pos this]
      · by_cases h1 : (if useEig then e.eff else e.eig).isSome = true
        · rw [if_pos h1]
        · rw [if_neg h1]
          by_cases h2 : accepted (relative a ref) = true <;> simp [h2, h]
      · rw [ha] at h
        injection h with h
        subst h
        by_cases h1 : (if useEig then e.eff else e.eig).isSome = true
        · rw [if_pos h1]
        · rw [if_neg h1]
          simp [accepted, relative, hz, hneg]

example : addEntry false effM (exRate 1 .plog) [] ⟨some "AR", .absent, some ⟨-1, 0, 0⟩, none⟩ = .throw :=
  add_refused _ _ _ _ _ (Or.inr (Or.inr (Or.inr (Or.inr ⟨_, rfl, by simp [effM], by simp [effM]⟩))))

/-- `colliders: []` reads outside of an empty vector. -/
theorem set_empty (cs : List Coll) : setParameters cs [] = .ub := rfl

/-- A second call keeps the colliders of the first one. -/
theorem set_again (rM : Rate) (l : List (String × Arr × Option Rate)) (hl : ∀ e ∈ l, 0 ≤ e.2.1.A) :
    ∃ o, setParameters [] ({ name := some "M", rate := .given rM, eff := none, eig := none } ::
        l.map effEntry) = .ok o ∧ o.cs.map (·.name) = l.map (·.1) ∧
      ∃ o', setParameters o.cs ({ name := some "M", rate := .given rM, eff := none, eig := none } ::
        l.map effEntry) = .ok o' ∧ o'.cs.map (·.name) = l.map (·.1) ++ l.map (·.1) := by
  have hnames : (l.map (collOf { A := 1, b := 0, E := 0 } rM)).map (·.name) = l.map (·.1) := by
    rw [List.map_map]
    apply List.map_congr_left
    rintro ⟨nm, a, r⟩ _
    cases r <;> rfl
  refine ⟨_, set_eff [] rM l hl, by simpa using hnames, _, set_eff _ rM l hl, ?_⟩
  simp only [List.nil_append, List.map_append, hnames]

/-- **Writing and reading back** gives the same object. -/
theorem roundtrip (rM : Rate) (l : List (String × Arr × Option Rate)) (m : Arr) (hm : m.A ≠ 0)
    (hl : ∀ e ∈ l, 0 ≤ e.2.1.A / m.A) (o : Obj)
    (ho : setParameters [] ({ name := some "M", rate := .given rM, eff := none, eig := some m } ::
      l.map eigEntry) = .ok o) :
    setParameters [] (getParameters o) = .ok o := by
  rw [set_eig [] m hm rM l hl] at ho
  injection ho with ho
  subst ho
  have := (eig_eff_same m hm rM l hl).1
  rw [set_eig [] m hm rM l hl] at this
  rw [this]
  unfold getParameters
  congr 2
  simp only [List.nil_append, List.map_map]
  apply List.map_congr_left
  rintro ⟨nm, a, r⟩ _
  cases r <;> simp [collOf, effEntry, specOf]

example : ∃ o, setParameters []
    ((⟨some "M", .given (exRate 1 .plog), none, some ⟨2, 1, 3⟩⟩ : Entry) :: [("AR", (⟨4, 0, 1⟩ : Arr), (none : Option Rate))].map eigEntry) = .ok o ∧
    setParameters [] (getParameters o) = .ok o :=
  ⟨_, set_eig [] ⟨2, 1, 3⟩ (by norm_num) _ _ (by norm_num),
    roundtrip _ _ ⟨2, 1, 3⟩ (by norm_num) (by norm_num) _
      (set_eig [] ⟨2, 1, 3⟩ (by norm_num) _ _ (by norm_num))⟩

/-- The object made from the input has, for every collider with a species, the shape the theorems on
evaluation ask for. -/
theorem items_good (m : Arr) (rM : Rate) (l : List (String × Arr × Option Rate)) (species : List String)
    (hs : ∀ e ∈ l, e.1 ∈ species) :
    ∃ gs : List Good, items species { rateM := rM, cs := l.map (collOf m rM) } = gs.map Good.item ∧
      gs.map Good.i = l.map (fun e => species.idxOf e.1) ∧ (∀ g ∈ gs, g.i < species.length) ∧
      ∀ g ∈ gs, (g.own = true ∧ g.a2 = g.a1) ∨ (g.own = false ∧ g.a2 = ⟨1, 0, 0⟩ ∧ g.rate = rM) := by
  induction l with
  | nil => exact ⟨[], by simp [items, setContext], by simp, by simp, by simp⟩
  | cons e l ih =>
    obtain ⟨gs, h1, h2, h3, h4⟩ := ih (fun e he => hs e (by simp [he]))
    have hmem := hs e (by simp)
    obtain ⟨nm, a, r⟩ := e
    have hlt : species.idxOf nm < species.length := List.idxOf_lt_length_of_mem hmem
    have hidx : species.findIdx? (· == nm) = some (species.idxOf nm) := by
      rw [List.findIdx?_eq_some_iff_findIdx_eq]
      exact ⟨hlt, rfl⟩
    let a' : Arr := { A := a.A / m.A, b := a.b - m.b, E := a.E - m.E }
    cases r with
    | some r =>
      refine ⟨{ i := species.idxOf nm, a1 := a', a2 := a', rate := r, name := nm, own := true } :: gs,
        ?_, ?_, ?_, ?_⟩
      · simp only [items, setContext, List.map_cons, List.zip_cons_cons, List.map_map] at h1 ⊢
        rw [h1]
        simp only [collOf, hidx, Good.item, a']
      · simp only [List.map_cons, h2]
      · intro g hg
        rcases List.mem_cons.mp hg with rfl | hg
        · exact hlt
        · exact h3 g hg
      · intro g hg
        rcases List.mem_cons.mp hg with rfl | hg
        · exact Or.inl ⟨rfl, rfl⟩
        · exact h4 g hg
    | none =>
      refine ⟨⟨species.idxOf nm, a', ⟨1, 0, 0⟩, rM, nm, false⟩ :: gs, ?_, ?_, ?_, ?_⟩
      · simp only [items, setContext, List.map_cons, List.zip_cons_cons, List.map_map] at h1 ⊢
        rw [h1]
        simp only [collOf, hidx, Good.item, a']
      · simp only [List.map_cons, h2]
      · intro g hg
        rcases List.mem_cons.mp hg with rfl | hg
        · exact hlt
        · exact h3 g hg
      · intro g hg
        rcases List.mem_cons.mp hg with rfl | hg
        · exact Or.inr ⟨rfl, rfl, rfl⟩
        · exact h4 g hg

example : ∀ e ∈ [("AR", (⟨4, 0, 1⟩ : Arr), (none : Option Rate))], e.1 ∈ ["H2", "AR"] := by simp

/-! ## Shared data -/

/-- **Update**: afterwards the data are those of the phase, provided the state number tells
compositions apart and the vector has the length of the phase. -/
theorem update_spec (ph : PhaseState) (D : Data) (hlen : D.X.length = ph.X.length)
    (hmf : D.P = some ph.P → D.T = some ph.T → D.mf = ph.mf → D.X = ph.X ∧ D.logP = Real.log ph.P) :
    ∃ D' ch, update ph D = .ok (D', ch) ∧ D'.T = some ph.T ∧ D'.P = some ph.P ∧
      D'.logP = Real.log ph.P ∧ D'.X = ph.X ∧ D'.mf = ph.mf ∧ D'.pbuf = D.pbuf ∧ D'.tbuf = D.tbuf ∧
      (ch = false → D' = D) := by
  unfold update
  by_cases h : D.P ≠ some ph.P ∨ D.T ≠ some ph.T ∨ D.mf ≠ ph.mf
  · rw [if_pos h]
    have hw : writeX D.X ph.X = .ok ph.X := by
      unfold writeX
      rw [if_pos hlen.ge, ← hlen]
      simp
    rw [hw, bind_ok]
    exact ⟨_, _, rfl, rfl, rfl, rfl, rfl, rfl, rfl, rfl, by simp⟩
  · rw [if_neg h]
    push Not at h
    obtain ⟨h1, h2⟩ := hmf h.1 h.2.1 h.2.2
    exact ⟨D, false, rfl, h.2.1, h.1, h2, h1, h.2.2, rfl, rfl, fun _ => rfl⟩

/-- A new composition at the same temperature and pressure is seen. -/
theorem update_composition (ph : PhaseState) (D : Data) (hlen : D.X.length = ph.X.length)
    (hne : D.mf ≠ ph.mf) : ∃ D', update ph D = .ok (D', true) ∧ D'.X = ph.X := by
  unfold update
  rw [if_pos (Or.inr (Or.inr hne))]
  have hw : writeX D.X ph.X = .ok ph.X := by
    unfold writeX
    rw [if_pos hlen.ge, ← hlen]
    simp
  rw [hw, bind_ok]
  exact ⟨_, rfl, rfl⟩

/-- Before `resize` the vector has one entry: a phase with two species writes outside. -/
theorem update_not_resized (ph : PhaseState) (D : Data) (h1 : D.X.length = 1) (h2 : 1 < ph.X.length)
    (hP : D.P = none) : update ph D = .ub := by
  unfold update
  rw [if_pos (Or.inl (by rw [hP]; simp))]
  unfold writeX
  rw [if_neg (by omega)]
  rfl

example : update ⟨300, 1, 1, [1, 0]⟩ ⟨none, none, 0, [0], 0, -1, -1⟩ = .ub :=
  update_not_resized _ _ rfl (by simp) rfl

/-- **A perturbed pressure** is seen by the rates and undone by `restore`; a second perturbation
throws. -/
theorem perturb_spec (D : Data) (P delta : ℝ) (hP : D.P = some P) (hpos : 0 < P)
    (hl : D.logP = Real.log P) (hb : D.pbuf = -1) (ht : D.tbuf = -1) :
    ∃ D', perturbPressure delta D = .ok D' ∧ D'.P = some (P * (1 + delta)) ∧
      D'.logP = Real.log (P * (1 + delta)) ∧ D'.T = D.T ∧ D'.X = D.X ∧ D'.mf = D.mf ∧
      restore D' = D ∧ ∀ x, perturbPressure x D' = .throw := by
  unfold perturbPressure
  rw [if_neg (by rw [hb]; norm_num)]
  simp only [hP]
  refine ⟨_, rfl, rfl, rfl, rfl, rfl, rfl, ?_, ?_⟩
  · obtain ⟨T, P', logP, X, mf, pbuf, tbuf⟩ := D
    simp only at hP hl hb ht
    subst hP hl hb ht
    simp [restore, restoreT, updateTP, not_lt.mpr hpos.le]
  · intro x
    simp [updateTP, hpos]

example : ∃ D', perturbPressure 0.5 ⟨some 300, some 2, Real.log 2, [1], 3, -1, -1⟩ = .ok D' ∧
    restore D' = ⟨some 300, some 2, Real.log 2, [1], 3, -1, -1⟩ := by
  obtain ⟨D', h1, _, _, _, _, _, h2, _⟩ :=
    perturb_spec ⟨some 300, some 2, Real.log 2, [1], 3, -1, -1⟩ 2 0.5 rfl (by norm_num) rfl rfl rfl
  exact ⟨D', h1, h2⟩

end Verif.Burke
