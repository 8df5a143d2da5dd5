import Verif.OneDim.IonFlow
import Mathlib.Tactic.Positivity
import Mathlib.Tactic.LinearCombination

/-!
# Properties of the flow domain with ions (C104)
-/

namespace Verif.OneDim.IonFlow

open Finset Verif.OneDim.Flow

/-- A domain for the examples. -/
def exCfg (n : ℕ) : Cfg where
  nsp := n
  pts := 2
  z := fun j => j
  lam := false
  free := false
  two := false
  multi := false
  soret := false
  massBasis := false
  dovisc := false
  rad := false
  force := false
  doE := fun _ => false
  wt := fun _ => 1
  gas := fun _ _ => ⟨1, 1, 1, fun _ => 0, fun _ => 0⟩
  tr := fun _ _ => ⟨1, 1, 1, 1, fun _ => 0, fun _ => 0, fun _ _ => 0, fun _ => 0⟩
  press := 1
  sigma := 1
  epsL := 0
  epsR := 0
  kCO2 := none
  kH2O := none
  zfixed := 0
  tfixed := 0
  zLeft := 0
  tLeft := 0
  zRight := 0
  tRight := 0
  fixedT := fun _ => 300
  prev := fun _ _ => 0

/-! ## Bounds -/

theorem foldl_bounds (l : List ℕ) (hl : ∀ k ∈ l, oY + k < 2 ^ 64) (B : ℕ → ℝ × ℝ) (n : ℕ) :
    l.foldl (fun B k => setBounds (oY + k) (-(1 / 10 ^ 14)) 1 B) B n =
      if ∃ k ∈ l, n = oY + k then (-(1 / 10 ^ 14), 1) else B n := by
  induction l generalizing B with
  | nil => simp
  | cons a t ih =>
    rw [List.foldl_cons, ih (fun k hk => hl k (List.mem_cons_of_mem _ hk))]
    have ha : (oY + a) % 2 ^ 64 = oY + a := Nat.mod_eq_of_lt (hl a List.mem_cons_self)
    unfold setBounds
    rw [ha]
    by_cases h1 : ∃ k ∈ t, n = oY + k
    · obtain ⟨k, hk, rfl⟩ := h1
      rw [if_pos ⟨k, hk, rfl⟩, if_pos ⟨k, List.mem_cons_of_mem _ hk, rfl⟩]
    · rw [if_neg h1]
      by_cases h2 : n = oY + a
      · rw [if_pos h2, if_pos ⟨a, List.mem_cons_self, h2⟩]
      · rw [if_neg h2, if_neg]
        rintro ⟨k, hk, rfl⟩
        rcases List.mem_cons.1 hk with rfl | hk
        · exact h2 rfl
        · exact h1 ⟨k, hk, rfl⟩

/-- With a species named `E`: bounds of all components. -/
theorem bounds_electron {nsp : ℕ} (hn : oY + nsp ≤ 2 ^ 64) {q : ℕ → ℝ} {e : ℕ} (he : e < nsp) (tmax : ℝ) (n : ℕ) :
    bounds nsp q (some e) tmax n =
      if n = 6 + e then (-(1 / 10 ^ 18), 1)
      else if ∃ k < nsp, q k ≠ 0 ∧ n = 6 + k then (-(1 / 10 ^ 14), 1)
      else if n = 2 then (200, 2 * tmax)
      else if n < 6 then (-10 ^ 20, 10 ^ 20)
      else (-(1 / 10 ^ 7), 10 ^ 5) := by
  unfold bounds
  have hl : ∀ k ∈ kCharge nsp q, oY + k < 2 ^ 64 := by
    intro k hk
    have : k < nsp := List.mem_range.1 (List.mem_filter.1 hk).1
    omega
  have hex : (∃ k ∈ kCharge nsp q, n = oY + k) ↔ ∃ k < nsp, q k ≠ 0 ∧ n = 6 + k := by
    unfold kCharge
    constructor
    · rintro ⟨k, hk, h⟩
      obtain ⟨a, b⟩ := List.mem_filter.1 hk
      exact ⟨k, List.mem_range.1 a, by simpa using b, h⟩
    · rintro ⟨k, hk, hq, h⟩
      exact ⟨k, List.mem_filter.2 ⟨List.mem_range.2 hk, by simpa using hq⟩, h⟩
  have e1 : (oY + e) % 2 ^ 64 = 6 + e := Nat.mod_eq_of_lt (by omega)
  show (if n = (oY + e) % 2 ^ 64 then _ else _) = _
  rw [e1]
  by_cases h1 : n = 6 + e
  · rw [if_pos h1, if_pos h1]
  rw [if_neg h1, if_neg h1, foldl_bounds _ hl]
  by_cases h2 : ∃ k < nsp, q k ≠ 0 ∧ n = 6 + k
  · rw [if_pos (hex.2 h2), if_pos h2]
  rw [if_neg (fun h => h2 (hex.1 h)), if_neg h2]
  unfold setBounds flowBounds
  simp only [oE, oT, oY]
  by_cases h3 : n = 2
  · subst h3
    norm_num
  · by_cases h4 : n = 4
    · subst h4
      norm_num
    · rw [if_neg (by simpa using h4)]

example : bounds 2 (fun k => if k = 1 then -1 else 0) (some 1) 3000 7 = (-(1 / 10 ^ 18), 1) := by
  rw [bounds_electron (by norm_num) (by norm_num)]
  simp

/-- Without a species of that name the bounds meant for the electron are given to the velocity of the oxidiser. -/
theorem bounds_no_electron (nsp : ℕ) (q : ℕ → ℝ) (tmax : ℝ) :
    bounds nsp q none tmax oUo = (-(1 / 10 ^ 18), 1) ∧ flowBounds tmax oUo = (-10 ^ 20, 10 ^ 20) := by
  refine ⟨?_, by unfold flowBounds; norm_num⟩
  unfold bounds setBounds npos
  norm_num

/-! ## Stage and flags -/

theorem setStage_iff {n : ℕ} {s s' : Ion} : setStage n s = .ok s' ↔ (n = 1 ∨ n = 2) ∧ s' = { s with stage := n } := by
  unfold setStage
  split_ifs with h
  · simp [h, eq_comm]
  · simp [h]

theorem setStage_throw {n : ℕ} {s : Ion} (h1 : n ≠ 1) (h2 : n ≠ 2) : setStage n s = .throw := by
  unfold setStage
  rw [if_neg (by tauto)]

/-- For all points, or for one: the flags, and the need for a new Jacobian exactly if a flag has changed. -/
theorem setField_all (v : Bool) (s : Ion) :
    (∀ i < s.c.pts, (setField v none s).doF i = v) ∧
    ((setField v none s).jacOld = true ↔ s.jacOld = true ∨ ∃ i < s.c.pts, s.doF i ≠ v) := by
  constructor
  · intro i hi
    simp [setField, hi]
  · simp [setField]

theorem setField_one (v : Bool) (k : ℕ) (s : Ion) :
    (setField v (some k) s).doF k = v ∧ (∀ i, i ≠ k → (setField v (some k) s).doF i = s.doF i) ∧
    ((setField v (some k) s).jacOld = true ↔ s.jacOld = true ∨ s.doF k ≠ v) := by
  refine ⟨by simp [setField], fun i hi => by simp [setField, hi], by simp [setField]⟩

example : ∃ s : Ion, s.jacOld = false ∧ (setField true (some 0) s).jacOld = true ∧
    (setField false (some 0) s).jacOld = false := by
  let c0 : Cfg := exCfg 1
  exact ⟨⟨c0, fun _ => 0, none, 1, fun _ _ => 0, fun _ => false, fun _ => true, false⟩, rfl, rfl, rfl⟩

/-- Fixing the field also stops the refinement on velocity, strain rate and temperature, which the constructor leaves
on: solving and fixing again does not give the refiner back. -/
theorem fix_refiner (j j' : Option ℕ) (s : Ion) :
    initActive oT = true ∧ initActive oU = true ∧ initActive oV = true ∧
    (setField false j (setField true j' s)).active oT = false ∧
    (setField false j (setField true j' s)).active oU = false ∧
    (setField false j (setField true j' s)).active oV = false ∧
    (setField false j (setField true j' s)).active oE = false ∧
    ∀ n, 4 < n → (setField false j (setField true j' s)).active n = s.active n := by
  refine ⟨by decide, by decide, by decide, by simp [setField], by simp [setField], by simp [setField],
    by simp [setField], fun n hn => ?_⟩
  have h0 : n ≠ 0 := by omega
  have h1 : n ≠ 1 := by omega
  have h2 : n ≠ 2 := by omega
  have h4 : n ≠ 4 := by omega
  simp [setField, h0, h1, h2, h4]

/-- After a change of the grid all the points get the flag of the first one, if it is on. -/
theorem finalize_on (n : ℕ) (s : Ion) (hn : 0 < n) (hp : 0 < s.c.pts) (h : s.doF 0 = true) :
    ∀ i < n, (finalize (resize n s)).doF i = true := by
  intro i hi
  have h0 : (resize n s).doF 0 = true := by simp [resize, hn, hp, h]
  unfold finalize
  rw [if_pos h0]
  exact (setField_all true (resize n s)).1 i hi

theorem finalize_off (n : ℕ) (s : Ion) (h : s.doF 0 = false) (i : ℕ) :
    (finalize (resize n s)).doF i = if i < s.c.pts ∧ i < n then s.doF i else false := by
  have h0 : (resize n s).doF 0 = false := by simp [resize, h]
  unfold finalize
  rw [h0]
  simp [resize]

/-- The field is always a component that is solved for. -/
theorem active_field (s : Ion) : componentActive s 4 = true ∧ (componentActive s 1 = s.c.lam) ∧
    (componentActive s 3 = s.c.lam) ∧ (componentActive s 5 = s.c.two) ∧
    ∀ n, n = 0 ∨ n = 2 ∨ 5 < n → componentActive s n = true := by
  refine ⟨rfl, rfl, rfl, rfl, ?_⟩
  intro n h
  unfold componentActive
  rcases h with rfl | rfl | h
  · rfl
  · rfl
  · simp only [oE, oV, oL, oUo]
    rw [if_neg (by omega), if_neg (by omega), if_neg (by omega)]

/-- The flags have no influence on fluxes or residuals: they are decided by the stage alone. -/
theorem flags_unused (K : Consts) (s : Ion) (f : ℕ → Bool) (b : Buf) (x : Sol) (rdt : ℝ) (jmin jmax : ℕ) (r : ℕ → ℝ) :
    evalE K { s with doF := f } b x jmin jmax r = evalE K s b x jmin jmax r ∧
    fluxes { s with doF := f } x jmin jmax b = fluxes s x jmin jmax b ∧
    species { s with doF := f } b rdt x = species s b rdt x := ⟨rfl, rfl, rfl⟩

/-! ## Imported transport of the electron -/

/-- With an electron: its own element of the row of the point. -/
theorem import_electron {nsp e j : ℕ} (h : e + nsp * j < 2 ^ 64) : importIdx nsp (some e) j = e + nsp * j :=
  Nat.mod_eq_of_lt h

/-- Without a species named `E`: outside the array at the first point, the last species of the point before
otherwise. -/
theorem import_no_electron {nsp : ℕ} (hn : 0 < nsp) :
    importIdx nsp none 0 = 2 ^ 64 - 1 ∧
    ∀ j, nsp * (j + 1) < 2 ^ 64 → importIdx nsp none (j + 1) = (nsp - 1) + nsp * j := by
  unfold importIdx npos
  refine ⟨by simp, fun j hj => ?_⟩
  simp only [Option.getD_none]
  rw [Nat.mul_succ] at hj ⊢
  omega

theorem import_values (wtE T rho wtm : ℝ) (m d : ℕ → ℝ) :
    (importVals wtE T rho wtm m d).1 = ∑ i ∈ range 6, m i * Real.log T ^ i ∧
    (importVals wtE T rho wtm m d).2 = wtE * rho / wtm * ∑ i ∈ range 6, d i * Real.log T ^ i := by
  unfold importVals poly5
  simp only [sum_range_succ, sum_range_zero]
  constructor <;> ring

/-! ## Fluxes -/

section flux

variable (s : Ion) (b : Buf) (x : Sol) (j : ℕ)

/-- Mole fraction gradient times stored coefficient. -/
theorem raw_eq (k : ℕ) : raw s b x j k =
    (b.tc j).diff k * (b.wtm j * x j (6 + k) / s.c.wt k - b.wtm (j + 1) * x (j + 1) (6 + k) / s.c.wt k) /
      (s.c.z (j + 1) - s.c.z j) := by
  unfold raw Xf Yv
  ring

theorem frozen_ion {k : ℕ} (h : s.q k ≠ 0) : frozen s b x j k = 0 := by
  unfold frozen
  rw [if_neg h]

theorem frozen_neutral {k : ℕ} (h : s.q k = 0) : frozen s b x j k =
    raw s b x j k - (∑ m ∈ range s.c.nsp, if s.q m = 0 then raw s b x j m else 0) * x j (6 + k) := by
  classical
  unfold frozen
  rw [if_pos h, sum_filter]
  unfold Yv
  ring

/-- Frozen ions: the sum of the fluxes is that of the uncorrected ones times the mass fraction of the ions. -/
theorem frozen_sum (hY : ∑ k ∈ range s.c.nsp, x j (6 + k) = 1) :
    ∑ k ∈ range s.c.nsp, frozen s b x j k =
      (∑ k ∈ range s.c.nsp, if s.q k = 0 then raw s b x j k else 0) *
        ∑ k ∈ range s.c.nsp, if s.q k = 0 then 0 else x j (6 + k) := by
  classical
  have h1 : ∀ k ∈ range s.c.nsp, frozen s b x j k = (if s.q k = 0 then raw s b x j k else 0) -
      (∑ m ∈ range s.c.nsp, if s.q m = 0 then raw s b x j m else 0) *
        (x j (6 + k) - if s.q k = 0 then 0 else x j (6 + k)) := by
    intro k _
    by_cases h : s.q k = 0
    · rw [frozen_neutral s b x j h, if_pos h, if_pos h]
      ring
    · rw [frozen_ion s b x j h, if_neg h, if_neg h]
      ring
  rw [sum_congr rfl h1, sum_sub_distrib, ← mul_sum, sum_sub_distrib, hY]
  ring

/-- In a gas without ions both methods give the mixture averaged fluxes of the base class with mole fraction
gradients. -/
theorem frozen_no_ions (hq : ∀ k, s.q k = 0) (hm : s.c.multi = false) (hb : s.c.massBasis = false) (k : ℕ) :
    frozen s b x j k = diffFlux s.c b x j k := by
  classical
  have hr : ∀ i, rawFlux s.c b x j i = raw s b x j i := by
    intro i
    unfold rawFlux raw
    rw [hb]
    simp only [Bool.false_eq_true, if_false]
    ring
  unfold diffFlux
  rw [hm]
  simp only [Bool.false_eq_true, if_false]
  rw [frozen_neutral s b x j (hq k), hr]
  simp only [hr, hq, if_true]
  unfold Yv
  show _ = _ + _ * x j (6 + k)
  ring

theorem electric_no_ions (hq : ∀ k, s.q k = 0) (k : ℕ) : electric s b x j k = frozen s b x j k := by
  classical
  rw [frozen_neutral s b x j (hq k)]
  unfold electric drifted
  simp only [hq, if_true, ne_eq, not_true_eq_false, filter_false, sum_empty, sub_zero, div_one]
  unfold Yv
  show _ + x j (6 + k) * _ = _
  ring

/-- An ion diffuses and drifts, without correction. -/
theorem electric_ion {k : ℕ} (h : s.q k ≠ 0) : electric s b x j k =
    raw s b x j k + b.rho j * (x j (6 + k) + x (j + 1) (6 + k)) / 2 * x j 4 * s.q k * s.mob j k := by
  unfold electric drifted
  rw [if_neg h, if_neg h]
  unfold Yv
  show _ = _
  simp only [oY, oE]
  ring

/-- The drift has the direction of the field for positive ions. -/
theorem drift_sign {k : ℕ} (h : 0 < s.q k) (hr : 0 < b.rho j) (hy : 0 < x j (6 + k) + x (j + 1) (6 + k))
    (hm : 0 < s.mob j k) : (raw s b x j k < electric s b x j k ↔ 0 < x j 4) ∧
      (electric s b x j k < raw s b x j k ↔ x j 4 < 0) := by
  rw [electric_ion s b x j h.ne']
  have hp : 0 < b.rho j * (x j (6 + k) + x (j + 1) (6 + k)) / 2 * (s.q k * s.mob j k) := by positivity
  have e : b.rho j * (x j (6 + k) + x (j + 1) (6 + k)) / 2 * x j 4 * s.q k * s.mob j k =
      b.rho j * (x j (6 + k) + x (j + 1) (6 + k)) / 2 * (s.q k * s.mob j k) * x j 4 := by ring
  rw [e]
  generalize b.rho j * (x j (6 + k) + x (j + 1) (6 + k)) / 2 * (s.q k * s.mob j k) = g at hp
  constructor
  · rw [lt_add_iff_pos_right, mul_pos_iff_of_pos_left hp]
  · constructor
    · intro h'
      by_contra hc
      have := mul_nonneg hp.le (not_lt.1 hc)
      linarith
    · intro h'
      have := mul_neg_of_pos_of_neg hp h'
      linarith

theorem electric_neutral {k : ℕ} (h : s.q k = 0) : electric s b x j k = raw s b x j k -
    x j (6 + k) / (1 - ∑ m ∈ range s.c.nsp, if s.q m = 0 then 0 else x j (6 + m)) *
      ∑ m ∈ range s.c.nsp, (raw s b x j m + if s.q m = 0 then 0 else
        b.rho j * (x j (6 + m) + x (j + 1) (6 + m)) / 2 * x j 4 * s.q m * s.mob j m) := by
  classical
  have hd : ∀ m, drifted s b x j m = raw s b x j m + if s.q m = 0 then 0 else
        b.rho j * (x j (6 + m) + x (j + 1) (6 + m)) / 2 * x j 4 * s.q m * s.mob j m := by
    intro m
    unfold drifted Yv
    by_cases hm : s.q m = 0
    · simp [hm]
    · rw [if_neg hm, if_neg hm]
      simp only [oY, oE]
      ring
  unfold electric
  rw [if_pos h, hd, if_pos h, sum_filter]
  simp only [hd]
  have hs : ∀ m, (if s.q m ≠ 0 then Yv x j m else 0) = if s.q m = 0 then 0 else x j (6 + m) := by
    intro m
    by_cases hm : s.q m = 0 <;> simp [hm, Yv]
  simp only [hs]
  show _ + x j (6 + k) / _ * _ = _
  ring

/-- With the field: the diffusive mass fluxes sum to zero. -/
theorem electric_sum (hY : ∑ k ∈ range s.c.nsp, x j (6 + k) = 1)
    (hn : ∑ k ∈ range s.c.nsp, (if s.q k = 0 then x j (6 + k) else 0) ≠ 0) :
    ∑ k ∈ range s.c.nsp, electric s b x j k = 0 := by
  classical
  have hc : 1 - ∑ m ∈ range s.c.nsp, (if s.q m = 0 then 0 else x j (6 + m)) =
      ∑ k ∈ range s.c.nsp, (if s.q k = 0 then x j (6 + k) else 0) := by
    rw [← hY, ← sum_sub_distrib]
    apply sum_congr rfl
    intro k _
    split_ifs <;> ring
  set N := ∑ k ∈ range s.c.nsp, (if s.q k = 0 then x j (6 + k) else 0) with hN
  set D := ∑ m ∈ range s.c.nsp, (raw s b x j m + if s.q m = 0 then 0 else
        b.rho j * (x j (6 + m) + x (j + 1) (6 + m)) / 2 * x j 4 * s.q m * s.mob j m) with hD
  have h1 : ∀ k ∈ range s.c.nsp, electric s b x j k =
      (raw s b x j k + if s.q k = 0 then 0 else
        b.rho j * (x j (6 + k) + x (j + 1) (6 + k)) / 2 * x j 4 * s.q k * s.mob j k) -
      (if s.q k = 0 then x j (6 + k) else 0) * (D / N) := by
    intro k _
    by_cases h : s.q k = 0
    · rw [electric_neutral s b x j h, hc, if_pos h, if_pos h]
      ring
    · rw [electric_ion s b x j h, if_neg h, if_neg h]
      ring
  rw [sum_congr rfl h1, sum_sub_distrib, ← sum_mul, ← hN, ← hD]
  field_simp
  ring

/-- The fluxes written, by the stage. -/
theorem fluxes_eq (j0 j1 k : ℕ) : (fluxes s x j0 j1 b).flux j k =
    if j0 ≤ j ∧ j < j1 ∧ s.stage = 1 then frozen s b x j k
    else if j0 ≤ j ∧ j < j1 ∧ s.stage = 2 then electric s b x j k else b.flux j k := by
  unfold fluxes
  by_cases h : j0 ≤ j ∧ j < j1
  · by_cases h1 : s.stage = 1
    · simp [h, h1]
    · by_cases h2 : s.stage = 2 <;> simp [h, h1, h2]
  · have a : ¬ (j0 ≤ j ∧ j < j1 ∧ s.stage = 1) := fun t => h ⟨t.1, t.2.1⟩
    have a' : ¬ (j0 ≤ j ∧ j < j1 ∧ s.stage = 2) := fun t => h ⟨t.1, t.2.1⟩
    simp only [h, a, a', if_false]

/-- With mass fraction gradients selected the coefficients for mass fractions are applied to mole fractions. -/
theorem mass_basis_mixed (hm : s.c.multi = false) (hb : s.c.massBasis = true) {j0 j1 : ℕ} (h0 : j0 ≤ j) (h1 : j < j1)
    (k : ℕ) : raw s (updateTransport s.c x j0 j1 b) x j k =
      (trAt s.c x j).rho * (trAt s.c x j).mixMass k *
        (b.wtm j * x j (6 + k) / s.c.wt k - b.wtm (j + 1) * x (j + 1) (6 + k) / s.c.wt k) /
        (s.c.z (j + 1) - s.c.z j) := by
  rw [raw_eq]
  unfold updateTransport
  simp only [h0, h1, and_self, if_true]
  unfold trCol
  simp only [hm, hb, Bool.false_eq_true, if_false, if_true]
  ring

/-- The choice of the gradient and of thermal diffusion has no other effect. -/
theorem options_unused (mb so : Bool) (k : ℕ) :
    frozen { s with c := { s.c with massBasis := mb, soret := so } } b x j k = frozen s b x j k ∧
    electric { s with c := { s.c with massBasis := mb, soret := so } } b x j k = electric s b x j k := ⟨rfl, rfl⟩

end flux

/-- Two neutral species and an ion at two points: the fluxes of the frozen method do not sum to zero. -/
theorem frozen_not_zero : ∃ (s : Ion) (b : Buf) (x : Sol), (∀ j, ∑ k ∈ range s.c.nsp, x j (6 + k) = 1) ∧
    (∀ k, 0 < s.c.wt k) ∧ ∑ k ∈ range s.c.nsp, frozen s b x 0 k ≠ 0 := by
  let c0 : Cfg := exCfg 3
  let s0 : Ion := ⟨c0, fun k => if k = 2 then 1 else 0, none, 1, fun _ _ => 0, fun _ => false, fun _ => true, false⟩
  let b0 : Buf := ⟨fun _ => 1, fun _ => 1, fun _ => 1, fun _ _ => 0, fun _ _ => 0,
    fun _ => ⟨1, 1, fun k => if k = 0 then 1 else 2, fun _ _ => 0, fun _ => 0⟩, fun _ _ => 0, fun _ => 0, 0, 0⟩
  let x0 : Sol := fun j n => if n = 6 then (if j = 0 then 1 / 4 else 1 / 2)
    else if n = 7 then (if j = 0 then 1 / 2 else 1 / 4) else if n = 8 then 1 / 4 else 0
  have hY : ∀ j, ∑ k ∈ range s0.c.nsp, x0 j (6 + k) = 1 := by
    intro j
    show ∑ k ∈ range 3, x0 j (6 + k) = 1
    simp only [sum_range_succ, sum_range_zero]
    by_cases hj : j = 0 <;> norm_num [x0, hj]
  refine ⟨s0, b0, x0, hY, fun k => one_pos, ?_⟩
  rw [frozen_sum _ _ _ _ (hY 0)]
  show (∑ k ∈ range 3, _) * (∑ k ∈ range 3, _) ≠ 0
  simp only [sum_range_succ, sum_range_zero, raw_eq]
  norm_num [s0, c0, b0, x0, exCfg]

/-! ## Residuals -/

section residual

variable (K : Consts) (s : Ion) (b : Buf) (x : Sol)

theorem rhoE_eq (j : ℕ) : rhoE K s b x j =
    K.e * K.NA * b.rho j * ∑ k ∈ range s.c.nsp, s.q k * x j (6 + k) / s.c.wt k := by
  classical
  unfold rhoE Yv
  rw [sum_filter, mul_sum]
  apply sum_congr rfl
  intro k _
  by_cases h : s.q k = 0
  · simp [h]
  · rw [if_pos h]
    show _ * (_ * x j (6 + k) / _) = _
    ring

/-- First stage: the residual of the field is the field. -/
theorem field_stage1 (h : s.stage = 1) {jmin jmax j : ℕ} (h0 : jmin ≤ j) (h1 : j ≤ jmax) (r : ℕ → ℝ) :
    evalE K s b x jmin jmax r j = x j 4 := by
  unfold evalE
  rw [h]
  simp [h0, h1]

/-- Second stage: field zero at the left, Gauss' law at the other points of the range; the others are untouched. -/
theorem field_stage2 (h : s.stage = 2) (hp : 2 ≤ s.c.pts) {jmin jmax : ℕ} (hm : jmin ≤ jmax) (hj : jmax < s.c.pts)
    (r : ℕ → ℝ) (j : ℕ) :
    evalE K s b x jmin jmax r j =
      if jmin ≤ j ∧ j ≤ jmax then
        (if j = 0 then x 0 4
         else (x j 4 - x (j - 1) 4) / (s.c.z j - s.c.z (j - 1)) - rhoE K s b x j / K.eps0)
      else r j := by
  unfold evalE dEdz
  rw [h]
  simp only [ne_eq, not_true_eq_false, if_false]
  by_cases hin : jmin ≤ j ∧ j ≤ jmax
  · rw [if_pos hin]
    by_cases hj0 : j = 0
    · subst hj0
      have hz : jmin = 0 := by omega
      rw [if_neg (by omega), if_pos hz, if_pos rfl]
      by_cases he : jmax = s.c.pts - 1
      · rw [if_pos he, Function.update_of_ne (by omega), Function.update_self]
      · rw [if_neg he, Function.update_self]
    · rw [if_neg hj0]
      by_cases hi : max jmin 1 ≤ j ∧ j ≤ min jmax (s.c.pts - 2)
      · rw [if_pos hi]
      · rw [if_neg hi]
        have he : jmax = s.c.pts - 1 ∧ j = jmax := by omega
        rw [if_pos he.1, he.2, Function.update_self]
  · rw [if_neg hin, if_neg (by omega)]
    by_cases he : jmax = s.c.pts - 1
    · rw [if_pos he, Function.update_of_ne (by omega)]
      by_cases hz : jmin = 0
      · rw [if_pos hz, Function.update_of_ne (by omega), if_neg hin]
      · rw [if_neg hz, if_neg hin]
    · rw [if_neg he]
      by_cases hz : jmin = 0
      · rw [if_pos hz, Function.update_of_ne (by omega), if_neg hin]
      · rw [if_neg hz, if_neg hin]

/-- A solution of the second stage: the field is the charge between the left end and the point, over the
permittivity. -/
theorem gauss (h : s.stage = 2) (hp : 2 ≤ s.c.pts) (hz : ∀ j, s.c.z j < s.c.z (j + 1)) (r : ℕ → ℝ)
    (hr : ∀ j < s.c.pts, evalE K s b x 0 (s.c.pts - 1) r j = 0) {j : ℕ} (hj : j < s.c.pts) :
    x j 4 = ∑ i ∈ range j, rhoE K s b x (i + 1) / K.eps0 * (s.c.z (i + 1) - s.c.z i) := by
  have key : ∀ i < s.c.pts, (if i = 0 then x 0 4
         else (x i 4 - x (i - 1) 4) / (s.c.z i - s.c.z (i - 1)) - rhoE K s b x i / K.eps0) = 0 := by
    intro i hi
    have := hr i hi
    rw [field_stage2 K s b x h hp (by omega) (by omega), if_pos (by omega)] at this
    exact this
  induction j with
  | zero =>
    have := key 0 hj
    simpa using this
  | succ n ih =>
    rw [sum_range_succ, ← ih (by omega)]
    have := key (n + 1) hj
    rw [if_neg (by omega), Nat.add_sub_cancel] at this
    have hd : s.c.z (n + 1) - s.c.z n ≠ 0 := (sub_pos.2 (hz n)).ne'
    have e : (x (n + 1) 4 - x n 4) / (s.c.z (n + 1) - s.c.z n) = rhoE K s b x (n + 1) / K.eps0 := by linarith
    rw [← e, div_mul_cancel₀ _ hd]
    ring

/-- Half of the mass is an ion of charge one: a solution with the field `j / 2`, and its fluxes sum to zero. -/
example : ∃ (K : Consts) (s : Ion) (b : Buf) (x : Sol), s.stage = 2 ∧ 2 ≤ s.c.pts ∧
    (∀ j, s.c.z j < s.c.z (j + 1)) ∧ (∀ j < s.c.pts, evalE K s b x 0 (s.c.pts - 1) (fun _ => 0) j = 0) ∧
    x 1 4 = 1 / 2 ∧ ∑ k ∈ range s.c.nsp, electric s b x 0 k = 0 ∧ electric s b x 1 1 ≠ 0 := by
  let s0 : Ion := ⟨exCfg 2, fun k => if k = 1 then 1 else 0, some 1, 2, fun _ _ => 1, fun _ => true, fun _ => true, false⟩
  let b0 : Buf := ⟨fun _ => 1, fun _ => 1, fun _ => 1, fun _ _ => 0, fun _ _ => 0,
    fun _ => ⟨1, 1, fun _ => 1, fun _ _ => 0, fun _ => 0⟩, fun _ _ => 0, fun _ => 0, 0, 0⟩
  let x0 : Sol := fun j n => if n = 4 then j / 2 else 1 / 2
  refine ⟨⟨1, 1, 1⟩, s0, b0, x0, rfl, le_refl _, fun j => ?_, fun j hj => ?_, by norm_num [x0], ?_, ?_⟩
  · show ((j : ℕ) : ℝ) < ((j + 1 : ℕ) : ℝ)
    exact_mod_cast Nat.lt_succ_self j
  · have hj' : j < 2 := hj
    rw [field_stage2 _ _ _ _ rfl (le_refl _) (by show 0 ≤ 2 - 1; omega) (by show 2 - 1 < 2; omega),
      if_pos ⟨by omega, by show j ≤ 2 - 1; omega⟩, rhoE_eq]
    show (if j = 0 then _ else _ - _ * (∑ k ∈ range 2, _) / _) = _
    simp only [sum_range_succ, sum_range_zero]
    have hc : j = 0 ∨ j = 1 := by omega
    rcases hc with rfl | rfl
    · norm_num [x0]
    · norm_num [x0, s0, b0, exCfg]
  · apply electric_sum
    · show ∑ k ∈ range 2, _ = _
      simp only [sum_range_succ, sum_range_zero]
      norm_num [x0]
    · show ∑ k ∈ range 2, _ ≠ _
      simp only [sum_range_succ, sum_range_zero]
      norm_num [x0, s0]
  · rw [electric_ion _ _ _ _ (by norm_num [s0]), raw_eq]
    norm_num [x0, s0, b0, exCfg]

/-- Without charge there is no field. -/
theorem no_charge (h : s.stage = 2) (hp : 2 ≤ s.c.pts) (hz : ∀ j, s.c.z j < s.c.z (j + 1)) (r : ℕ → ℝ)
    (hr : ∀ j < s.c.pts, evalE K s b x 0 (s.c.pts - 1) r j = 0)
    (hn : ∀ j < s.c.pts, ∑ k ∈ range s.c.nsp, s.q k * x j (6 + k) / s.c.wt k = 0) {j : ℕ} (hj : j < s.c.pts) :
    x j 4 = 0 := by
  rw [gauss K s b x h hp hz r hr hj]
  apply sum_eq_zero
  intro i hi
  rw [rhoE_eq, hn (i + 1) (by have := mem_range.1 hi; omega)]
  simp

/-- Species: the residual of the flow, except for ions at the left point in the second stage. -/
theorem species_eq (rdt : ℝ) (j k : ℕ) :
    (s.stage = 2 → s.q k ≠ 0 → species s b rdt x 0 k = x 0 (6 + k) - x 1 (6 + k)) ∧
    ((s.stage ≠ 2 ∨ s.q k = 0 ∨ j ≠ 0) → species s b rdt x j k = Flow.species s.c b rdt x j k) := by
  unfold species
  constructor
  · intro h hq
    rw [if_pos ⟨h, rfl, hq⟩]
    rfl
  · intro h
    rw [if_neg (by tauto)]

/-- The inlet then adds its mass flow of the ion, so that a solution has a jump of the mass fraction between the first
two points equal to a mass flux. -/
theorem inlet_ion (temp V0 mdot : ℝ) (yin : ℕ → ℝ) (rdt : ℝ) {k : ℕ} (hk : k < s.c.nsp) (h : s.stage = 2)
    (hq : s.q k ≠ 0) (hL : k ≠ b.kL) (rb : ℕ → ℝ) (hrb : rb (6 + k) = species s b rdt x 0 k) :
    leftRb s.c (.inlet temp V0 mdot yin) b x rb (6 + k) =
      x 0 (6 + k) - x 1 (6 + k) + leftMdot s.c b mdot (x 0) * yin k := by
  unfold leftRb
  have e : 6 + k - oY = k := by simp [oY]
  simp only [oT, oL, oV, oU]
  rw [if_neg (by omega), if_neg (by omega), if_neg (by omega), if_neg (by omega),
    if_pos ⟨by simp [oY], by simp [oY, hk]⟩, e, if_neg hL, hrb, (species_eq s b x rdt 0 k).1 h hq]

/-- If the largest mass fraction at the left belongs to an ion, no equation fixes the sum of the mass fractions there:
the residuals at the left do not change when the mass fraction of this ion at the first two points is raised by the same
amount. -/
theorem left_excess_ion (rdt : ℝ) (h : s.stage = 2) (hq : s.q b.kL ≠ 0) (d : ℝ) (k : ℕ) :
    species s b rdt (fun j n => if n = 6 + b.kL then x j n + d else x j n) 0 k = species s b rdt x 0 k := by
  classical
  by_cases hk : s.q k ≠ 0
  · rw [(species_eq s b _ rdt 0 k).1 h hk, (species_eq s b _ rdt 0 k).1 h hk]
    by_cases e : 6 + k = 6 + b.kL
    · simp only [e, if_true]
      ring
    · simp only [e, if_false]
  · push Not at hk
    have hne : k ≠ b.kL := by
      rintro rfl
      exact hq hk
    rw [(species_eq s b _ rdt 0 k).2 (Or.inr (Or.inl hk)), (species_eq s b _ rdt 0 k).2 (Or.inr (Or.inl hk))]
    unfold Flow.species
    simp only [if_true, if_neg hne]
    have e : 6 + k ≠ 6 + b.kL := by omega
    unfold Yv rhoU
    simp only [oY, oU]
    rw [if_neg e, if_neg (by omega)]

end residual

end Verif.OneDim.IonFlow
