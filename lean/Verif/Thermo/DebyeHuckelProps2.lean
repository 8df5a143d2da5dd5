import Verif.Thermo.DebyeHuckelProps
import Mathlib.Analysis.Complex.ExponentialBounds

/-!
# C87: Debye-Hückel electrolytes: formulas, derivatives, chemical potentials, parameters
-/

namespace Verif.DH

open Finset Filter Topology

variable {D : Par} {m : ℝ → ℕ → ℝ} {m' : ℕ → ℝ} {t : ℝ}

/-! ## Examples of paths -/

/-- Water and a salt of two monovalent ions. -/
noncomputable def saltPar (f : Form) : Par :=
  ⟨3, 1, fun k => if k = 1 then 1 else if k = 2 then -1 else 0,
    fun k => if k = 1 then 1 else if k = 2 then -1 else 0, fun _ => 1, fun _ => 0, 1, 30,
    fun _ _ => 0, fun _ => false, f, false⟩

theorem salt_path (f : Form) : Path (saltPar f) (fun u k => if k = 0 then 1 else u)
    (fun k => if k = 0 then 0 else 1) 1 := by
  have e : Ico 1 3 = ({1, 2} : Finset ℕ) := by decide
  constructor
  · intro k
    by_cases hk : k = 0
    · simp only [hk, if_true]; exact hasDerivAt_const 1 (1:ℝ)
    · simp only [hk, if_false]; exact hasDerivAt_id' 1
  · simp
  · simp [saltPar]
  · simp [saltPar]
  · simp [saltPar]
  · simp [saltPar, e]
  · simp [saltPar, e]
  · simp [saltPar, e]; norm_num

example : ∃ (g' : ℕ → ℝ) (w' : ℝ),
    (∀ k, HasDerivAt (fun u => lnSolute (saltPar .dilute) 1 (fun k => if k = 0 then 1 else u) k) (g' k) 1) ∧
    HasDerivAt (fun u => lnSolvent (saltPar .dilute) 1 (fun k => if k = 0 then 1 else u)
      (solventX (saltPar .dilute) (fun k => if k = 0 then 1 else u))) w' 1 ∧
    ∑ k ∈ Ico 1 3, (if k = 0 then (1:ℝ) else 1) * g' k + w' / 1
      + ∑ k ∈ Ico 1 3, (if k = 0 then (0:ℝ) else 1) = 0 :=
  gd_dilute (salt_path .dilute) rfl 1

example : ∃ (g' : ℕ → ℝ) (_ : ℝ), (∀ k, HasDerivAt (fun u => lnSolute (saltPar .betaij) 1
      ((fun u k => if k = 0 then 1 else u : ℝ → ℕ → ℝ) u) k) (g' k) 1) ∧ True := by
  obtain ⟨g', w', h, _⟩ := gd_betaij (salt_path .betaij) rfl 1 (by norm_num [saltPar]) (fun _ _ _ _ => rfl)
  exact ⟨g', w', h, trivial⟩

example : ∃ (g' : ℕ → ℝ) (_ : ℝ), (∀ k, HasDerivAt (fun u => lnSolute (saltPar .pitzer) 1
      ((fun u k => if k = 0 then 1 else u : ℝ → ℕ → ℝ) u) k) (g' k) 1) ∧ True := by
  obtain ⟨g', w', h, _⟩ := gd_pitzer (salt_path .pitzer) rfl 1 (by norm_num [saltPar]) (fun _ _ _ _ => rfl)
  exact ⟨g', w', h, trivial⟩

example : ∃ (g' : ℕ → ℝ) (_ : ℝ), (∀ k, HasDerivAt (fun u => lnSolute (saltPar .bdotCommon) 1
      ((fun u k => if k = 0 then 1 else u : ℝ → ℕ → ℝ) u) k) (g' k) 1) ∧ True := by
  obtain ⟨g', w', h, _⟩ := gd_common (salt_path .bdotCommon) rfl 1 (by norm_num [saltPar]) (fun _ _ => rfl)
  exact ⟨g', w', h, trivial⟩

example : ∃ (g' : ℕ → ℝ) (_ : ℝ), (∀ k, 0 < k → k < 3 → HasDerivAt (fun u => lnSolute (saltPar .bdotAk) 1
      ((fun u k => if k = 0 then 1 else u : ℝ → ℕ → ℝ) u) k) (g' k) 1) ∧ True := by
  obtain ⟨g', w', h, _⟩ := gd_ak_ray (c := 1) (salt_path .bdotAk) rfl rfl 1 (by norm_num [saltPar])
    (fun _ _ _ => by norm_num [saltPar]) (fun _ _ => rfl) (fun _ => rfl)
    (fun k hk _ => by simp [Nat.pos_iff_ne_zero.mp hk])
  exact ⟨g', w', h, trivial⟩

/-! ## Two ions of different size: Gibbs-Duhem does not hold -/

/-- Two cations with radii 1 and 3 and an anion. -/
noncomputable def swapPar : Par :=
  ⟨4, 1, fun k => if k = 1 ∨ k = 2 then 1 else if k = 3 then -1 else 0,
    fun k => if k = 1 ∨ k = 2 then 1 else if k = 3 then -1 else 0,
    fun k => if k = 2 then 3 else 1, fun _ => 0, 1, 30,
    fun _ _ => 0, fun _ => false, .bdotAk, false⟩

theorem swap_path : Path swapPar
    (fun u k => if k = 1 then 1 / 2 + u else if k = 2 then 1 / 2 - u else 1)
    (fun k => if k = 1 then 1 else if k = 2 then -1 else 0) 0 := by
  have e : Ico 1 4 = ({1, 2, 3} : Finset ℕ) := by decide
  constructor
  · intro k
    by_cases h1 : k = 1
    · simp only [h1, if_true]; exact (hasDerivAt_id' 0).const_add _
    · by_cases h2 : k = 2
      · simp only [h2, if_true]
        exact (hasDerivAt_id' 0).const_sub _
      · simp only [h1, h2, if_false]; exact hasDerivAt_const 0 (1:ℝ)
  · simp
  · simp [swapPar]
  · simp [swapPar]
  · simp [swapPar]
  · simp [swapPar, e]; norm_num
  · simp [swapPar, e]; norm_num
  · simp [swapPar, e]; norm_num

/-- Exchanging one cation for the other at constant ionic strength violates the equation for every
A ≠ 0. -/
theorem gd_ak_refuted (A : ℝ) (hA : A ≠ 0) : ∃ (g' : ℕ → ℝ) (w' : ℝ),
    (∀ k, 0 < k → k < 4 → HasDerivAt (fun u => lnSolute swapPar A
      ((fun u k => if k = 1 then 1 / 2 + u else if k = 2 then 1 / 2 - u else 1 : ℝ → ℕ → ℝ) u) k)
      (g' k) 0) ∧
    HasDerivAt (fun u => lnSolvent swapPar A
      ((fun u k => if k = 1 then 1 / 2 + u else if k = 2 then 1 / 2 - u else 1 : ℝ → ℕ → ℝ) u)
      (solventX swapPar
        ((fun u k => if k = 1 then 1 / 2 + u else if k = 2 then 1 / 2 - u else 1 : ℝ → ℕ → ℝ) u))) w' 0 ∧
    1 / 2 * g' 1 + 1 / 2 * g' 2 + g' 3 + w' ≠ 0 := by
  have e : Ico 1 4 = ({1, 2, 3} : Finset ℕ) := by decide
  obtain ⟨g', w', h1, h2, h3⟩ := gd_ak swap_path rfl rfl A (by norm_num [swapPar])
    (fun k _ _ => by unfold swapPar; simp only; split <;> norm_num) (fun _ _ => rfl)
    (fun _ h => by cases h)
  refine ⟨g', w', h1, h2, ?_⟩
  have hq : sq swapPar ((fun u k => if k = 1 then 1 / 2 + u else if k = 2 then 1 / 2 - u else 1
      : ℝ → ℕ → ℝ) 0) = 1 := by
    simp [sq, swapPar, e]; norm_num
  have hq' : sq' swapPar ((fun u k => if k = 1 then 1 / 2 + u else if k = 2 then 1 / 2 - u else 1
      : ℝ → ℕ → ℝ) 0) (fun k => if k = 1 then 1 else if k = 2 then -1 else 0) = 0 := by
    simp [sq', swapPar, e]
  rw [hq, hq'] at h3
  have s1 : sig 1 = 3 * (3 / 2 - 2 * Real.log 2) := by norm_num [sig]
  have s3 : sig 3 = 1 / 9 * (15 / 4 - 4 * Real.log 2) := by
    unfold sig
    rw [show (3:ℝ) + 1 = 2 ^ 2 by norm_num, Real.log_pow]
    norm_num
    ring
  have hl := Real.log_two_lt_d9
  have key : 1 / 2 * g' 1 + 1 / 2 * g' 2 + g' 3 + w' = A / 3 * (sig 1 - sig 3) := by
    simp [swapPar, e] at h3
    linarith
  rw [key]
  have : sig 1 - sig 3 ≠ 0 := by
    rw [s1, s3]
    intro h
    linarith
  positivity

/-! ## Ionic strength and formulas -/

theorem ionic_spec (x : ℕ → ℝ) :
    ((∑ k ∈ range D.n, x k * D.z k ^ 2) / 2 ≤ D.Imax →
      ionic D x = (∑ k ∈ range D.n, x k * D.z k ^ 2) / 2) ∧
    (D.Imax < (∑ k ∈ range D.n, x k * D.z k ^ 2) / 2 → ionic D x = D.Imax) := by
  have e : ∑ k ∈ range D.n, x k * D.z k * D.z k = ∑ k ∈ range D.n, x k * D.z k ^ 2 :=
    sum_congr rfl fun k _ => by ring
  unfold ionic
  rw [e]
  exact ⟨fun h => min_eq_left h, fun h => min_eq_right h.le⟩

example : ionic (saltPar .dilute) (fun _ => 2) = 2 := by
  rw [(ionic_spec (D := saltPar .dilute) _).1]
  · simp [saltPar, sum_range_succ]
  · simp [saltPar, sum_range_succ]; norm_num

/-- A weak acid counts as if it were dissociated. -/
theorem ionicStoich_spec (x : ℕ → ℝ) :
    ionicStoich D x = min ((∑ k ∈ range D.n, x k * (D.zs k ^ 2 + (D.z k - D.zs k) ^ 2)) / 2) D.Imax := by
  unfold ionicStoich
  congr 2
  refine sum_congr rfl fun k _ => ?_
  by_cases h : D.z k = D.zs k
  · rw [if_pos h, h]; ring
  · rw [if_neg h]; ring

theorem solute_formula (A : ℝ) (x : ℕ → ℝ) (I : ℝ) (hI : ionic D x = I) (k : ℕ) :
    (D.form = .dilute → lnSolute D A x k = -(D.z k ^ 2 * A * Real.sqrt I)) ∧
    (D.form = .bdotAk → D.nonpolar k = false → lnSolute D A x k =
      -(D.z k ^ 2 * A * Real.sqrt I / (1 + D.B * D.a k * Real.sqrt I)) + Real.log 10 * D.bdot k * I) ∧
    (D.form = .bdotAk → D.nonpolar k = true → lnSolute D A x k =
      Real.log 10 * (1127 / 10000 * I - 1049 / 100000 * I ^ 2 + 1545 / 1000000 * I ^ 3)) ∧
    (D.form = .bdotCommon → lnSolute D A x k =
      -(D.z k ^ 2 * A * Real.sqrt I / (1 + D.B * D.a 0 * Real.sqrt I)) + Real.log 10 * D.bdot k * I) ∧
    (D.form = .betaij → lnSolute D A x k =
      -(D.z k ^ 2 * A * Real.sqrt I / (1 + D.B * D.a 0 * Real.sqrt I))
        + 2 * ∑ j ∈ range D.n, D.beta k j * x j) ∧
    (D.form = .pitzer → D.B * D.a 0 ≠ 0 → lnSolute D A x k =
      -(D.z k ^ 2 * A / 3) * (Real.sqrt I / (1 + D.B * D.a 0 * Real.sqrt I)
        + 2 / (D.B * D.a 0) * Real.log (1 + D.B * D.a 0 * Real.sqrt I))
        + 2 * ∑ j ∈ range D.n, D.beta k j * x j) := by
  have hs : ∑ j ∈ range D.n, 2 * x j * D.beta k j = 2 * ∑ j ∈ range D.n, D.beta k j * x j := by
    rw [mul_sum]; exact sum_congr rfl fun j _ => by ring
  have r : ∀ a, D.B * Real.sqrt I * a = D.B * a * Real.sqrt I := fun a => by ring
  refine ⟨fun h => ?_, fun h hn => ?_, fun h hn => ?_, fun h => ?_, fun h => ?_, fun h hb => ?_⟩
  · simp only [lnSolute, h, hI]; ring
  · simp only [lnSolute, h, hI, hn, Bool.false_eq_true, if_false]; rw [r]; ring
  · simp only [lnSolute, h, hI, hn, if_true, nonpolarCoeff]
    rw [Real.log_rpow (by norm_num)]; ring
  · simp only [lnSolute, h, hI]; rw [r]; ring
  · simp only [lnSolute, h, hI]; rw [hs]; ring
  · simp only [lnSolute, h, hI]
    rw [hs, r]
    rw [mul_assoc 3 D.B (D.a 0)]
    generalize D.B * D.a 0 = b at *
    field_simp
    ring

theorem helgeson_formula (A : ℝ) (x : ℕ → ℝ) (x0 Is : ℝ) (hf : D.form = .bdotAk)
    (hh : D.helgeson = true) (hI : ionicStoich D x = Is) (hIs : 0 < Is) (hx : ∀ k, 0 ≤ x k)
    (hm : ∑ k ∈ Ico 1 D.n, x k ≤ 2 * D.Imax) :
    lnSolvent D A x x0 = -D.M0 * (∑ k ∈ Ico 1 D.n, x k) *
      (1 - A / ((1454 / 1000) ^ 3 * Is) * (1 + 1454 / 1000 * Real.sqrt Is
          - 2 * Real.log (1 + 1454 / 1000 * Real.sqrt Is) - 1 / (1 + 1454 / 1000 * Real.sqrt Is))
        + 1118 / 100000 * Is + 2 / 3 * (938 / 100000) * Is ^ 2 - 3 / 4 * (5362 / 10000000) * Is ^ 3) := by
  have e : ∑ k ∈ Ico 1 D.n, max (x k) 0 = ∑ k ∈ Ico 1 D.n, x k :=
    sum_congr rfl fun k _ => max_eq_left (hx k)
  simp only [lnSolvent, hf, hh, if_true, lnWaterHelgeson, hI, e, osmotic]
  rw [if_neg (not_lt.mpr hm), if_neg (not_le.mpr hIs)]
  rw [show (1454 / 1000 : ℝ) * (1454 / 1000) * (1454 / 1000) = (1454 / 1000) ^ 3 by ring]
  generalize (1454 / 1000 : ℝ) ^ 3 = c
  ring

/-- Beyond the limit the number of moles of solute is twice the limit. -/
theorem helgeson_limit (A : ℝ) (x : ℕ → ℝ) (x0 : ℝ) (hf : D.form = .bdotAk)
    (hh : D.helgeson = true) (hm : 2 * D.Imax < ∑ k ∈ Ico 1 D.n, max (x k) 0) :
    lnSolvent D A x x0 = -D.M0 * (2 * D.Imax) * osmotic A (ionicStoich D x) := by
  simp only [lnSolvent, hf, hh, if_true, lnWaterHelgeson]
  rw [if_pos hm]

/-- With the Helgeson form neutral solutes have no effect on the activity of water; their own activity
coefficient is one, so that the Gibbs-Duhem equation asks for a change of `-M0 Σ dm`. -/
theorem helgeson_neutral (A : ℝ) (x : ℕ → ℝ) (x0 : ℝ) (hf : D.form = .bdotAk)
    (hh : D.helgeson = true) (hz : ∀ k, D.z k = 0) (hzs : ∀ k, D.zs k = 0) (hb : ∀ k, D.bdot k = 0)
    (hn : ∀ k, D.nonpolar k = false) (hI : 0 ≤ D.Imax) :
    lnSolvent D A x x0 = 0 ∧ ∀ k, lnSolute D A x k = 0 := by
  constructor
  · have hs : ionicStoich D x = 0 := by
      rw [ionicStoich_spec]
      simp [hz, hzs, hI]
    simp [lnSolvent, hf, hh, lnWaterHelgeson, hs, osmotic]
  · intro k
    simp [lnSolute, hf, hn k, hz k, hb k]

example : lnSolvent ⟨2, 1, fun _ => 0, fun _ => 0, fun _ => 1, fun _ => 0, 1, 30, fun _ _ => 0,
    fun _ => false, .bdotAk, true⟩ 1 (fun _ => 5) (1/6) = 0 :=
  (helgeson_neutral _ _ _ rfl rfl (fun _ => rfl) (fun _ => rfl) (fun _ => rfl) (fun _ => rfl)
    (by norm_num)).1

/-- Pure solvent: all coefficients are one, whatever the form. -/
theorem infinite_dilution (A : ℝ) (x : ℕ → ℝ) (hx : ∀ k, 0 < k → x k = 0) (hn : 1 ≤ D.n)
    (hz : D.z 0 = 0) (hzs : D.zs 0 = 0) (hI : 0 ≤ D.Imax) (hb : ∀ k, D.beta k 0 = 0) (k : ℕ) :
    lnCoeff D A x 1 k = 0 := by
  have hs : ∑ k ∈ Ico 1 D.n, x k * D.z k ^ 2 = 0 :=
    sum_eq_zero fun k hk => by rw [hx k (by have := (mem_Ico.mp hk).1; omega)]; ring
  have hi : ionic D x = 0 := by
    rw [(ionic_spec x).1]
    · rw [sum_range D.n hn, hs, hz]; ring
    · rw [sum_range D.n hn, hs, hz]; simpa using hI
  have h0 : ∀ i j, x j * D.beta i j = 0 := by
    intro i j
    by_cases hj : j = 0
    · rw [hj, hb i]; ring
    · rw [hx j (Nat.pos_of_ne_zero hj)]; ring
  have hbs : betaSolvent D x = 0 := by
    unfold betaSolvent
    rw [sum_eq_zero, mul_zero]
    intro i _
    refine sum_eq_zero fun j _ => ?_
    have := h0 i j
    rw [show D.beta i j * x i * x j = x i * (x j * D.beta i j) by ring, this, mul_zero]
  have hbd : bdotSolvent D x = 0 := by simp [bdotSolvent, hi]
  have h2 : ∀ i, ∑ j ∈ range D.n, 2 * x j * D.beta i j = 0 := fun i =>
    sum_eq_zero fun j _ => by rw [mul_assoc, h0 i j, mul_zero]
  have hx1 : xSafe 1 = 1 := by norm_num [xSafe]
  by_cases hk : k = 0
  · unfold lnCoeff
    rw [if_pos hk, Real.log_one, sub_zero]
    have hss : ionicStoich D x = 0 := by
      rw [ionicStoich_spec, sum_range D.n hn, hz, hzs]
      rw [sum_eq_zero (s := Ico 1 D.n) fun k hk => by
        rw [hx k (by have := (mem_Ico.mp hk).1; omega), zero_mul]]
      simpa using hI
    cases hf : D.form <;> simp [lnSolvent, hf, hi, hx1, hbs, hbd, lnWaterHelgeson, hss, osmotic]
  · unfold lnCoeff
    rw [if_neg hk]
    cases hf : D.form <;> simp [lnSolute, hf, hi, h2, nonpolarCoeff]

example : lnCoeff (saltPar .pitzer) 1 (fun k => if k = 0 then 1 else 0) 1 2 = 0 :=
  infinite_dilution 1 _ (fun k hk => by simp [Nat.pos_iff_ne_zero.mp hk]) (by norm_num [saltPar])
    (by simp [saltPar]) (by simp [saltPar]) (by norm_num [saltPar]) (fun _ => rfl) 2

/-- Below a solvent mole fraction of 0.008689 the ideal part no longer changes. -/
theorem solvent_clamped (A : ℝ) (x : ℕ → ℝ) (x0 x1 : ℝ) (h0 : x0 ≤ 8689 / 1000000)
    (h1 : x1 ≤ 8689 / 1000000) : lnSolvent D A x x0 = lnSolvent D A x x1 := by
  have : xSafe x0 = xSafe x1 := by unfold xSafe; rw [max_eq_left h0, max_eq_left h1]
  simp only [lnSolvent, this]

/-! ## Radius zero -/

theorem zero_radius_ak (A : ℝ) (x : ℕ → ℝ) (x0 : ℝ) (hf : D.form = .bdotAk) (hh : D.helgeson = false)
    (hB : 0 < D.B) (hI : 0 < ionic D x) (j : ℕ) (hj0 : 0 < j) (hj : j < D.n) (ha : D.a j = 0) :
    lnGamma D A x x0 0 = none := by
  unfold lnGamma
  rw [if_pos]
  exact Or.inl ⟨hf, hh, rfl, mul_pos hB (Real.sqrt_pos.mpr hI), j, hj0, hj, ha⟩

theorem zero_radius_pitzer (A : ℝ) (x : ℕ → ℝ) (x0 : ℝ) (hf : D.form = .pitzer) (ha : D.a 0 = 0)
    (k : ℕ) (hk : k ≠ 0) : lnGamma D A x x0 k = none := by
  unfold lnGamma
  rw [if_pos]
  exact Or.inr ⟨hf, hk, by rw [ha, mul_zero]⟩

/-- A solvent radius of zero is allowed for the coefficients but not for their derivatives. -/
theorem zero_solvent_radius (A w : ℝ) (x : ℕ → ℝ) (x0 : ℝ) (old : ℕ → ℝ) (wh : Which)
    (hf : D.form = .bdotAk) (hB : 0 < D.B) (hI : 0 < ionic D x) (hn : 0 < D.n) (ha : D.a 0 = 0)
    (hs : ∀ j, 0 < j → D.a j ≠ 0) (hw : w ≠ 0) :
    lnGamma D A x x0 0 = some (lnCoeff D A x x0 0) ∧ dGamma D wh A w x x0 old 0 = none := by
  constructor
  · unfold lnGamma
    rw [if_neg]
    rintro (⟨_, _, _, _, j, hj, _, h⟩ | ⟨h, _⟩)
    · exact hs j hj h
    · rw [hf] at h; cases h
  · unfold dGamma
    rw [if_pos]
    exact ⟨hw, Or.inl ⟨hf, rfl, mul_pos hB (Real.sqrt_pos.mpr hI), 0, hn, ha⟩⟩

/-- Everything else is a number. -/
theorem gamma_ok (A : ℝ) (x : ℕ → ℝ) (x0 : ℝ) (k : ℕ) (ha : ∀ j, j < D.n → D.a j ≠ 0) (hn : 0 < D.n)
    (hB : D.B ≠ 0) : lnGamma D A x x0 k = some (lnCoeff D A x x0 k) ∧
      ∀ wh w old, dGamma D wh A w x x0 old k = some (dCoeff D wh A w x x0 old k) := by
  constructor
  · unfold lnGamma
    rw [if_neg]
    rintro (⟨_, _, _, _, j, _, hj, h⟩ | ⟨_, _, h⟩)
    · exact ha j hj h
    · exact mul_ne_zero hB (ha 0 hn) h
  · intro wh w old
    unfold dGamma
    rw [if_neg]
    rintro ⟨_, ⟨_, _, _, j, hj, h⟩ | ⟨_, _, h⟩⟩
    · exact ha j hj h
    · exact mul_ne_zero hB (ha 0 hn) h

/-! ## Derivatives with respect to temperature and pressure -/

/-- Species and forms for which the code is right. -/
structure Regular (D : Par) (wh : Which) (old : ℕ → ℝ) (k : ℕ) : Prop where
  dil : D.form = .dilute → k = 0 → wh = .dT
  helg : D.form = .bdotAk → k = 0 → D.helgeson = false
  np : D.form = .bdotAk → D.nonpolar k = true → D.z k = 0 ∧ old k = 0
  a0 : D.form = .bdotAk → D.a 0 ≠ 0 ∨ D.z 0 = 0

theorem Regular.of_form {wh : Which} {old : ℕ → ℝ} {k : ℕ} (h1 : D.form ≠ .dilute)
    (h2 : D.form ≠ .bdotAk) : Regular D wh old k :=
  ⟨fun h => absurd h h1, fun h => absurd h h2, fun h => absurd h h2, fun h => absurd h h2⟩

theorem affine (wh : Which) (old x : ℕ → ℝ) (x0 : ℝ) (k : ℕ) (h : Regular D wh old k) :
    ∃ g0 g1, (∀ A, lnCoeff D A x x0 k = g0 + A * g1) ∧
      ∀ A w, (D.form = .dilute → A ≠ 0) → dCoeff D wh A w x x0 old k = w * g1 := by
  by_cases hk : k = 0
  · subst hk
    cases hf : D.form with
    | dilute =>
      have hw := h.dil hf rfl
      refine ⟨(xSafe x0 - 1) / xSafe x0 - Real.log x0,
        2 / 3 * D.M0 * ionic D x * Real.sqrt (ionic D x), fun A => ?_, fun A w hA => ?_⟩
      · simp only [lnCoeff, if_true, lnSolvent, hf]; ring
      · by_cases h0 : w = 0
        · simp [dCoeff, h0]
        · simp only [dCoeff, h0, if_false, if_true, dSolvent, hf, hw]; ring
    | bdotAk =>
      have hh := h.helg hf rfl
      have hs : akSumD D x = akSum D x := by
        unfold akSumD akSum
        split
        · refine sum_congr rfl fun k _ => ?_
          by_cases hk : k ≠ 0 ∨ D.a k ≠ 0
          · rw [if_pos hk]
          · rw [if_neg hk]
            push Not at hk
            rcases h.a0 hf with h1 | h1
            · exact absurd (hk.1 ▸ hk.2) h1
            · rw [hk.1, h1]; ring
        · rfl
      refine ⟨(xSafe x0 - 1) / xSafe x0 - bdotSolvent D x - Real.log x0,
        2 / 3 * D.M0 * Real.sqrt (ionic D x) * akSum D x, fun A => ?_, fun A w hA => ?_⟩
      · simp only [lnCoeff, if_true, lnSolvent, hf, hh, Bool.false_eq_true, if_false]; ring
      · by_cases h0 : w = 0
        · simp [dCoeff, h0]
        · simp only [dCoeff, h0, if_false, if_true, dSolvent, hf, hs]; ring
    | bdotCommon =>
      refine ⟨(xSafe x0 - 1) / xSafe x0 - bdotSolvent D x - Real.log x0,
        2 / 3 * D.M0 * ionic D x * Real.sqrt (ionic D x) *
          sigGuard (D.B * Real.sqrt (ionic D x) * D.a 0), fun A => ?_, fun A w hA => ?_⟩
      · simp only [lnCoeff, if_true, lnSolvent, hf]; ring
      · by_cases h0 : w = 0
        · simp [dCoeff, h0]
        · simp only [dCoeff, h0, if_false, if_true, dSolvent, hf]; ring
    | betaij =>
      refine ⟨(xSafe x0 - 1) / xSafe x0 - betaSolvent D x - Real.log x0,
        2 / 3 * D.M0 * ionic D x * Real.sqrt (ionic D x) *
          sigGuard (D.B * Real.sqrt (ionic D x) * D.a 0), fun A => ?_, fun A w hA => ?_⟩
      · simp only [lnCoeff, if_true, lnSolvent, hf]
        rw [show D.B * D.a 0 * Real.sqrt (ionic D x) = D.B * Real.sqrt (ionic D x) * D.a 0 by ring]
        ring
      · by_cases h0 : w = 0
        · simp [dCoeff, h0]
        · simp only [dCoeff, h0, if_false, if_true, dSolvent, hf]; ring
    | pitzer =>
      refine ⟨(xSafe x0 - 1) / xSafe x0 - betaSolvent D x - Real.log x0,
        2 / 3 * D.M0 * ionic D x * Real.sqrt (ionic D x) *
          (1 / (1 + D.B * Real.sqrt (ionic D x) * D.a 0)), fun A => ?_, fun A w hA => ?_⟩
      · simp only [lnCoeff, if_true, lnSolvent, hf]; ring
      · by_cases h0 : w = 0
        · simp [dCoeff, h0]
        · simp only [dCoeff, h0, if_false, if_true, dSolvent, hf]; ring
  · cases hf : D.form with
    | dilute =>
      refine ⟨0, -D.z k * D.z k * Real.sqrt (ionic D x), fun A => ?_, fun A w hA => ?_⟩
      · simp only [lnCoeff, if_neg hk, lnSolute, hf]; ring
      · by_cases h0 : w = 0
        · simp [dCoeff, h0]
        · have := hA rfl
          simp only [dCoeff, h0, if_false, if_neg hk, dSolute, lnSolute, hf]
          field_simp
    | bdotAk =>
      by_cases hn : D.nonpolar k = true
      · obtain ⟨hz, ho⟩ := h.np hf hn
        refine ⟨Real.log (nonpolarCoeff (ionic D x)), 0, fun A => ?_, fun A w hA => ?_⟩
        · simp only [lnCoeff, if_neg hk, lnSolute, hf, if_pos hn]; ring
        · by_cases h0 : w = 0
          · simp [dCoeff, h0]
          · simp [dCoeff, h0, if_neg hk, dSolute, hf, hz, ho]
      · refine ⟨Real.log 10 * D.bdot k * ionic D x, -D.z k * D.z k * Real.sqrt (ionic D x) /
          (1 + D.B * Real.sqrt (ionic D x) * D.a k), fun A => ?_, fun A w hA => ?_⟩
        · simp only [lnCoeff, if_neg hk, lnSolute, hf, if_neg hn]; ring
        · by_cases h0 : w = 0
          · simp [dCoeff, h0]
          · simp only [dCoeff, h0, if_false, if_neg hk, dSolute, hf, if_neg (fun h : wh = .dP ∧ D.nonpolar k = true => hn h.2)]
            ring
    | bdotCommon =>
      refine ⟨Real.log 10 * D.bdot k * ionic D x, -D.z k * D.z k * Real.sqrt (ionic D x) /
          (1 + D.B * Real.sqrt (ionic D x) * D.a 0), fun A => ?_, fun A w hA => ?_⟩
      · simp only [lnCoeff, if_neg hk, lnSolute, hf]; ring
      · by_cases h0 : w = 0
        · simp [dCoeff, h0]
        · simp only [dCoeff, h0, if_false, if_neg hk, dSolute, hf]
          ring
    | betaij =>
      refine ⟨∑ j ∈ range D.n, 2 * x j * D.beta k j, -D.z k * D.z k * Real.sqrt (ionic D x) /
          (1 + D.B * Real.sqrt (ionic D x) * D.a 0), fun A => ?_, fun A w hA => ?_⟩
      · simp only [lnCoeff, if_neg hk, lnSolute, hf]
        rw [show D.B * D.a 0 * Real.sqrt (ionic D x) = D.B * Real.sqrt (ionic D x) * D.a 0 by ring]
        ring
      · by_cases h0 : w = 0
        · simp [dCoeff, h0]
        · simp only [dCoeff, h0, if_false, if_neg hk, dSolute, hf]
          ring
    | pitzer =>
      refine ⟨∑ j ∈ range D.n, 2 * x j * D.beta k j, (-D.z k * D.z k * Real.sqrt (ionic D x) /
          (1 + D.B * Real.sqrt (ionic D x) * D.a 0) - 2 * D.z k * D.z k *
          Real.log (1 + D.B * Real.sqrt (ionic D x) * D.a 0) / (D.B * D.a 0)) / 3,
          fun A => ?_, fun A w hA => ?_⟩
      · simp only [lnCoeff, if_neg hk, lnSolute, hf]
        rw [mul_assoc 3 D.B (D.a 0), ← div_div _ (3:ℝ) (D.B * D.a 0)]
        ring
      · by_cases h0 : w = 0
        · simp [dCoeff, h0]
        · simp only [dCoeff, h0, if_false, if_neg hk, dSolute, hf]
          ring

/-- The temperature derivatives of the coefficients (also: pressure, if A is a function of pressure). -/
theorem coeff_deriv (wh : Which) (A : ℝ → ℝ) (w T : ℝ) (hA : HasDerivAt A w T)
    (h0 : D.form = .dilute → A T ≠ 0) (x old : ℕ → ℝ) (x0 : ℝ) (k : ℕ) (h : Regular D wh old k) :
    HasDerivAt (fun T => lnCoeff D (A T) x x0 k) (dCoeff D wh (A T) w x x0 old k) T := by
  obtain ⟨g0, g1, h1, h2⟩ := affine wh old x x0 k h
  rw [h2 (A T) w h0]
  simp only [h1]
  exact (hA.mul_const g1).const_add g0

example : HasDerivAt (fun T => lnCoeff (saltPar .pitzer) T (fun _ => 1) (1/3) 1)
    (dCoeff (saltPar .pitzer) .dP 2 1 (fun _ => 1) (1/3) (fun _ => 0) 1) 2 :=
  coeff_deriv .dP (fun T => T) 1 2 (hasDerivAt_id' 2) (fun h => by cases h) _ _ _ _
    (Regular.of_form (by simp [saltPar]) (by simp [saltPar]))

/-- Second derivatives. -/
theorem coeff_second (A dA : ℝ → ℝ) (d2A T : ℝ) (hA2 : HasDerivAt dA d2A T)
    (h0 : D.form = .dilute → ∀ᶠ u in 𝓝 T, A u ≠ 0) (x old : ℕ → ℝ) (x0 : ℝ) (k : ℕ)
    (h : Regular D .dT old k) (h' : Regular D .d2T old k) :
    HasDerivAt (fun T => dCoeff D .dT (A T) (dA T) x x0 old k)
      (dCoeff D .d2T (A T) d2A x x0 old k) T := by
  obtain ⟨g0, g1, h1, h2⟩ := affine .dT old x x0 k h
  obtain ⟨f0, f1, h3, h4⟩ := affine .d2T old x x0 k h'
  have hg : f1 = g1 := by
    have e0 := (h1 0).symm.trans (h3 0)
    have e1 := (h1 1).symm.trans (h3 1)
    simp only [zero_mul, one_mul] at e0 e1
    linarith
  rw [h4 (A T) d2A (fun hf => (h0 hf).self_of_nhds), hg]
  refine (hA2.mul_const g1).congr_of_eventuallyEq ?_
  by_cases hf : D.form = .dilute
  · filter_upwards [h0 hf] with u hu
    exact h2 (A u) (dA u) fun _ => hu
  · exact Eventually.of_forall fun u => h2 (A u) (dA u) fun h => absurd h hf

example : HasDerivAt (fun T => dCoeff (saltPar .betaij) .dT (T ^ 2) (2 * T) (fun _ => 1) (1/3) (fun _ => 0) 0)
    (dCoeff (saltPar .betaij) .d2T (1 ^ 2) 2 (fun _ => 1) (1/3) (fun _ => 0) 0) 1 :=
  coeff_second (fun T => T ^ 2) (fun T => 2 * T) 2 1 (by simpa using (hasDerivAt_id' (1:ℝ)).const_mul 2)
    (fun h => by cases h) _ _ _ _
    (Regular.of_form (by simp [saltPar]) (by simp [saltPar]))
    (Regular.of_form (by simp [saltPar]) (by simp [saltPar]))

/-- Dilute form, solvent: second temperature derivative and pressure derivative contain the ideal part
of the coefficient. -/
theorem dilute_defect (wh : Which) (hwh : wh ≠ .dT) (hf : D.form = .dilute) (A w : ℝ) (hA : A ≠ 0)
    (hw : w ≠ 0) (x old : ℕ → ℝ) (x0 : ℝ) :
    dCoeff D wh A w x x0 old 0 = dCoeff D .dT A w x x0 old 0
      + ((max (8689 / 1000000) x0 - 1) / max (8689 / 1000000) x0 - Real.log x0) * w / A := by
  simp only [dCoeff, if_neg hw, if_true, dSolvent, hf, if_neg hwh, lnCoeff, lnSolvent, xSafe]
  generalize max (8689 / 1000000) x0 = y
  field_simp
  ring

theorem dilute_refuted (D : Par) (hf : D.form = .dilute) (x old : ℕ → ℝ) (wh : Which) (hwh : wh ≠ .dT) :
    ∃ d, HasDerivAt (fun T => lnCoeff D T x (1 / 2) 0) d 1 ∧
      dCoeff D wh 1 1 x (1 / 2) old 0 ≠ d := by
  refine ⟨_, coeff_deriv .dT (fun T => T) 1 1 (hasDerivAt_id' 1) (fun _ => one_ne_zero) x old _ 0
    ⟨fun _ _ => rfl, fun h => ?_, fun h => ?_, fun h => ?_⟩, ?_⟩
  · rw [hf] at h; cases h
  · rw [hf] at h; cases h
  · rw [hf] at h; cases h
  · rw [dilute_defect wh hwh hf 1 1 one_ne_zero one_ne_zero]
    intro h
    have hl := Real.log_two_lt_d9
    rw [show max (8689 / 1000000) (1/2 : ℝ) = 1 / 2 by norm_num, one_div, Real.log_inv] at h
    norm_num at h
    linarith

/-- The derivatives ignore the Helgeson form. -/
theorem helgeson_deriv_refuted : ∃ (D : Par) (x old : ℕ → ℝ) (d : ℝ),
    D.form = .bdotAk ∧ HasDerivAt (fun T => lnCoeff D T x (1 / 3) 0) d 1 ∧
    ∀ wh, dCoeff D wh 1 1 x (1 / 3) old 0 ≠ d := by
  let D : Par := ⟨3, 1, fun k => if k = 1 then 1 else if k = 2 then -1 else 0,
    fun k => if k = 1 then 1 else if k = 2 then -1 else 0, fun _ => 1, fun _ => 0, 0, 30,
    fun _ _ => 0, fun _ => false, .bdotAk, true⟩
  have e : Ico 1 3 = ({1, 2} : Finset ℕ) := by decide
  have hI : ionicStoich D (fun _ => 1) = 1 := by
    rw [ionicStoich_spec]
    simp [D, sum_range_succ]
  set func : ℝ := 1 + 1454 / 1000 * Real.sqrt 1
          - 2 * Real.log (1 + 1454 / 1000 * Real.sqrt 1) - 1 / (1 + 1454 / 1000 * Real.sqrt 1) with hfu
  have hpos : 0 < func := by
    rw [hfu, Real.sqrt_one]
    have : Real.log (1 + 1454 / 1000 * 1) < 1 := by
      rw [Real.log_lt_iff_lt_exp (by norm_num)]
      have := Real.exp_one_gt_d9
      norm_num at this ⊢
      linarith
    norm_num at this ⊢
    linarith
  have hf : ∀ A, lnCoeff D A (fun _ => 1) (1/3) 0 = A * (2 / ((1454 / 1000) ^ 3) * func)
      + (-2 * (1 + 1118 / 100000 + 2 / 3 * (938 / 100000) - 3 / 4 * (5362 / 10000000)) - Real.log (1/3)) := by
    intro A
    unfold lnCoeff
    rw [if_pos rfl, helgeson_formula A (fun _ => 1) (1/3) 1 rfl rfl hI one_pos (fun _ => zero_le_one)
      (by simp [D, e])]
    rw [← hfu]
    have : ∑ k ∈ Ico 1 D.n, (1:ℝ) = 2 := by simp [D, e]
    rw [this]
    simp only [D]
    ring
  refine ⟨D, fun _ => 1, fun _ => 0, 2 / ((1454 / 1000) ^ 3) * func, rfl, ?_, ?_⟩
  · simp only [hf]
    simpa using ((hasDerivAt_id' (1:ℝ)).mul_const (2 / ((1454 / 1000 : ℝ) ^ 3) * func)).add_const
      (-2 * (1 + 1118 / 100000 + 2 / 3 * (938 / 100000) - 3 / 4 * (5362 / 10000000)) - Real.log (1/3))
  · intro wh
    have : dCoeff D wh 1 1 (fun _ => 1) (1 / 3) (fun _ => 0) 0 = 0 := by
      simp [dCoeff, dSolvent, D, akSumD]
    rw [this]
    have : 0 < 2 / ((1454 / 1000 : ℝ) ^ 3) * func := by positivity
    exact this.ne

/-! ## Chemical potentials -/

theorem mu_activity (R T mu0 A : ℝ) (x : ℕ → ℝ) (x0 : ℝ) (k : ℕ)
    (h : 1 / 10 ^ 300 < if k = 0 then x0 else x k) :
    mu D R T mu0 A x x0 k = mu0 + R * T * Real.log (activity D A x x0 k) := by
  have hp : (0:ℝ) < if k = 0 then x0 else x k := lt_trans (by positivity) h
  have hs : conc x x0 k = if k = 0 then x0 else x k := by
    unfold conc small
    exact max_eq_left h.le
  unfold mu activity
  rw [hs]
  by_cases hk : k = 0
  · subst hk
    simp only [if_true] at hp ⊢
    rw [Real.log_mul (Real.exp_pos _).ne' hp.ne', Real.log_exp]
    ring
  · simp only [if_neg hk] at hp ⊢
    rw [Real.log_mul hp.ne' (Real.exp_pos _).ne', Real.log_exp]

/-- The activity of the solvent. -/
theorem activity_solvent (A : ℝ) (x : ℕ → ℝ) (x0 : ℝ) (h : 0 < x0) :
    activity D A x x0 0 = Real.exp (lnSolvent D A x x0) := by
  unfold activity lnCoeff
  rw [if_pos rfl, if_pos rfl, Real.exp_sub, Real.exp_log h]
  field_simp

theorem activity_solute (A : ℝ) (x : ℕ → ℝ) (x0 : ℝ) (k : ℕ) (hk : k ≠ 0) :
    activity D A x x0 k = x k * Real.exp (lnSolute D A x k) := by
  unfold activity lnCoeff
  rw [if_neg hk, if_neg hk]

/-- A species that is not there has a finite chemical potential. -/
theorem mu_absent (R T mu0 A : ℝ) (x : ℕ → ℝ) (x0 : ℝ) (k : ℕ) (hk : k ≠ 0) (h : x k ≤ 1 / 10 ^ 300) :
    mu D R T mu0 A x x0 k = mu0 + R * T * (-300 * Real.log 10 + lnSolute D A x k) := by
  have hs : conc x x0 k = 1 / 10 ^ 300 := by
    unfold conc small
    rw [if_neg hk]
    exact max_eq_right h
  unfold mu lnCoeff
  rw [hs, if_neg hk, one_div, Real.log_inv, Real.log_pow]
  push_cast
  ring

theorem small_le : (1 / 10 ^ 300 : ℝ) ≤ 8689 / 1000000 := by
  rw [div_le_iff₀ (by positivity)]
  have : (1000 : ℝ) ≤ 10 ^ 300 := by
    calc (1000:ℝ) = 10 ^ 3 := by norm_num
      _ ≤ 10 ^ 300 := pow_le_pow_right₀ (by norm_num) (by norm_num)
  calc (1:ℝ) ≤ 8689 / 1000000 * 1000 := by norm_num
    _ ≤ _ := by gcongr

/-- Gibbs-Duhem residual of the chemical potentials. -/
theorem mu_gd (P : Path D m m' t) (R T A : ℝ) (mu0 : ℕ → ℝ) (g' : ℕ → ℝ) (w' : ℝ)
    (hg : ∀ k, 0 < k → k < D.n → HasDerivAt (fun u => lnSolute D A (m u) k) (g' k) t)
    (hw : HasDerivAt (fun u => lnSolvent D A (m u) (solventX D (m u))) w' t)
    (hm : ∀ k, 0 < k → k < D.n → 1 / 10 ^ 300 < m t k) :
    ∃ μ' : ℕ → ℝ,
      (∀ k, k < D.n → HasDerivAt (fun u => mu D R T (mu0 k) A (m u)
        (1 / (1 + D.M0 * ∑ k ∈ Ico 1 D.n, m u k)) k) (μ' k) t) ∧
      ∑ k ∈ Ico 1 D.n, m t k * μ' k + μ' 0 / D.M0 =
        R * T * (∑ k ∈ Ico 1 D.n, m t k * g' k + w' / D.M0 + ∑ k ∈ Ico 1 D.n, m' k) := by
  refine ⟨fun k => if k = 0 then R * T * w' else R * T * (m' k / m t k + g' k), ?_, ?_⟩
  · intro k hk
    by_cases h0 : k = 0
    · subst h0
      simp only [if_true]
      refine ((hw.const_mul (R * T)).const_add (mu0 0)).congr_of_eventuallyEq ?_
      have h1 := (continuousAt_const (y := (8689 / 1000000 : ℝ))).eventually_lt (x_deriv P) P.x
      filter_upwards [h1] with u hu
      have hs : conc (m u) (1 / (1 + D.M0 * ∑ k ∈ Ico 1 D.n, m u k)) 0 =
          solventX D (m u) := by
        unfold conc small
        rw [if_pos rfl]
        exact max_eq_left (le_trans small_le hu.le)
      unfold mu
      rw [hs]
      simp only [lnCoeff, if_true]
      rw [show (1 / (1 + D.M0 * ∑ k ∈ Ico 1 D.n, m u k)) = solventX D (m u) from rfl]
      ring
    · simp only [if_neg h0]
      have hp := hm k (Nat.pos_of_ne_zero h0) hk
      have hq : m t k ≠ 0 := (lt_trans (by positivity) hp).ne'
      refine (((((P.hm k).log hq).fun_add (hg k (Nat.pos_of_ne_zero h0) hk)).const_mul (R * T)).const_add
        (mu0 k)).congr_of_eventuallyEq ?_
      have h1 := (continuousAt_const (y := (1 / 10 ^ 300 : ℝ))).eventually_lt (P.hm k).continuousAt hp
      filter_upwards [h1] with u hu
      have hs : conc (m u) (1 / (1 + D.M0 * ∑ k ∈ Ico 1 D.n, m u k)) k = m u k := by
        unfold conc small
        rw [if_neg h0]
        exact max_eq_left hu.le
      unfold mu
      rw [hs]
      simp only [lnCoeff, if_neg h0]
  · simp only [if_true]
    have e : ∑ k ∈ Ico 1 D.n, m t k * (if k = 0 then R * T * w' else R * T * (m' k / m t k + g' k))
        = R * T * (∑ k ∈ Ico 1 D.n, m' k + ∑ k ∈ Ico 1 D.n, m t k * g' k) := by
      rw [mul_add, mul_sum, mul_sum, ← sum_add_distrib]
      refine sum_congr rfl fun k hk => ?_
      have hk0 : 0 < k := by have := (mem_Ico.mp hk).1; omega
      have hq : m t k ≠ 0 := (lt_trans (by positivity) (hm k hk0 (mem_Ico.mp hk).2)).ne'
      rw [if_neg hk0.ne']
      field_simp
    rw [e]
    ring

example : ∃ μ' : ℕ → ℝ, ∑ k ∈ Ico 1 3, (if k = 0 then (1:ℝ) else 1) * μ' k + μ' 0 / 1 = 8 * 300 * 0 := by
  obtain ⟨g', w', h1, h2, h3⟩ := gd_dilute (salt_path .dilute) rfl 1
  obtain ⟨μ', _, h⟩ := mu_gd (salt_path .dilute) 8 300 1 (fun _ => 0) g' w' (fun k _ _ => h1 k) h2
    (fun k hk _ => by simp only [if_neg hk.ne']; exact (div_lt_one (by positivity)).mpr (one_lt_pow₀ (by norm_num) (by norm_num)))
  rw [h3] at h
  exact ⟨μ', h⟩

/-- μ = h - T s. -/
theorem mu_hs (R T h0 s0 dA d A : ℝ) (x : ℕ → ℝ) (x0 : ℝ) (k : ℕ) :
    mu D R T (h0 - T * s0) A x x0 k = hbar R T h0 dA d - T * sbar D R T s0 dA d A x x0 k := by
  unfold mu hbar sbar
  by_cases h : dA ≠ 0
  · rw [if_pos h, if_pos h]; ring
  · rw [if_neg h, if_neg h]; ring

/-- ∂μ/∂T = -s. -/
theorem mu_T (R T s0 dA : ℝ) (mu0 A : ℝ → ℝ) (x old : ℕ → ℝ) (x0 : ℝ) (k : ℕ)
    (hmu : HasDerivAt mu0 (-s0) T) (hA : HasDerivAt A dA T) (h0 : D.form = .dilute → A T ≠ 0)
    (h : Regular D .dT old k) :
    HasDerivAt (fun T => mu D R T (mu0 T) (A T) x x0 k)
      (-sbar D R T s0 dA (dCoeff D .dT (A T) dA x x0 old k) (A T) x x0 k) T := by
  have hc := coeff_deriv .dT A dA T hA h0 x old x0 k h
  have := hmu.fun_add (((hasDerivAt_id' T).const_mul R).fun_mul (hc.const_add (Real.log (conc x x0 k))))
  refine this.congr_deriv ?_
  unfold sbar
  by_cases hd : dA = 0
  · rw [if_neg (not_not.mpr hd), hd]
    simp only [dCoeff, if_true]
    ring
  · rw [if_pos hd]; ring

/-- ∂μ/∂p = v. -/
theorem mu_p (R T v0 w p : ℝ) (mu0 A : ℝ → ℝ) (x old : ℕ → ℝ) (x0 : ℝ) (k : ℕ)
    (hmu : HasDerivAt mu0 v0 p) (hA : HasDerivAt A w p) (h0 : D.form = .dilute → A p ≠ 0)
    (h : Regular D .dP old k) :
    HasDerivAt (fun p => mu D R T (mu0 p) (A p) x x0 k)
      (vbar R T v0 (dCoeff D .dP (A p) w x x0 old k)) p := by
  have hc := coeff_deriv .dP A w p hA h0 x old x0 k h
  exact hmu.fun_add ((hc.const_add (Real.log (conc x x0 k))).const_mul (R * T))

/-- ∂h/∂T = cp. -/
theorem h_T (R T cp0 d2A : ℝ) (h0 A dA : ℝ → ℝ) (x old : ℕ → ℝ) (x0 : ℝ) (k : ℕ)
    (hh : HasDerivAt h0 cp0 T) (hA2 : HasDerivAt dA d2A T) (hne : dA T ≠ 0)
    (hz : D.form = .dilute → ∀ᶠ u in 𝓝 T, A u ≠ 0)
    (h : Regular D .dT old k) (h' : Regular D .d2T old k) :
    HasDerivAt (fun T => hbar R T (h0 T) (dA T) (dCoeff D .dT (A T) (dA T) x x0 old k))
      (cpbar R T cp0 (dA T) (dCoeff D .dT (A T) (dA T) x x0 old k)
        (dCoeff D .d2T (A T) d2A x x0 old k)) T := by
  have hc := coeff_second A dA d2A T hA2 hz x old x0 k h h'
  have := hh.fun_sub ((((hasDerivAt_id' T).const_mul R).fun_mul (hasDerivAt_id' T)).fun_mul hc)
  refine (this.congr_of_eventuallyEq ?_).congr_deriv ?_
  · refine Eventually.of_forall fun u => ?_
    simp only [hbar]
    by_cases hd : dA u = 0
    · rw [if_neg (not_not.mpr hd), hd]
      simp only [dCoeff, if_true]
      ring
    · rw [if_pos hd]
  · unfold cpbar
    rw [if_pos hne]
    ring

/-- If dA/dT is zero but d²A/dT² is not, the heat capacity lacks a term. -/
theorem cp_flat (R T cp0 d d2 : ℝ) : cpbar R T cp0 0 d d2 = cp0 := by simp [cpbar]

example : HasDerivAt (fun T => mu (saltPar .betaij) 8 T (5 - 2 * T) T (fun _ => 1) (1/3) 1)
    (-sbar (saltPar .betaij) 8 300 2 1 (dCoeff (saltPar .betaij) .dT 300 1 (fun _ => 1) (1/3)
      (fun _ => 0) 1) 300 (fun _ => 1) (1/3) 1) 300 :=
  mu_T 8 300 2 1 (fun T => 5 - 2 * T) (fun T => T) _ _ _ _
    (by simpa using ((hasDerivAt_id' (300:ℝ)).const_mul 2).const_sub 5) (hasDerivAt_id' 300)
    (fun h => by cases h)
    (Regular.of_form (by simp [saltPar]) (by simp [saltPar]))

/-! ## Parameters -/

theorem setBeta_ok (tb : Table) (i j : ℕ) (v : ℝ) (hi : i < tb.dim) (hj : j < tb.dim) :
    ∃ tb', setBeta tb (some i) (some j) v = .ok tb' ∧ tb'.dim = tb.dim ∧ tb'.at i j = v ∧ tb'.at j i = v ∧
      ∀ p q, p < tb.dim → q < tb.dim → ¬(p = i ∧ q = j) → ¬(p = j ∧ q = i) → tb'.at p q = tb.at p q := by
  have inj : ∀ p q p' q', p < tb.dim → p' < tb.dim →
      tb.dim * q + p = tb.dim * q' + p' → p = p' ∧ q = q' := by
    intro p q p' q' hp hp' h
    have h1 := congrArg (· % tb.dim) h
    have h2 := congrArg (· / tb.dim) h
    simp only [Nat.mul_add_mod, Nat.mod_eq_of_lt hp, Nat.mod_eq_of_lt hp'] at h1
    have hd : 0 < tb.dim := by omega
    simp only [Nat.mul_add_div hd, Nat.div_eq_of_lt hp, Nat.div_eq_of_lt hp'] at h2
    exact ⟨h1, by omega⟩
  refine ⟨{ tb with
        data := fun p => if p = tb.dim * i + j then v else if p = tb.dim * j + i then v
          else tb.data p }, by simp [setBeta, hi, hj], rfl, ?_, ?_, ?_⟩
  · simp [Table.at]
  · simp [Table.at]
  · intro p q hp hq h1 h2
    simp only [Table.at]
    rw [if_neg, if_neg]
    · intro h
      obtain ⟨a, b⟩ := inj _ _ _ _ hp hi h
      exact h1 ⟨a, b⟩
    · intro h
      obtain ⟨a, b⟩ := inj _ _ _ _ hp hj h
      exact h2 ⟨a, b⟩

/-- The table stays symmetric. -/
theorem setBeta_symm (tb tb' : Table) (k1 k2 : Option ℕ) (v : ℝ)
    (hs : ∀ p q, p < tb.dim → q < tb.dim → tb.at p q = tb.at q p)
    (h : setBeta tb k1 k2 v = .ok tb') :
    ∀ p q, p < tb'.dim → q < tb'.dim → tb'.at p q = tb'.at q p := by
  rcases k1 with _ | i
  · simp [setBeta] at h
  rcases k2 with _ | j
  · simp [setBeta] at h
  by_cases hc : i < tb.dim ∧ j < tb.dim
  · obtain ⟨tb'', h1, h2, h3, h4, h5⟩ := setBeta_ok tb i j v hc.1 hc.2
    rw [h1] at h
    cases h
    intro p q hp hq
    rw [h2] at hp hq
    by_cases e1 : p = i ∧ q = j
    · rw [e1.1, e1.2, h3, h4]
    · by_cases e2 : p = j ∧ q = i
      · rw [e2.1, e2.2, h3, h4]
      · rw [h5 p q hp hq e1 e2, h5 q p hq hp (fun h => e2 ⟨h.2, h.1⟩) (fun h => e1 ⟨h.2, h.1⟩), hs p q hp hq]
  · simp [setBeta, hc] at h

theorem setBeta_unknown (tb : Table) (k1 k2 : Option ℕ) (v : ℝ) (h : k1 = none ∨ k2 = none) :
    setBeta tb k1 k2 v = .throw := by
  rcases h with h | h <;> subst h
  · rfl
  · cases k1 <;> rfl

/-- Without a model that has interaction parameters the table is empty. -/
theorem setBeta_no_table (f : Form) (tb : Table) (h0 : tb.dim = 0) (kk i j : ℕ) (v : ℝ)
    (hf : f = .dilute ∨ f = .bdotAk ∨ f = .bdotCommon) :
    setBeta (setModel tb kk f) (some i) (some j) v = .ub := by
  have : (setModel tb kk f).dim = 0 := by
    rcases hf with h | h | h <;> subst h <;> simp [setModel, h0]
  simp [setBeta, this]

theorem setModel_first (tb : Table) (h0 : tb.dim = 0) (kk : ℕ) (f : Form) (hf : f = .betaij ∨ f = .pitzer) :
    (setModel tb kk f).dim = kk ∧ ∀ i j, (setModel tb kk f).at i j = 0 := by
  simp [setModel, hf, h0, Table.at]

/-- Choosing the model again keeps the parameters if no species was added. -/
theorem setModel_again (tb : Table) (f : Form) (i j : ℕ) (hi : i < tb.dim) (hj : j < tb.dim) :
    (setModel tb tb.dim f).at i j = tb.at i j := by
  unfold setModel
  split
  · simp only [Table.at]
    rw [if_pos]
    have : tb.dim * j + tb.dim ≤ tb.dim * tb.dim := by
      rw [← Nat.mul_succ]; exact Nat.mul_le_mul_left _ hj
    omega
  · rfl

/-- After a species was added the parameters move to other pairs and the table is not symmetric. -/
theorem setModel_scrambled : ∃ tb : Table, tb.dim = 2 ∧ (∀ i j, i < 2 → j < 2 → tb.at i j = tb.at j i) ∧
    tb.at 1 1 = 5 ∧ ∀ f, f = .betaij ∨ f = .pitzer →
      (setModel tb 3 f).at 1 1 = 0 ∧ (setModel tb 3 f).at 0 1 = 5 ∧ (setModel tb 3 f).at 1 0 = 0 := by
  refine ⟨⟨2, fun p => if p = 3 then 5 else 0⟩, rfl, ?_, by simp [Table.at], ?_⟩
  · intro i j hi hj
    have h1 : i = 0 ∨ i = 1 := by omega
    have h2 : j = 0 ∨ j = 1 := by omega
    rcases h1 with rfl | rfl <;> rcases h2 with rfl | rfl <;> simp [Table.at]
  · intro f hf
    simp [setModel, hf, Table.at]

theorem setBdot_ok (f : Form) (z : ℕ → ℝ) (b : ℝ) (hf : f = .bdotAk ∨ f = .bdotCommon) :
    ∃ g, setBdot f z b = .ok g ∧ (∀ k, 1 / 10000 < |z k| → g k = b) ∧ (∀ k, |z k| ≤ 1 / 10000 → g k = 0)
      ∧ ∀ k, z k = 0 → g k = 0 := by
  refine ⟨fun k => if 1 / 10000 < |z k| then b else 0, ?_, ?_, ?_, ?_⟩
  · rcases hf with h | h <;> subst h <;> simp [setBdot]
  · intro k h; simp only [if_pos h]
  · intro k h; simp only [if_neg (not_lt.mpr h)]
  · intro k h
    simp [h]

theorem setBdot_refused (f : Form) (z : ℕ → ℝ) (b : ℝ) (hf : f = .betaij ∨ f = .dilute ∨ f = .pitzer) :
    setBdot f z b = .throw := by simp [setBdot, hf]

example : ∃ tb', setBeta (setModel ⟨0, fun _ => 0⟩ 3 .betaij) (some 1) (some 2) 7 = .ok tb' ∧
    tb'.at 2 1 = 7 := by
  obtain ⟨tb', h1, _, _, h4, _⟩ := setBeta_ok (setModel ⟨0, fun _ => 0⟩ 3 .betaij) 1 2 7
    (by simp [setModel]) (by simp [setModel])
  exact ⟨tb', h1, h4⟩

end Verif.DH
