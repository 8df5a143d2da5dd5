import Verif.Thermo.ThermoFactory
import Mathlib.Tactic.Linarith
import Mathlib.Tactic.NormNum

/-!
# Properties of setting up species thermo (C110)
-/

namespace Verif.ThermoFactory

/-! ## Names -/

/-- The names that give an object. -/
theorem name_ok (s : String) : ((typeOf s).bind classOf).isSome = true ↔
    s = "nasa2" ∨ s = "nasa" ∨ s = "const_cp" ∨ s = "simple" ∨ s = "shomate" ∨ s = "shomate1" ∨ s = "shomate2" ∨
    s = "nasa1" ∨ s = "nasa9multi" ∨ s = "mu0" := by
  unfold typeOf
  split_ifs with h1 h2 h3 h4 h5 h6 h7 h8
  · rcases h1 with rfl | rfl <;> simp [classOf]
  · rcases h2 with rfl | rfl <;> simp [classOf]
  · rcases h3 with rfl | rfl <;> simp [classOf]
  · subst h4; simp [classOf]
  · subst h5; simp [classOf]
  · subst h6; simp [classOf]
  · subst h7; simp [classOf]
  · subst h8; simp [classOf]
  · simp only [Option.bind_none, Option.isSome_none, Bool.false_eq_true, false_iff]
    tauto

theorem name_class : (typeOf "nasa").bind classOf = some .nasa2 ∧ (typeOf "nasa1").bind classOf = some .nasa1 ∧
    (typeOf "simple").bind classOf = some .constCp ∧ (typeOf "shomate").bind classOf = some .shomate ∧
    (typeOf "shomate2").bind classOf = some .shomate2 ∧ (typeOf "nasa9multi").bind classOf = some .nasa9multi ∧
    (typeOf "mu0").bind classOf = some .mu0 := by
  refine ⟨?_, ?_, ?_, ?_, ?_, ?_, ?_⟩ <;> simp [typeOf, classOf]

/-- The name of single range NASA9 polynomials is known, but no object is created for it. -/
theorem nasa9_refused : (typeOf "nasa9").isSome = true ∧ (typeOf "nasa9").bind classOf = none := by
  constructor <;> simp [typeOf, classOf]

theorem model_eq (s : String) (c : Cls) : modelOf s = some c ↔ (s = "NASA7" ∧ c = .nasa2) ∨ (s = "Shomate" ∧ c = .shomate2) ∨
    (s = "NASA9" ∧ c = .nasa9multi) ∨ (s = "constant-cp" ∧ c = .constCp) ∨ (s = "piecewise-Gibbs" ∧ c = .mu0) := by
  unfold modelOf
  split_ifs with h1 h2 h3 h4 h5
  · subst h1; simp [eq_comm]
  · subst h2; simp [eq_comm]
  · subst h3; simp [eq_comm]
  · subst h4; simp [eq_comm]
  · subst h5; simp [eq_comm]
  · simp [h1, h2, h3, h4, h5]

/-! ## Seven coefficients -/

/-- What is accepted. -/
theorem setup7_ok_iff (Tr : List ℝ) (data : List (List ℝ)) : (∃ p, setup7 Tr data = .ok p) ↔
    (Tr.length = 2 ∨ Tr.length = 3) ∧ data.length + 1 = Tr.length ∧ ∀ d ∈ data, d.length = 7 := by
  unfold setup7
  split_ifs with h1 h2 h3
  · simp only [reduceCtorEq, exists_false, false_iff]
    rintro ⟨h, -⟩
    omega
  · simp only [reduceCtorEq, exists_false, false_iff]
    rintro ⟨h, g, -⟩
    omega
  · simp only [reduceCtorEq, exists_false, false_iff]
    rintro ⟨-, -, g⟩
    simp only [List.any_eq_true, decide_eq_true_eq] at h3
    obtain ⟨d, hd, h⟩ := h3
    exact h (g d hd)
  all_goals
    refine iff_of_true ⟨_, rfl⟩ ⟨by omega, by omega, fun d hd => ?_⟩
    by_contra hc
    apply h3
    simp only [List.any_eq_true, decide_eq_true_eq]
    exact ⟨d, hd, hc⟩

/-- Two ranges. -/
theorem setup7_two {a b c : ℝ} {d e : List ℝ} (hd : d.length = 7) (he : e.length = 7) :
    setup7 [a, b, c] [d, e] = .ok ⟨a, c, b, d, e⟩ := by
  simp [setup7, hd, he]

/-- One range: the same coefficients on both sides of the upper limit. -/
theorem setup7_one {a b : ℝ} {d : List ℝ} (hd : d.length = 7) : setup7 [a, b] [d] = .ok ⟨a, b, b, d, d⟩ := by
  simp [setup7, hd]

/-- The order of the temperatures is not checked. -/
theorem setup7_unordered (d : List ℝ) (hd : d.length = 7) : ∃ p, setup7 [3000, 300] [d] = .ok p ∧ p.hi < p.lo := by
  refine ⟨_, setup7_one hd, ?_⟩
  norm_num

/-! ## Nine coefficients -/

theorem setup9_ok_iff (Tr : List ℝ) (data : List (List ℝ)) : (∃ p, setup9 Tr data = .ok p) ↔
    (2 ≤ Tr.length ∧ Tr.length ≤ 999) ∧ data.length + 1 = Tr.length ∧ ∀ d ∈ data, d.length = 9 := by
  unfold setup9
  split_ifs with h1 h2 h3
  · simp only [reduceCtorEq, exists_false, false_iff]
    rintro ⟨h, -⟩
    omega
  · simp only [reduceCtorEq, exists_false, false_iff]
    rintro ⟨h, g, -⟩
    omega
  · simp only [reduceCtorEq, exists_false, false_iff]
    rintro ⟨-, -, g⟩
    simp only [List.any_eq_true, decide_eq_true_eq] at h3
    obtain ⟨d, hd, h⟩ := h3
    exact h (g d hd)
  · refine iff_of_true ⟨_, rfl⟩ ⟨by omega, by omega, fun d hd => ?_⟩
    by_contra hc
    apply h3
    simp only [List.any_eq_true, decide_eq_true_eq]
    exact ⟨d, hd, hc⟩

open Classical in
theorem foldl_other (l : List (ℝ × List ℝ)) (f : ℝ → Option (List ℝ)) {T : ℝ} (h : ∀ p ∈ l, p.1 ≠ T) :
    (l.foldl (fun (f : ℝ → Option (List ℝ)) (p : ℝ × List ℝ) => Function.update f p.1 (some p.2)) f) T = f T := by
  induction l generalizing f with
  | nil => rfl
  | cons p l ih =>
    rw [List.foldl_cons, ih _ fun q hq => h q (List.mem_cons_of_mem _ hq)]
    exact Function.update_of_ne (h p (List.mem_cons_self)).symm _ _

/-- The last entry of a temperature counts. -/
theorem regions_last (l r : List (ℝ × List ℝ)) (T : ℝ) (d : List ℝ) (h : ∀ p ∈ r, p.1 ≠ T) :
    regions (l ++ (T, d) :: r) T = some d := by
  unfold regions
  rw [List.foldl_append, List.foldl_cons, foldl_other r _ h]
  exact Function.update_self ..

/-- No region starts anywhere else. -/
theorem regions_none (l : List (ℝ × List ℝ)) (T : ℝ) (h : ∀ p ∈ l, p.1 ≠ T) : regions l T = none :=
  foldl_other l _ h

/-- A repeated temperature: the coefficients of the first of the two ranges are lost without a message. -/
theorem regions_lost {a b : ℝ} {d e : List ℝ} (hd : d.length = 9) (he : e.length = 9) :
    ∃ f, setup9 [a, a, b] [d, e] = .ok (a, b, f) ∧ f a = some e := by
  refine ⟨regions [(a, d), (a, e)], ?_, regions_last [(a, d)] [] a e (by simp)⟩
  simp [setup9, hd, he]

theorem foldl_min (us : List ℝ) (u : ℝ) : us.foldl min u ∈ u :: us ∧ ∀ v ∈ u :: us, us.foldl min u ≤ v := by
  induction us generalizing u with
  | nil => simp
  | cons w us ih =>
    rw [List.foldl_cons]
    obtain ⟨h1, h2⟩ := ih (min u w)
    have h3 := h2 (min u w) (List.mem_cons_self)
    refine ⟨?_, ?_⟩
    · rcases List.mem_cons.1 h1 with h | h
      · rw [h]
        rcases min_choice u w with g | g <;> rw [g] <;> simp
      · simp [h]
    · intro v hv
      rcases List.mem_cons.1 hv with rfl | hv
      · exact h3.trans (min_le_left _ _)
      · rcases List.mem_cons.1 hv with rfl | hv
        · exact h3.trans (min_le_right _ _)
        · exact h2 v (List.mem_cons_of_mem _ hv)

/-- A region ends at the next higher temperature of the list. -/
theorem upper_next {keys : List ℝ} (hi : ℝ) {T u : ℝ} (hu : u ∈ keys) (h : T < u) (hl : ∀ v ∈ keys, T < v → u ≤ v) :
    upper keys hi T = u := by
  have hm : ∀ v, v ∈ keys.filter (fun u => decide (T < u)) ↔ v ∈ keys ∧ T < v := by
    intro v
    simp [List.mem_filter]
  unfold upper
  split
  · rename_i e
    have := (hm u).2 ⟨hu, h⟩
    rw [e] at this
    cases this
  · rename_i w ws e
    obtain ⟨h1, h2⟩ := foldl_min ws w
    rw [← e] at h1 h2
    have a := (hm _).1 h1
    exact le_antisymm (h2 u ((hm u).2 ⟨hu, h⟩)) (hl _ a.1 a.2)

/-- The last region ends at the upper limit of the species. -/
theorem upper_last {keys : List ℝ} (hi : ℝ) {T : ℝ} (h : ∀ v ∈ keys, v ≤ T) : upper keys hi T = hi := by
  have : keys.filter (fun u => decide (T < u)) = [] := by
    rw [List.filter_eq_nil_iff]
    intro v hv
    simp [h v hv]
  unfold upper
  rw [this]

/-- Falling temperatures are accepted; then the region that starts at the highest one ends at the lowest. -/
theorem upper_falling {d e : List ℝ} (hd : d.length = 9) (he : e.length = 9) :
    ∃ f, setup9 [6000, 1000, 200] [d, e] = .ok (6000, 200, f) ∧ f 6000 = some d ∧ f 1000 = some e ∧
    upper [6000, 1000] 200 1000 = 6000 ∧ upper [6000, 1000] 200 6000 = 200 := by
  refine ⟨regions [(6000, d), (1000, e)], by simp [setup9, hd, he], ?_, ?_, ?_, ?_⟩
  · exact regions_last [] [(1000, e)] 6000 d (by norm_num)
  · exact regions_last [(6000, d)] [] 1000 e (by norm_num)
  · exact upper_next 200 (by simp) (by norm_num) (by
      intro v hv h
      simp only [List.mem_cons, List.not_mem_nil, or_false] at hv
      rcases hv with rfl | rfl <;> linarith)
  · exact upper_last 200 (by
      intro v hv
      simp only [List.mem_cons, List.not_mem_nil, or_false] at hv
      rcases hv with rfl | rfl <;> norm_num)

/-! ## Constant heat capacity and piecewise Gibbs -/

theorem setupCp_eq (T0 h0 s0 cp0 : ℝ) : setupCp (some T0) (some h0) (some s0) (some cp0) = (T0, h0, s0, cp0) ∧
    setupCp none none none none = (298.15, 0, 0, 0) := ⟨rfl, rfl⟩

theorem mu0_eq (R T mu : ℝ) : mu0 R true T mu = mu * (R * T) ∧ mu0 R false T mu = mu := by
  constructor
  · show mu * R * T = mu * (R * T)
    rw [mul_assoc]
  · rfl

/-! ## The assumptions can be met -/

example : ∃ p, setup7 [200, 1000, 3500] [[1, 2, 3, 4, 5, 6, 7], [1, 2, 3, 4, 5, 6, 8]] = .ok p ∧ p.mid = 1000 :=
  ⟨_, setup7_two rfl rfl, rfl⟩

example : ∃ p, setup9 [200, 1000] [[1, 2, 3, 4, 5, 6, 7, 8, 9]] = .ok p :=
  (setup9_ok_iff _ _).2 ⟨by simp, by simp, by simp⟩

example : upper [200, 1000] 6000 200 = 1000 := upper_next 6000 (by simp) (by norm_num) (by
  intro v hv h
  simp only [List.mem_cons, List.not_mem_nil, or_false] at hv
  rcases hv with rfl | rfl <;> linarith)

end Verif.ThermoFactory
