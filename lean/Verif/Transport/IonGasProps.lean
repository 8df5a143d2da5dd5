import Verif.Transport.IonGas
import Mathlib.Analysis.Complex.ExponentialBounds
import Mathlib.Tactic.FieldSimp
import Mathlib.Tactic.Linarith
import Mathlib.Tactic.Positivity

/-!
# C103: theorems on transport in ionised gases
-/

namespace Verif.IonGas

open Finset

/-! ## Classification -/

theorem findE_spec (sp : List Sp) (k : ℕ) (e : Option ℕ) (c : ℕ) :
    (findE sp k e c).2 = c + sp.countP (fun p => p.2 = true ∧ p.1 = -1) ∧
    ((∀ p ∈ sp, ¬(p.2 = true ∧ p.1 = -1)) → (findE sp k e c).1 = e) ∧
    ((∃ p ∈ sp, p.2 = true ∧ p.1 = -1) → ∃ i, ∃ h : i < sp.length, (findE sp k e c).1 = some (k + i) ∧
      sp[i].2 = true ∧ sp[i].1 = -1) := by
  induction sp generalizing k e c with
  | nil => simp [findE]
  | cons p r ih =>
    obtain ⟨z, w⟩ := p
    by_cases hp : w = true ∧ z = -1
    · obtain ⟨h1, h2, h3⟩ := ih (k + 1) (some k) (c + 1)
      have e1 : findE ((z, w) :: r) k e c = findE r (k + 1) (some k) (c + 1) := by simp [findE, hp]
      rw [e1]
      refine ⟨?_, fun h => absurd hp (h _ List.mem_cons_self), fun _ => ?_⟩
      · rw [h1, List.countP_cons_of_pos (by simpa using hp)]
        omega
      · by_cases hr : ∃ p ∈ r, p.2 = true ∧ p.1 = -1
        · obtain ⟨i, hi, a, b⟩ := h3 hr
          exact ⟨i + 1, by simpa using hi, by rw [a]; congr 1; omega, by simpa using b⟩
        · push Not at hr
          refine ⟨0, by simp, ?_, by simpa using hp⟩
          rw [h2 fun p hp h => hr p hp h.1 h.2]
          rfl
    · obtain ⟨h1, h2, h3⟩ := ih (k + 1) e c
      have e1 : findE ((z, w) :: r) k e c = findE r (k + 1) e c := by
        simp only [findE]
        rw [if_neg hp]
      rw [e1]
      refine ⟨?_, fun h => h2 fun p hp => h p (List.mem_cons_of_mem _ hp), ?_⟩
      · rw [h1, List.countP_cons_of_neg (by simpa using hp)]
      · rintro ⟨p, hm, hq⟩
        rcases List.mem_cons.1 hm with rfl | hm
        · exact absurd hq hp
        · obtain ⟨i, hi, a, b⟩ := h3 ⟨p, hm, hq⟩
          exact ⟨i + 1, by simpa using hi, by rw [a]; congr 1; omega, by simpa using b⟩

theorem classify_eq (ch : List ℝ) (e : Option ℕ) (m : ℕ) (p : List ℕ × List ℕ) :
    classify ch e m p = (p.1 ++ (List.range m).filter (fun k => decide (ch.getD k 0 ≠ 0 ∧ some k ≠ e)),
      p.2 ++ (List.range m).filter (fun k => decide (ch.getD k 0 = 0))) := by
  induction m with
  | zero => simp [classify]
  | succ m ih =>
    unfold classify
    simp only [ih, List.range_succ, List.filter_append]
    by_cases h1 : ch.getD m 0 = 0
    · rw [if_neg (not_not.2 h1), List.filter_cons_of_neg (by simp [← List.getD_eq_getElem?_getD, h1]),
        List.filter_cons_of_pos (by simpa using h1)]
      simp
    · rw [if_pos h1, List.filter_cons_of_neg (l := []) (p := fun k => decide (ch.getD k 0 = 0)) (by simpa using h1)]
      by_cases h2 : some m = e
      · rw [if_neg (not_not.2 h2), List.filter_cons_of_neg (by simp [h2])]
        simp
      · rw [if_pos h2, List.filter_cons_of_pos (by
          rw [decide_eq_true_eq]
          exact ⟨h1, h2⟩)]
        simp

/-- init throws iff there are two electron species. -/
theorem init_throws (sp : List Sp) (t : Tab) :
    init sp t = none ↔ 2 ≤ sp.countP (fun p => p.2 = true ∧ p.1 = -1) := by
  unfold init
  simp only
  rw [(findE_spec sp 0 t.electron 0).1]
  split_ifs with h
  · simp only [true_iff]; omega
  · simp only [reduceCtorEq, false_iff]; omega

/-- A new object: ions are the charged species other than the electron, neutrals those without charge, each once. -/
theorem init_new {sp : List Sp} {t : Tab} (h : init sp new = some t) :
    t.charge = sp.map Prod.fst ∧
    (∀ k, k ∈ t.ion ↔ k < sp.length ∧ (sp.map Prod.fst).getD k 0 ≠ 0 ∧ some k ≠ t.electron) ∧
    (∀ k, k ∈ t.neutral ↔ k < sp.length ∧ (sp.map Prod.fst).getD k 0 = 0) ∧ t.ion.Nodup ∧ t.neutral.Nodup ∧
    (∀ e, t.electron = some e → ∃ he : e < sp.length, sp[e].2 = true ∧ sp[e].1 = -1) ∧
    ((∃ p ∈ sp, p.2 = true ∧ p.1 = -1) → t.electron ≠ none) := by
  unfold init at h
  simp only at h
  split_ifs at h
  simp only [Option.some.injEq] at h
  subst h
  obtain ⟨-, f2, f3⟩ := findE_spec sp 0 none 0
  simp only [new, List.nil_append, classify_eq]
  refine ⟨trivial, fun k => by simp, fun k => by simp, List.Nodup.filter _ List.nodup_range,
    List.Nodup.filter _ List.nodup_range, fun e he => ?_, fun hx => ?_⟩
  · by_cases hx : ∃ p ∈ sp, p.2 = true ∧ p.1 = -1
    · obtain ⟨i, hi, a, b⟩ := f3 hx
      rw [a] at he
      simp only [zero_add, Option.some.injEq] at he
      subst he
      exact ⟨hi, b⟩
    · push Not at hx
      rw [f2 fun p hp h => hx p hp h.1 h.2] at he
      simp at he
  · obtain ⟨i, hi, a, -⟩ := f3 hx
    rw [a]
    simp

/-- After a species has been added to the phase init is called again and extends the lists: every neutral species
of before is in the list twice. -/
theorem reinit {sp sp' : List Sp} {t t' : Tab} (h : init sp new = some t) (h' : init sp' t = some t') :
    t'.charge = sp.map Prod.fst ++ sp'.map Prod.fst ∧
    t'.neutral = t.neutral ++ (List.range sp'.length).filter
      (fun k => decide ((sp.map Prod.fst ++ sp'.map Prod.fst).getD k 0 = 0)) := by
  obtain ⟨h1, -⟩ := init_new h
  unfold init at h'
  simp only at h'
  split_ifs at h'
  simp only [Option.some.injEq] at h'
  subst h'
  simp only [classify_eq, h1, true_and]

theorem reinit_twice {sp sp' : List Sp} {t t' : Tab} (h : init sp new = some t) (h' : init sp' t = some t')
    (hl : sp.length ≤ sp'.length) {k : ℕ} (hk : k < sp.length) (hz : (sp.map Prod.fst).getD k 0 = 0) :
    t'.neutral.count k = 2 := by
  obtain ⟨-, -, a3, -, a5, -⟩ := init_new h
  rw [(reinit h h').2, List.count_append]
  have c1 : t.neutral.count k = 1 := List.count_eq_one_of_mem a5 ((a3 k).2 ⟨hk, hz⟩)
  have c2 : ((List.range sp'.length).filter
      (fun k => decide ((sp.map Prod.fst ++ sp'.map Prod.fst).getD k 0 = 0))).count k = 1 := by
    refine List.count_eq_one_of_mem (List.Nodup.filter _ List.nodup_range) ?_
    rw [List.mem_filter, List.mem_range, decide_eq_true_eq]
    refine ⟨by omega, ?_⟩
    rw [List.getD_eq_getElem?_getD, List.getElem?_append_left (by simpa using hk), ← List.getD_eq_getElem?_getD]
    exact hz
  rw [c1, c2]

/-- The new species gets the charge of the first one: an ion added to a neutral gas is taken as neutral. -/
theorem reinit_ion_neutral : ∃ t t', init [(0, false)] new = some t ∧ init [(0, false), (1, false)] t = some t' ∧
    t'.neutral = [0, 0, 1] ∧ t'.ion = [] := by
  refine ⟨⟨[0], [], [0], none⟩, ⟨[0, 0, 1], [], [0, 0, 1], none⟩, ?_, ?_, rfl, rfl⟩
  · simp [init, findE, classify, new]
  · simp [init, findE, classify]

/-! ## Mixture rules -/

variable {X : ℕ → ℝ}

/-- Lists twice as long give twice the viscosity. -/
theorem viscosity_double (N : ℕ) (l : List ℕ) (mu : ℕ → ℝ) (phi : ℕ → ℕ → ℝ) :
    viscosity X N (l ++ l) mu phi = 2 * viscosity X N l mu phi := by
  simp only [viscosity, List.map_append, List.sum_append]
  ring

theorem viscosity_nonneg {N : ℕ} {l : List ℕ} {mu : ℕ → ℝ} {phi : ℕ → ℕ → ℝ} (hX : ∀ k, 0 ≤ X k)
    (hm : ∀ k, 0 ≤ mu k) (hp : ∀ k j, 0 ≤ phi k j) : 0 ≤ viscosity X N l mu phi := by
  refine List.sum_nonneg fun x hx => ?_
  obtain ⟨k, -, rfl⟩ := List.mem_map.1 hx
  exact div_nonneg (mul_nonneg (hX k) (hm k)) (Finset.sum_nonneg fun j _ => mul_nonneg (hp k j) (hX j))

/-- If all neutrals have the same viscosity and the interaction factors are one, the mixture has that viscosity
times the fraction of neutrals. -/
theorem viscosity_uniform {N : ℕ} {l : List ℕ} (m : ℝ) (hX : ∑ j ∈ range N, X j = 1) :
    viscosity X N l (fun _ => m) (fun _ _ => 1) = m * (l.map X).sum := by
  simp only [viscosity, one_mul, hX, div_one]
  rw [← List.sum_map_mul_left]
  congr 1
  exact List.map_congr_left fun k _ => by ring

/-- Neutrals of equal conductivity and total fraction `f`: the mixture rule gives `λ (f + 1/f) / 2`. -/
theorem conductivity_uniform {l : List ℕ} {la : ℝ} (hl : la ≠ 0) :
    conductivity X l (fun _ => la) = la * ((l.map X).sum + 1 / (l.map X).sum) / 2 := by
  have e1 : (l.map fun k => X k * la).sum = (l.map X).sum * la := by
    rw [← List.sum_map_mul_right]
  have e2 : (l.map fun k => X k / la).sum = (l.map X).sum / la := by
    simp only [div_eq_mul_inv]
    rw [← List.sum_map_mul_right]
  unfold conductivity
  rw [e1, e2, one_div_div]
  by_cases hs : (l.map X).sum = 0
  · rw [hs]; norm_num
  · field_simp
    norm_num

/-- So it exceeds every species' conductivity as soon as there are ions, and has no bound. -/
theorem conductivity_exceeds {l : List ℕ} {la : ℝ} (hl : 0 < la) (h0 : 0 < (l.map X).sum) (h1 : (l.map X).sum ≠ 1) :
    la < conductivity X l (fun _ => la) := by
  rw [conductivity_uniform hl.ne']
  generalize (l.map X).sum = f at *
  have h2 : 0 < (f - 1) ^ 2 := by
    have : f - 1 ≠ 0 := sub_ne_zero.2 h1
    positivity
  have h3 : f + 1 / f - 2 = (f - 1) ^ 2 / f := by field_simp; ring
  have h4 : 0 < (f - 1) ^ 2 / f := by positivity
  nlinarith

theorem conductivity_unbounded (B : ℝ) : ∃ X : ℕ → ℝ, 0 < X 0 ∧ X 0 < 1 ∧ B < conductivity X [0] (fun _ => 1) := by
  refine ⟨fun _ => 1 / (2 * (|B| + 1)), by positivity, ?_, ?_⟩
  · have := abs_nonneg B
    rw [div_lt_one (by positivity)]
    linarith
  · rw [conductivity_uniform one_ne_zero]
    have := le_abs_self B
    have h := abs_nonneg B
    have h2 : (0 : ℝ) < 1 / (2 * (|B| + 1)) := by positivity
    simp only [List.map_cons, List.map_nil, List.sum_cons, List.sum_nil, add_zero, one_div_one_div, one_mul]
    linarith

/-- Without neutrals' deficit, i.e. for fractions that sum to one, the uniform value is right. -/
theorem conductivity_neutral {l : List ℕ} {la : ℝ} (hl : la ≠ 0) (h : (l.map X).sum = 1) :
    conductivity X l (fun _ => la) = la := by
  rw [conductivity_uniform hl, h]
  ring

/-! ## Mobilities and diffusion -/

/-- Blanc's law, in terms of the diffusion coefficients. -/
theorem mobility_ion {t : Tab} {D : ℕ → ℕ → ℝ} {kbt p : ℝ} {k : ℕ} (hk : k ∈ t.ion) (hkT : kbt ≠ 0)
    (hD : ∀ j, D k j ≠ 0) :
    mobility X t D kbt p k * (p * (t.neutral.map fun j => X j / D k j).sum) * kbt =
      if p * (t.neutral.map fun j => X j / D k j).sum = 0 then 0 else 1.602176634 / 10 ^ 19 := by
  have hq : qe ≠ 0 := by unfold qe; positivity
  have e : (t.neutral.map fun j => X j / (D k j * qe / kbt)).sum =
      (t.neutral.map fun j => X j / D k j).sum * (kbt / qe) := by
    rw [← List.sum_map_mul_right]
    congr 1
    refine List.map_congr_left fun j _ => ?_
    have := hD j
    field_simp
  unfold mobility
  rw [if_pos hk, e, ← show qe = 1.602176634 / 10 ^ 19 from rfl]
  generalize (t.neutral.map fun j => X j / D k j).sum = S
  split_ifs with h0
  · rw [h0]; ring
  · have hp : p ≠ 0 := left_ne_zero_of_mul h0
    have hS : S ≠ 0 := right_ne_zero_of_mul h0
    field_simp

/-- Electron and neutrals. -/
theorem mobility_other {t : Tab} {D : ℕ → ℕ → ℝ} {kbt p : ℝ} {k : ℕ} (hk : k ∉ t.ion) :
    (t.electron = some k → mobility X t D kbt p k = 0.4) ∧ (t.electron ≠ some k → mobility X t D kbt p k = 0) := by
  unfold mobility
  rw [if_neg hk]
  exact ⟨fun h => if_pos h.symm, fun h => if_neg fun q => h q.symm⟩

/-- Charges do not matter: a doubly charged ion has the mobility of a singly charged one. -/
theorem mobility_charge (t : Tab) (c : List ℝ) (D : ℕ → ℕ → ℝ) (kbt p : ℝ) (k : ℕ) :
    mobility X { t with charge := c } D kbt p k = mobility X t D kbt p k := rfl

/-- Einstein's relation for ions: the mixture diffusion coefficient is mobility times kT/e, times one minus the mass
fraction. -/
theorem einstein_ion {t : Tab} {D : ℕ → ℕ → ℝ} {M : ℕ → ℝ} {mmw kbt p : ℝ} {k : ℕ} (hk : k ∈ t.ion)
    (hn : k ∉ t.neutral) (he : t.electron ≠ some k) (hs : ∀ i j, D i j = D j i) (hD : ∀ j, D k j ≠ 0)
    (hkT : 0 < kbt) (hp : 0 < p) (hm : 0 < mmw) (hpos : 0 < (t.neutral.map fun j => X j / D k j).sum) :
    mixDiff X t D M mmw kbt p k * (1.602176634 / 10 ^ 19) =
      (1 - X k * M k / mmw) * (mobility X t D kbt p k * kbt) := by
  have hmob := mobility_ion (X := X) (p := p) hk hkT.ne' hD
  have e1 : (t.neutral.filter fun j => j ≠ k) = t.neutral := by
    rw [List.filter_eq_self]
    intro j hj
    simp only [ne_eq, decide_eq_true_eq]
    rintro rfl
    exact hn hj
  have e2 : (t.neutral.map fun j => X j / D j k) = (t.neutral.map fun j => X j / D k j) :=
    List.map_congr_left fun j _ => by rw [hs j k]
  unfold mixDiff
  rw [if_neg fun q => he q.symm]
  simp only [e1, e2]
  rw [if_neg (not_le.2 hpos)]
  generalize (t.neutral.map fun j => X j / D k j).sum = S at *
  rw [if_neg (by positivity)] at hmob
  rw [← hmob]
  field_simp

/-- For the electron it holds exactly. -/
theorem einstein_electron {t : Tab} {D : ℕ → ℕ → ℝ} {M : ℕ → ℝ} {mmw kbt p : ℝ} {k : ℕ} (hk : k ∉ t.ion)
    (he : t.electron = some k) :
    mixDiff X t D M mmw kbt p k * (1.602176634 / 10 ^ 19) = mobility X t D kbt p k * kbt := by
  have hq : qe ≠ 0 := by unfold qe; positivity
  rw [(mobility_other hk).1 he, ← show qe = 1.602176634 / 10 ^ 19 from rfl]
  unfold mixDiff
  rw [if_pos he.symm, div_mul_cancel₀ _ hq]

/-- The electron's diffusion coefficient does not depend on pressure or composition. -/
theorem electron_pressure {t : Tab} {k : ℕ} (he : t.electron = some k) (D D' : ℕ → ℕ → ℝ) (M : ℕ → ℝ)
    (mmw mmw' kbt p p' : ℝ) (X' : ℕ → ℝ) :
    mixDiff X t D M mmw kbt p k = mixDiff X' t D' M mmw' kbt p' k := by
  unfold mixDiff
  rw [if_pos he.symm, if_pos he.symm]

/-- A neutral: the usual mixture rule over the other neutrals. -/
theorem mixDiff_neutral {t : Tab} {D : ℕ → ℕ → ℝ} {M : ℕ → ℝ} {mmw kbt p : ℝ} {k : ℕ} (he : t.electron ≠ some k) :
    (0 < ((t.neutral.filter fun j => j ≠ k).map fun j => X j / D j k).sum →
      mixDiff X t D M mmw kbt p k =
        (mmw - X k * M k) / (p * mmw * ((t.neutral.filter fun j => j ≠ k).map fun j => X j / D j k).sum)) ∧
    (((t.neutral.filter fun j => j ≠ k).map fun j => X j / D j k).sum ≤ 0 → mixDiff X t D M mmw kbt p k = D k k / p) := by
  unfold mixDiff
  rw [if_neg fun q => he q.symm]
  exact ⟨fun h => if_neg (not_le.2 h), fun h => if_pos h⟩

/-- Electrical conductivity: the sum over charge carriers, not negative. -/
theorem elecCond_eq (t : Tab) (mob : ℕ → ℝ) (kbt p : ℝ) :
    elecCond X t mob kbt p = p / kbt * (1.602176634 / 10 ^ 19) *
      ((t.ion.map fun k => X k * |t.charge.getD k 0| * mob k).sum +
        (t.electron.map fun e => X e * mob e).getD 0) := by
  have e : (t.ion.map fun k => X k * p / kbt * |t.charge.getD k 0| * qe * mob k).sum =
      p / kbt * qe * (t.ion.map fun k => X k * |t.charge.getD k 0| * mob k).sum := by
    rw [← List.sum_map_mul_left]
    congr 1
    exact List.map_congr_left fun k _ => by ring
  unfold elecCond
  rw [e, ← show qe = 1.602176634 / 10 ^ 19 from rfl]
  cases t.electron with
  | none => simp
  | some e => simp only [Option.map_some, Option.getD_some]; ring

theorem elecCond_nonneg {t : Tab} {mob : ℕ → ℝ} {kbt p : ℝ} (hX : ∀ k, 0 ≤ X k) (hm : ∀ k, 0 ≤ mob k)
    (hk : 0 < kbt) (hp : 0 ≤ p) : 0 ≤ elecCond X t mob kbt p := by
  rw [elecCond_eq]
  refine mul_nonneg (by positivity) (add_nonneg (List.sum_nonneg fun x hx => ?_) ?_)
  · obtain ⟨k, -, rfl⟩ := List.mem_map.1 hx
    exact mul_nonneg (mul_nonneg (hX k) (abs_nonneg _)) (hm k)
  · cases t.electron with
    | none => simp
    | some e => exact mul_nonneg (hX e) (hm e)

/-! ## Collision parameters -/

theorem xi_pos {P : Pair} (hi : 0 < P.ai) (hj : 0 < P.aj) (hz : P.z ≠ 0) : 0 < xi P := by
  unfold xi
  have : 0 < P.z * P.z := mul_self_pos.2 hz
  positivity

theorem diam_pos {P : Pair} (hi : 0 < P.ai) (hj : 0 < P.aj) (hz : P.z ≠ 0) : 0 < diam P := by
  have := xi_pos hi hj hz
  unfold diam
  positivity

/-- Well depth and diameter are positive. -/
theorem eps_pos {P : Pair} {epi : ℝ} (he : 0 < epi) (hi : 0 < P.ai) (hj : 0 < P.aj) (hz : P.z ≠ 0) : 0 < eps epi P := by
  have h1 := xi_pos hi hj hz
  have h2 := diam_pos hi hj hz
  have h3 : 0 < P.z * P.z := mul_self_pos.2 hz
  have h4 : 0 < qe := by unfold qe; positivity
  unfold eps
  rw [show 1.44 * qe * qe * P.z * P.z * P.aj * (1 + xi P) = 1.44 * qe * qe * (P.z * P.z) * P.aj * (1 + xi P) by ring]
  positivity

/-- So is the ratio gamma, with given or estimated coefficients. -/
theorem gam_pos {P : Pair} (hi : 0 < P.ai) (hj : 0 < P.aj) (hz : P.z ≠ 0) (h1 : 0 ≤ P.di) (h2 : 0 ≤ P.dj)
    (h3 : 0 ≤ P.qj) : 0 < gam P := by
  have a1 := diam_pos hi hj hz
  have a2 : 0 < dispJ P := by
    unfold dispJ
    split_ifs with q
    · positivity
    · exact lt_of_le_of_ne h2 (Ne.symm q)
  have a3 : 0 < quadJ P := by
    unfold quadJ
    split_ifs with q
    · positivity
    · exact lt_of_le_of_ne h3 (Ne.symm q)
  have a4 : 0 < dispI P := by
    unfold dispI
    split_ifs with q
    · positivity
    · positivity
    · exact lt_of_le_of_ne h1 (Ne.symm q)
  have a5 : 0 < P.z ^ 2 := by positivity
  unfold gam
  simp only
  positivity

/-- Given coefficients are used as they are. -/
theorem given_used (P : Pair) : (P.di ≠ 0 → dispI P = P.di) ∧ (P.dj ≠ 0 → dispJ P = P.dj) ∧
    (P.qj ≠ 0 → quadJ P = P.qj) ∧ (P.qj = 0 → P.dj ≠ 0 → quadJ P = 2 * P.dj) := by
  refine ⟨fun h => if_neg h, fun h => if_neg h, fun h => if_neg h, fun h g => ?_⟩
  unfold quadJ
  rw [if_pos h, show dispJ P = P.dj from if_neg g]

/-- Range of the collision integral. -/
theorem omega_range (t g : ℝ) : (omega t g).isSome = true ↔ 0.01 ≤ t ∧ t ≤ 1000 := by
  unfold omega
  simp only
  split_ifs with h1 h2 h3
  · simp only [Option.isSome_none, Bool.false_eq_true, false_iff, not_and]
    intro h; exact absurd h (not_le.2 h1)
  · simp only [Option.isSome_some, true_iff]
    exact ⟨not_lt.1 h1, h2.trans (by norm_num)⟩
  · simp only [Option.isSome_some, true_iff]
    exact ⟨not_lt.1 h1, h3⟩
  · simp only [Option.isSome_none, Bool.false_eq_true, false_iff, not_and]
    intro _; exact h3

/-- The two fits. -/
theorem omega_low {t g : ℝ} (h1 : 0.01 ≤ t) (h2 : t ≤ 0.04) : omega t g =
    some (2.97 - 0.887 * Real.log t - 0.275 * Real.log t ^ 2 - 0.164 * Real.log t ^ 3
      - g * (12 + 6.45 * Real.log t + 1.24 * Real.log t ^ 2) + g ^ 2 * (3.86 + 1.2 * Real.log t)) := by
  unfold omega
  simp only
  rw [if_neg (not_lt.2 h1), if_pos h2]
  congr 1
  ring

theorem omega_high {t g : ℝ} (h1 : 0.04 < t) (h2 : t ≤ 1000) : omega t g =
    some (1.22 - 0.769 * Real.log t + 0.306 * Real.log t ^ 2 - 0.0465 * Real.log t ^ 3 + 0.000614 * Real.log t ^ 4
      + 0.000238 * Real.log t ^ 5 + g * (-0.0343 + 0.232 * Real.log t - 0.165 * Real.log t ^ 2
      + 0.0388 * Real.log t ^ 3 - 0.00285 * Real.log t ^ 4)) := by
  have h0 : (0.01 : ℝ) ≤ t := by
    norm_num at h1 ⊢
    linarith
  unfold omega
  simp only
  rw [if_neg (not_lt.2 h0), if_neg (not_le.2 h1), if_pos h2]
  congr 1
  ring

/-- The low fit is negative at `t* = exp(-4)` and gamma 2, so the diffusion coefficient would be. -/
theorem omega_negative : ∃ t v : ℝ, 0.01 ≤ t ∧ t ≤ 0.04 ∧ omega t 2 = some v ∧ v < 0 := by
  have e4 : Real.exp 4 = Real.exp 1 ^ 4 := by
    rw [← Real.exp_nat_mul]
    norm_num
  have l1 : (2.7 : ℝ) ≤ Real.exp 1 := le_trans (by norm_num) Real.exp_one_gt_d9.le
  have l2 : Real.exp 1 ≤ 2.8 := le_trans Real.exp_one_lt_d9.le (by norm_num)
  have h1 : (2.7 : ℝ) ^ 4 ≤ Real.exp 4 := by rw [e4]; exact pow_le_pow_left₀ (by norm_num) l1 4
  have h2 : Real.exp 4 ≤ 2.8 ^ 4 := by rw [e4]; exact pow_le_pow_left₀ (Real.exp_pos 1).le l2 4
  norm_num at h1 h2
  have b1 : (0.01 : ℝ) ≤ Real.exp (-4) := by
    rw [Real.exp_neg, le_inv_comm₀ (by norm_num) (Real.exp_pos 4)]
    norm_num
    linarith
  have b2 : Real.exp (-4) ≤ (0.04 : ℝ) := by
    rw [Real.exp_neg, inv_le_comm₀ (Real.exp_pos 4) (by norm_num)]
    norm_num
    linarith
  refine ⟨Real.exp (-4), _, b1, b2, omega_low b1 b2, ?_⟩
  rw [Real.log_exp]
  norm_num

/-- Refitted are exactly the pairs of an ion and a neutral with polarisabilities. -/
theorem refit_iff (alpha charge : ℕ → ℝ) (el : Option ℕ) (k j : ℕ) : refit alpha charge el k j = true ↔
    alpha k ≠ 0 ∧ alpha j ≠ 0 ∧ el ≠ some k ∧ el ≠ some j ∧ (charge k = 0 ↔ charge j ≠ 0) := by
  unfold refit
  split_ifs with h1 h2 h3 h4
  · simp only [Bool.false_eq_true, false_iff]
    rintro ⟨a, b, c, d, -⟩
    rcases h1 with q | q | q | q
    · exact a q
    · exact b q
    · exact c q.symm
    · exact d q.symm
  all_goals
    push Not at h1
    have c1 := Ne.symm h1.2.2.1
    have c2 := Ne.symm h1.2.2.2
    simp_all

theorem refit_symm (alpha charge : ℕ → ℝ) (el : Option ℕ) (k j : ℕ) :
    refit alpha charge el k j = refit alpha charge el j k := by
  rw [Bool.eq_iff_iff, refit_iff, refit_iff]
  tauto

example : ∃ t, init [(0, false), (1, false), (-1, true)] new = some t ∧ t.ion = [1] ∧ t.neutral = [0] ∧
    t.electron = some 2 := by
  refine ⟨⟨[0, 1, -1], [1], [0], some 2⟩, ?_, rfl, rfl, rfl⟩
  simp [init, findE, classify, new]
example : (1 : ℝ) < conductivity (fun _ => 1 / 2) [0] (fun _ => 1) :=
  conductivity_exceeds one_pos (by norm_num) (by norm_num)
example : 0 < gam ⟨1, 1, 1, 0, 0, 0⟩ :=
  gam_pos one_pos one_pos one_ne_zero le_rfl le_rfl le_rfl

end Verif.IonGas
