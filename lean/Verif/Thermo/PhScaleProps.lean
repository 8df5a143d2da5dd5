import Verif.Thermo.PhScale
import Mathlib.Tactic.Linarith
import Mathlib.Tactic.NormNum
import Mathlib.Tactic.Positivity
import Mathlib.Tactic.Ring
import Mathlib.Algebra.BigOperators.Ring.Finset

/-!
# Properties of scales of single ion activity coefficients (C109)
-/

namespace Verif.PhScale

open Finset

theorem setScale_ok (t : ℤ) (s : St) : (setScale t s).2 = true ↔ t = 0 ∨ t = 1 := by
  unfold setScale
  simp

/-- A refused scale is stored all the same, and replaces the valid one. -/
theorem setScale_keeps_bad {t : ℤ} (h0 : t ≠ 0) (h1 : t ≠ 1) (s : St) :
    (setScale t s).2 = false ∧ (setScale t s).1.typ = t := by
  refine ⟨?_, rfl⟩
  rw [Bool.eq_false_iff, Ne, setScale_ok]
  tauto

/-- A refused scale then acts as the NBS scale. -/
theorem bad_is_nbs {t : ℤ} (h0 : t ≠ 0) (kk : ℕ) (cl : Option ℕ) (z un : ℕ → ℝ) (A I : ℝ) :
    scale t kk cl z un A I = scale 1 kk cl z un A I := by
  unfold scale
  rw [if_neg h0, if_neg (by norm_num)]

/-! ## The chloride ion -/

theorem findElem_some {a : Names} {x y : String} {e : ℕ} (h : findElem a x y = some e) :
    e < a.ne ∧ (a.ename e = x ∨ a.ename e = y) := by
  unfold findElem at h
  refine ⟨List.mem_range.1 (List.mem_of_find?_eq_some h), ?_⟩
  simpa using List.find?_some h

theorem findElem_none {a : Names} {x y : String} :
    findElem a x y = none ↔ ∀ e < a.ne, a.ename e ≠ x ∧ a.ename e ≠ y := by
  unfold findElem
  rw [List.find?_eq_none]
  simp [not_or]

/-- The species found is not the solvent, has one chlorine and one electron, and its name. -/
theorem findCl_some {a : Names} {k : ℕ} (h : findCl a = some k) : 1 ≤ k ∧ k < a.kk ∧
    (a.sname k = "Cl-" ∨ a.sname k = "CL-") ∧ ∃ c < a.ne, ∃ e < a.ne, (a.ename c = "Cl" ∨ a.ename c = "CL") ∧
    (a.ename e = "E" ∨ a.ename e = "e") ∧ a.atoms k c = 1 ∧ a.atoms k e = 1 := by
  unfold findCl at h
  split at h
  · rename_i c e hc he
    obtain ⟨c1, c2⟩ := findElem_some hc
    obtain ⟨e1, e2⟩ := findElem_some he
    have hk := List.mem_range.1 (List.mem_of_find?_eq_some h)
    have hp := List.find?_some h
    simp only [decide_eq_true_eq] at hp
    exact ⟨hp.1, hk, hp.2.2.2, c, c1, e, e1, c2, e2, hp.2.1, hp.2.2.1⟩
  · cases h

/-- Other elements are not looked at: a species with further atoms can be taken for the chloride ion. -/
theorem findCl_ignores {a b : Names} {c e : ℕ} (hc : findElem a "Cl" "CL" = some c) (he : findElem a "E" "e" = some e)
    (hn : b.ne = a.ne) (hk : b.kk = a.kk) (h1 : b.ename = a.ename) (h2 : b.sname = a.sname)
    (h3 : ∀ k, b.atoms k c = a.atoms k c ∧ b.atoms k e = a.atoms k e) : findCl b = findCl a := by
  have g : ∀ x y, findElem b x y = findElem a x y := by
    intro x y
    unfold findElem
    rw [hn, h1]
  unfold findCl
  rw [g, g, hc, he, hk, h2]
  simp only [(h3 _).1, (h3 _).2]

/-! ## Scaling -/

theorem nbs_eq (A I : ℝ) (h : 0 ≤ I) : nbs A I * (1 + 3 / 2 * Real.sqrt I) = -(A * Real.sqrt I) := by
  have : (0 : ℝ) < 1 + 3 / 2 * Real.sqrt I := by
    have := Real.sqrt_nonneg I
    positivity
  unfold nbs
  have e : (1 : ℝ) + 1.5 * Real.sqrt I = 1 + 3 / 2 * Real.sqrt I := by norm_num
  rw [e, div_mul_cancel₀ _ this.ne']
  ring

theorem scale_pitzer (kk : ℕ) (cl : Option ℕ) (z un : ℕ → ℝ) (A I : ℝ) : scale 0 kk cl z un A I = .ok un := by
  unfold scale
  rw [if_pos rfl]

/-- On the NBS scale the chloride ion has the coefficient of the convention. -/
theorem scale_chloride {kk c : ℕ} {z un v : ℕ → ℝ} {A I : ℝ} (hc : c < kk) (hz : z c = -1)
    (h : scale 1 kk (some c) z un A I = .ok v) : v c = nbs A I := by
  unfold scale at h
  rw [if_neg (by norm_num)] at h
  obtain rfl := (Outcome.ok.inj h).symm
  simp only
  rw [if_pos hc, hz]
  ring

/-- Neutral combinations of ions have the same activity coefficients on both scales. -/
theorem scale_neutral {kk : ℕ} {cl : Option ℕ} {z un v : ℕ → ℝ} {A I : ℝ} {t : ℤ} (nu : ℕ → ℝ)
    (h : scale t kk cl z un A I = .ok v) (hn : ∑ k ∈ range kk, nu k * z k = 0) :
    ∑ k ∈ range kk, nu k * v k = ∑ k ∈ range kk, nu k * un k := by
  unfold scale at h
  split_ifs at h with h0
  · obtain rfl := Outcome.ok.inj h
    rfl
  · cases cl with
    | none => cases h
    | some c =>
      obtain rfl := (Outcome.ok.inj h).symm
      have : ∀ k ∈ range kk, nu k * (if k < kk then un k + z k * (-1 * (nbs A I - un c)) else un k) =
          nu k * un k + nu k * z k * (-1 * (nbs A I - un c)) := by
        intro k hk
        rw [if_pos (Finset.mem_range.1 hk)]
        ring
      rw [Finset.sum_congr rfl this, Finset.sum_add_distrib, ← Finset.sum_mul, hn, zero_mul, add_zero]

/-- Uncharged species keep their coefficients. -/
theorem scale_uncharged {kk : ℕ} {cl : Option ℕ} {z un v : ℕ → ℝ} {A I : ℝ} {t : ℤ} {k : ℕ}
    (h : scale t kk cl z un A I = .ok v) (hz : z k = 0) : v k = un k := by
  unfold scale at h
  split_ifs at h with h0
  · obtain rfl := Outcome.ok.inj h
    rfl
  · cases cl with
    | none => cases h
    | some c =>
      obtain rfl := (Outcome.ok.inj h).symm
      simp [hz]

/-- The two functions for the scale agree. -/
theorem apply_scale {kk : ℕ} {cl : Option ℕ} {z un v : ℕ → ℝ} {A I : ℝ} {t : ℤ} (h : scale t kk cl z un A I = .ok v) :
    ∃ w, apply t kk cl z un (fun k => Real.exp (un k)) A I = .ok w ∧ ∀ k, w k = Real.exp (v k) := by
  unfold scale at h
  unfold apply
  split_ifs at h ⊢ with h0
  · obtain rfl := Outcome.ok.inj h
    exact ⟨_, rfl, fun k => rfl⟩
  · cases cl with
    | none => cases h
    | some c =>
      obtain rfl := (Outcome.ok.inj h).symm
      refine ⟨_, rfl, fun k => ?_⟩
      simp only
      split_ifs
      · rw [Real.exp_add]
      · rfl

/-- Without a chloride ion the NBS scale reads outside the array. -/
theorem scale_ub (kk : ℕ) (z un : ℕ → ℝ) (A I : ℝ) : scale 1 kk none z un A I = .ub := by
  unfold scale
  rw [if_neg (by norm_num)]

/-- After a change of state the coefficients are those of the current scale. -/
theorem refresh_fresh {kk : ℕ} {cl : Option ℕ} {z un v : ℕ → ℝ} {A I : ℝ} {s : St} (hv : s.valid = false)
    (h : scale s.typ kk cl z un A I = .ok v) : refresh kk cl z un A I s = .ok ⟨s.typ, v, true⟩ := by
  unfold refresh
  rw [hv, h]
  rfl

/-- A new scale does not invalidate the cache: the scaled coefficients stay those of the old scale. -/
theorem setScale_stale (t : ℤ) {s : St} (hv : s.valid = true) (kk : ℕ) (cl : Option ℕ) (z un : ℕ → ℝ) (A I : ℝ) :
    ∃ r, refresh kk cl z un A I (setScale t s).1 = .ok r ∧ r.typ = t ∧ r.scaled = s.scaled := by
  refine ⟨(setScale t s).1, ?_, rfl, rfl⟩
  unfold refresh
  rw [show (setScale t s).1.valid = s.valid from rfl, hv]
  rfl

/-! ## The assumptions can be met -/

/-- Water, sodium and chloride ions; species 2 contains sodium too. -/
noncomputable def sample : Names where
  ne := 3
  kk := 3
  ename := fun e => if e = 0 then "Na" else if e = 1 then "Cl" else "E"
  sname := fun k => if k = 2 then "Cl-" else "x"
  atoms := fun k e => if k = 2 then 1 else if e = 0 then 1 else 0

example : findCl sample = some 2 := by
  have h1 : findElem sample "Cl" "CL" = some 1 := by
    simp [findElem, sample, List.range_succ]
  have h2 : findElem sample "E" "e" = some 2 := by
    simp [findElem, sample, List.range_succ]
  unfold findCl
  rw [h1, h2]
  simp [sample, List.range_succ]

example : (setScale 7 ⟨0, fun _ => 0, true⟩).2 = false ∧ (setScale 7 ⟨0, fun _ => 0, true⟩).1.typ = 7 :=
  setScale_keeps_bad (by norm_num) (by norm_num) _

example : ∃ r, refresh 2 (some 1) (fun _ => -1) (fun _ => 0) 1 1 (setScale 1 ⟨0, fun _ => 0, true⟩).1 = .ok r ∧ r.typ = 1 ∧
    r.scaled = fun _ => 0 := setScale_stale 1 rfl 2 (some 1) _ _ 1 1

example : ∃ v, scale 1 2 (some 1) (fun k => if k = 1 then -1 else 1) (fun _ => 0) 1 1 = .ok v ∧ v 1 = nbs 1 1 := by
  refine ⟨_, rfl, ?_⟩
  exact scale_chloride (kk := 2) (c := 1) (z := fun k => if k = 1 then -1 else 1) (un := fun _ => 0) (by norm_num) (by simp) rfl

end Verif.PhScale
