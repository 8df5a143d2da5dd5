import Verif.ZeroD.Pfr
import Mathlib.Analysis.Calculus.MeanValue
import Mathlib.Tactic.Linarith
import Mathlib.Tactic.IntervalCases
import Mathlib.Tactic.FieldSimp
import Mathlib.Tactic.Ring
import Mathlib.Tactic.NormNum

/-!
# Properties of the plug flow reactor
-/

namespace Verif.Pfr

open Verif Finset

theorem Rg_value : Rg = 8314.46261815324 := rfl
theorem Rg_pos : 0 < Rg := by rw [Rg_value]; norm_num

/-! ## Geometry and flow rate -/

/-- A given ratio is used; otherwise it is that of a cylinder: perimeter over cross section. -/
theorem ratio_cylinder (r : R) (rad : ℝ) (hr : 0 < rad) (h : r.area = Real.pi * rad ^ 2) :
    (0 < r.saToVol → ratio r = r.saToVol) ∧
    (¬ 0 < r.saToVol → ratio r = 2 * Real.pi * rad / r.area) := by
  refine ⟨fun hs => by simp [ratio, hs], fun hs => ?_⟩
  have hpi := Real.pi_pos
  rw [ratio, if_neg hs, h]
  have : Real.pi * rad ^ 2 / Real.pi = rad ^ 2 := by field_simp
  rw [this, Real.sqrt_sq hr.le]
  field_simp

/-- After `setMassFlowRate` density times speed times area is the flow rate. -/
theorem setFlow_spec (r : R) (d m : ℝ) (hd : d ≠ 0) (ha : r.area ≠ 0) :
    (setFlow r d m).rho = d ∧ (setFlow r d m).rho * (setFlow r d m).u * (setFlow r d m).area = m := by
  refine ⟨rfl, ?_⟩
  simp only [setFlow]; field_simp

/-- A change of area keeps the flow rate computed from the stored density and speed. -/
theorem setArea_keeps (r : R) (d a : ℝ) (hd : d ≠ 0) (ha : a ≠ 0) :
    (setArea r d a).area = a ∧ (setArea r d a).rho * (setArea r d a).u * (setArea r d a).area = r.rho * r.u * r.area := by
  refine ⟨rfl, ?_⟩
  simp only [setArea, setFlow]; field_simp

/-- Changing the gas after setting the flow rate keeps the speed, not the flow rate: the flow rate scales with
the density. -/
theorem sync_changes_flow (g : Gas) (r : R) (T P : ℝ) (Y : ℕ → ℝ) :
    (sync g r T P Y).u = r.u ∧ (sync g r T P Y).rho = P * (∑ i ∈ range g.nsp, Y i / g.mw i)⁻¹ / (Rg * T) ∧
    ((sync g r T P Y).T = T ∧ (sync g r T P Y).P = P ∧ (sync g r T P Y).Y = Y) :=
  ⟨rfl, rfl, rfl, rfl, rfl⟩

example : ∃ (r : R), 0 < r.area ∧ ¬ 0 < r.saToVol :=
  ⟨⟨1, 1, 1, 1, fun _ => 1, 1, -1, true, true, fun _ => 0, []⟩, by norm_num, by norm_num⟩

/-! ## State vector -/

theorem covVec_cons_ge (S : Surf) (l : List Surf) (j : ℕ) : covVec (S :: l) (S.nk + j) = covVec l j := by
  simp [covVec]

theorem setCovs_same (l : List Surf) (y : ℕ → ℝ) (h : ∀ j < (l.map (·.nk)).sum, y j = covVec l j) :
    List.Forall₂ (fun S S' : Surf => S'.nk = S.nk ∧ S'.area = S.area ∧ S'.kin = S.kin ∧ S'.site = S.site ∧
      S'.size = S.size ∧ S'.bulk = S.bulk ∧ ∀ k < S.nk, S'.cov k = S.cov k) l (setCovs l y) := by
  induction l generalizing y with
  | nil => exact .nil
  | cons S l ih =>
    refine .cons ⟨rfl, rfl, rfl, rfl, rfl, rfl, fun k hk => ?_⟩ (ih _ fun j hj => ?_)
    · have := h k (by simp only [List.map_cons, List.sum_cons]; omega)
      simp only [covVec, hk, if_true] at this
      exact this
    · have := h (S.nk + j) (by simp only [List.map_cons, List.sum_cons]; omega)
      rw [covVec_cons_ge] at this
      exact this

/-- Reading back the initial vector gives the reactor again; the coverages are those of the stationary
surfaces. -/
theorem state_roundtrip (g : Gas) (adv : Surf → ℕ → ℝ) (r : R) (h : 0 ≤ r.u) :
    ∃ r' y, getState g adv r = (r', some y) ∧ r'.surfs = r.surfs.map (fun S => { S with cov := adv S }) ∧
      (update g r' y).rho = r.rho ∧ (update g r' y).u = r.u ∧ (update g r' y).P = r.P ∧
      (update g r' y).T = r.T ∧ (∀ i < g.nsp, (update g r' y).Y i = r.Y i) ∧
      List.Forall₂ (fun S S' : Surf => S'.nk = S.nk ∧ S'.area = S.area ∧ S'.kin = S.kin ∧ S'.site = S.site ∧
        S'.size = S.size ∧ S'.bulk = S.bulk ∧ ∀ k < S.nk, S'.cov k = S.cov k) r'.surfs (update g r' y).surfs := by
  refine ⟨_, _, by rw [getState, if_neg (not_lt.2 h)], rfl, rfl, rfl, rfl, rfl, fun i hi => ?_, ?_⟩
  · simp only [update, stateVec]
    rw [if_neg (by omega), if_neg (by omega), if_neg (by omega), if_neg (by omega), if_pos (by omega)]
    congr 1; omega
  · refine setCovs_same _ _ fun j _ => ?_
    simp only [stateVec]
    rw [if_neg (by omega), if_neg (by omega), if_neg (by omega), if_neg (by omega), if_neg (by omega)]
    congr 1; omega

/-- Without a flow rate (speed -1) the initial state is refused. -/
theorem no_flow_refused (g : Gas) (adv : Surf → ℕ → ℝ) (r : R) (h : r.u < 0) :
    getState g adv r = (r, none) := by rw [getState, if_pos h]

/-- The initial vector entry by entry. -/
theorem stateVec_entries (g : Gas) (r : R) :
    stateVec g r 0 = r.rho ∧ stateVec g r 1 = r.u ∧ stateVec g r 2 = r.P ∧ stateVec g r 3 = r.T ∧
    (∀ i < g.nsp, stateVec g r (4 + i) = r.Y i) := by
  refine ⟨rfl, rfl, rfl, rfl, fun i hi => ?_⟩
  simp only [stateVec]
  rw [if_neg (by omega), if_neg (by omega), if_neg (by omega), if_neg (by omega), if_pos (by omega)]
  congr 1; omega

/-! ## Initial derivatives -/

theorem row_sum (n : ℕ) (f : ℕ → ℝ) :
    ∑ j ∈ range (4 + n), f j = f 0 + f 1 + f 2 + f 3 + ∑ i ∈ range n, f (4 + i) := by
  rw [Finset.sum_range_add]
  simp [Finset.sum_range_succ]

/-- The equations solved for the initial derivatives: continuity, momentum, energy, species. -/
theorem initial_equations (g : Gas) (r : R) (w s X : ℕ → ℝ) (h : Solves g r w s X) :
    r.u * X 0 + r.rho * X 1 = ratio r * ∑ i ∈ range g.nsp, s i * g.mw i ∧
    r.rho * r.u * X 1 + X 2 = -r.u * (ratio r * ∑ i ∈ range g.nsp, s i * g.mw i) ∧
    (r.energy = true → r.rho * r.u * (∑ i ∈ range g.nsp, r.Y i / g.mw i * g.cp i r.T) * X 3 =
      -∑ i ∈ range g.nsp, g.h i r.T * (w i + ratio r * s i)) ∧
    (r.energy = false → r.rho * r.u * (∑ i ∈ range g.nsp, r.Y i / g.mw i * g.cp i r.T) * X 3 = 0) ∧
    ∀ i < g.nsp, r.rho * r.u * X (4 + i) = -r.Y i * (ratio r * ∑ i ∈ range g.nsp, s i * g.mw i) +
      g.mw i * (w i + ratio r * s i) := by
  have hq : hskwk g r s = ratio r * ∑ i ∈ range g.nsp, s i * g.mw i := by
    rw [hskwk, mul_sum]; exact sum_congr rfl fun _ _ => by ring
  have z : ∀ i j, 1 ≤ i → i ≤ 3 → A g r i (4 + j) = 0 := fun i j h1 h2 => by
    simp only [A]
    have e1 : ¬ 4 + j = 1 := by omega
    have e2 : ¬ 4 + j = 2 := by omega
    have e3 : ¬ 4 + j = 3 := by omega
    interval_cases i <;> simp [e1, e2, e3]
  have hrow : ∀ i, 1 ≤ i → i ≤ 3 → A g r i 0 * X 0 + A g r i 1 * X 1 + A g r i 2 * X 2 + A g r i 3 * X 3 =
      B g r w s i := fun i h1 h2 => by
    rw [← h i (by omega), row_sum]
    rw [Finset.sum_eq_zero fun j _ => by rw [z i j h1 h2, zero_mul]]
    ring
  refine ⟨?_, ?_, fun he => ?_, fun he => ?_, fun i hi => ?_⟩
  · have := hrow 1 (by norm_num) (by norm_num)
    simp [A, B] at this
    rw [← hq]; linarith
  · have := hrow 2 (by norm_num) (by norm_num)
    simp [A, B] at this
    rw [← hq]; linarith
  · have := hrow 3 (by norm_num) (by norm_num)
    simp only [A, B, he, Gas.cpMass] at this
    norm_num at this
    linarith
  · have := hrow 3 (by norm_num) (by norm_num)
    simp only [A, B, he, Gas.cpMass] at this
    norm_num at this
    rcases this with ((h1 | h1) | h1) | h1 <;> rw [h1] <;> ring
  · have := h (4 + i) (by omega)
    have e0 : ∀ j, A g r (4 + i) j = if j = 4 + i then r.rho * r.u else 0 := fun j => by
      simp only [A]
      rw [if_neg (by omega), if_neg (by omega), if_neg (by omega), if_neg (by omega)]
    have eB : B g r w s (4 + i) = -r.Y i * hskwk g r s + g.mw i * (w i + ratio r * s i) := by
      simp only [B]
      rw [if_neg (by omega), if_neg (by omega), if_neg (by omega), if_neg (by omega)]
      rw [show 4 + i - 4 = i from by omega]
    rw [eB] at this
    rw [← hq, ← this, Finset.sum_eq_single (4 + i)]
    · rw [e0, if_pos rfl]
    · intro j _ hj; rw [e0, if_neg hj, zero_mul]
    · intro hj; exact absurd (Finset.mem_range.2 (by omega)) hj

/-- The first equation.  The composition term lacks the gas constant. -/
theorem initial_gas_law (g : Gas) (r : R) (w s X : ℕ → ℝ) (h : Solves g r w s X) :
    X 2 = Rg * r.T * (∑ i ∈ range g.nsp, r.Y i / g.mw i) * X 0 +
      r.rho * Rg * (∑ i ∈ range g.nsp, r.Y i / g.mw i) * X 3 +
      r.rho * r.T * ∑ i ∈ range g.nsp, X (4 + i) / g.mw i := by
  have := h 0 (by omega)
  rw [row_sum] at this
  have e : ∑ i ∈ range g.nsp, A g r 0 (4 + i) * X (4 + i) =
      -(r.rho * r.T * ∑ i ∈ range g.nsp, X (4 + i) / g.mw i) := by
    rw [mul_sum, ← sum_neg_distrib]
    refine sum_congr rfl fun i hi => ?_
    have hi := Finset.mem_range.1 hi
    simp only [A]
    rw [if_pos trivial, if_neg (by omega), if_neg (by omega), if_neg (by omega), if_pos (by omega),
      show 4 + i - 4 = i from by omega]
    ring
  rw [e] at this
  simp [A, B, Gas.mmw] at this
  linarith

/-- The true derivative of the gas law `P = rho R T sum Y/W` along the initial derivative holds exactly when the
composition term vanishes. -/
theorem initial_gas_law_iff (g : Gas) (r : R) (w s X : ℕ → ℝ) (h : Solves g r w s X)
    (hr : r.rho ≠ 0) (hT : r.T ≠ 0) :
    X 2 = Rg * r.T * (∑ i ∈ range g.nsp, r.Y i / g.mw i) * X 0 +
      r.rho * Rg * (∑ i ∈ range g.nsp, r.Y i / g.mw i) * X 3 +
      r.rho * Rg * r.T * ∑ i ∈ range g.nsp, X (4 + i) / g.mw i ↔
    ∑ i ∈ range g.nsp, X (4 + i) / g.mw i = 0 := by
  rw [initial_gas_law g r w s X h]
  have hR : Rg - 1 ≠ 0 := by rw [Rg_value]; norm_num
  constructor
  · intro hh
    have : (Rg - 1) * (r.rho * r.T) * ∑ i ∈ range g.nsp, X (4 + i) / g.mw i = 0 := by linarith
    rcases mul_eq_zero.1 this with h1 | h1
    · exact absurd h1 (mul_ne_zero hR (mul_ne_zero hr hT))
    · exact h1
  · intro hh; rw [hh]; ring

/-- Mass fractions keep their sum along the initial derivative when the gas reactions conserve mass. -/
theorem initial_sum (g : Gas) (r : R) (w s X : ℕ → ℝ) (h : Solves g r w s X)
    (hY : ∑ i ∈ range g.nsp, r.Y i = 1) (hw : ∑ i ∈ range g.nsp, g.mw i * w i = 0)
    (hru : r.rho * r.u ≠ 0) : ∑ i ∈ range g.nsp, X (4 + i) = 0 := by
  have h5 := (initial_equations g r w s X h).2.2.2.2
  have : r.rho * r.u * ∑ i ∈ range g.nsp, X (4 + i) = 0 := by
    rw [mul_sum, sum_congr rfl fun i hi => h5 i (Finset.mem_range.1 hi)]
    rw [sum_add_distrib, ← sum_mul, sum_neg_distrib, hY]
    have : ∑ i ∈ range g.nsp, g.mw i * (w i + ratio r * s i) =
        ∑ i ∈ range g.nsp, g.mw i * w i + ratio r * ∑ i ∈ range g.nsp, s i * g.mw i := by
      rw [mul_sum, ← sum_add_distrib]; exact sum_congr rfl fun _ _ => by ring
    rw [this, hw]; ring
  rcases mul_eq_zero.1 this with h1 | h1
  · exact absurd h1 hru
  · exact h1

/-- The system determines the derivatives when the flow moves, has a heat capacity, and its speed is not the
isothermal speed of sound. -/
theorem initial_unique (g : Gas) (r : R) (w s X Z : ℕ → ℝ) (hX : Solves g r w s X) (hZ : Solves g r w s Z)
    (hr : r.rho ≠ 0) (hu : r.u ≠ 0) (hcp : ∑ i ∈ range g.nsp, r.Y i / g.mw i * g.cp i r.T ≠ 0)
    (hs : r.u ^ 2 ≠ Rg * r.T * ∑ i ∈ range g.nsp, r.Y i / g.mw i) : ∀ j < 4 + g.nsp, X j = Z j := by
  obtain ⟨x1, x2, x3, x4, x5⟩ := initial_equations g r w s X hX
  obtain ⟨z1, z2, z3, z4, z5⟩ := initial_equations g r w s Z hZ
  have x0 := initial_gas_law g r w s X hX
  have z0 := initial_gas_law g r w s Z hZ
  have hru := mul_ne_zero hr hu
  have eY : ∀ i < g.nsp, X (4 + i) = Z (4 + i) := fun i hi =>
    mul_left_cancel₀ hru ((x5 i hi).trans (z5 i hi).symm)
  have eT : X 3 = Z 3 := by
    apply mul_left_cancel₀ (mul_ne_zero hru hcp)
    cases he : r.energy
    · rw [x4 he, z4 he]
    · rw [x3 he, z3 he]
  have eS : ∑ i ∈ range g.nsp, X (4 + i) / g.mw i = ∑ i ∈ range g.nsp, Z (4 + i) / g.mw i :=
    sum_congr rfl fun i hi => by rw [eY i (Finset.mem_range.1 hi)]
  rw [eS, eT] at x0
  have e0 : X 0 = Z 0 := by
    have k : (r.u ^ 2 - Rg * r.T * ∑ i ∈ range g.nsp, r.Y i / g.mw i) * (X 0 - Z 0) = 0 := by
      have m1 : r.u * (X 0 - Z 0) + r.rho * (X 1 - Z 1) = 0 := by linarith
      have m2 : r.rho * r.u * (X 1 - Z 1) + (X 2 - Z 2) = 0 := by linarith
      have m3 : X 2 - Z 2 = Rg * r.T * (∑ i ∈ range g.nsp, r.Y i / g.mw i) * (X 0 - Z 0) := by linarith
      linear_combination r.u * m1 - m2 + m3
    rcases mul_eq_zero.1 k with h1 | h1
    · exact absurd (sub_eq_zero.1 h1) hs
    · linarith
  have e1 : X 1 = Z 1 := by
    apply mul_left_cancel₀ hr
    have m1 : r.u * X 0 = r.u * Z 0 := by rw [e0]
    linarith
  have e2 : X 2 = Z 2 := by
    have m1 : r.rho * r.u * X 1 = r.rho * r.u * Z 1 := by rw [e1]
    linarith
  intro j hj
  rcases Nat.lt_or_ge j 4 with h4 | h4
  · interval_cases j
    · exact e0
    · exact e1
    · exact e2
    · exact eT
  · obtain ⟨i, rfl⟩ := Nat.exists_eq_add_of_le h4
    exact eY i (by omega)

end Verif.Pfr
