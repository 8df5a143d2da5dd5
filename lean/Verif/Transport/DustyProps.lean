import Verif.Transport.Dusty
import Mathlib.LinearAlgebra.Matrix.Gershgorin
import Mathlib.LinearAlgebra.Matrix.NonsingularInverse
import Mathlib.Algebra.Order.BigOperators.Ring.Finset
import Mathlib.Algebra.BigOperators.Field
import Mathlib.Algebra.BigOperators.Fin
import Mathlib.Tactic.Linarith
import Mathlib.Tactic.NormNum
import Mathlib.Tactic.FieldSimp
import Mathlib.Tactic.Positivity

/-!
# C72: theorems on the dusty gas model
-/

namespace Verif.Transport.Dusty

open Finset

variable {g : Gas}

/-- Temperatures are positive. -/
def Op.Ok : Op → Prop
  | .state e => 0 < e.T
  | .fluxes s1 s2 _ => 0 < s1.T ∧ 0 < s2.T
  | _ => True

/-- Knudsen diffusion coefficient: two thirds of radius, porosity over tortuosity and mean speed. -/
noncomputable def knudsen (R T M : ℝ) (m : Medium) : ℝ :=
  2 / 3 * (m.poreRadius * m.porosity / m.tortuosity) * Real.sqrt (8 * R * T / (Real.pi * M))

/-- The Knudsen coefficients belong to the stored temperature and the medium if the flag is set. -/
structure Inv (g : Gas) (s : Env × Obj) : Prop where
  T : 0 < s.1.T
  dk : s.2.knudsenOk = true → ∀ k, s.2.dk k = knudsen g.R s.2.temp (g.mw k) s.2.med

theorem updateMulti_spec {e : Env} {o : Obj} (h : Inv g (e, o)) :
    (updateMulti g e o).med = o.med ∧ (updateMulti g e o).temp = e.T ∧
    (∀ k, (updateMulti g e o).dk k = knudsen g.R e.T (g.mw k) o.med) ∧
    (∀ i j, (updateMulti g e o).d i j = g.dgas e i j * (o.med.porosity / o.med.tortuosity)) ∧
    (∀ k, (updateMulti g e o).x k = max tiny (e.X k)) ∧ Inv g (e, updateMulti g e o) := by
  have dk := h.dk
  simp only at dk
  simp only [updateMulti, updateC, updateBinary, Bool.false_eq_true, if_false, updateT]
  by_cases t : o.temp = e.T
  · rw [if_pos t]
    by_cases c : o.knudsenOk = true
    · simp only [updateKnudsen, c, if_true]
      rw [t] at dk
      exact ⟨trivial, t, dk c, by simp, by simp, h.T, fun _ k => by simp only [t]; exact dk c k⟩
    · simp only [updateKnudsen, c, Bool.false_eq_true, if_false]
      exact ⟨trivial, t, fun k => by rw [t, knudsen], by simp, by simp, h.T, fun _ k => rfl⟩
  · simp only [if_neg t, updateKnudsen, Bool.false_eq_true, if_false]
    exact ⟨trivial, trivial, fun k => rfl, by simp, by simp, h.T, fun _ k => rfl⟩

theorem step_inv (inv : (ℕ → ℕ → ℝ) → ℕ → ℕ → ℝ) {s : Env × Obj} (h : Inv g s) {op : Op} (ho : op.Ok) :
    Inv g (step g inv s op) := by
  obtain ⟨e, o⟩ := s
  cases op with
  | state e => exact ⟨ho, h.dk⟩
  | setPorosity v => exact ⟨h.T, by simp [step]⟩
  | setTortuosity v => exact ⟨h.T, by simp [step]⟩
  | setMeanPoreRadius v => exact ⟨h.T, by simp [step]⟩
  | setMeanParticleDiameter v => exact ⟨h.T, h.dk⟩
  | setPermeability v => exact ⟨h.T, h.dk⟩
  | multiDiff => exact (updateMulti_spec h).2.2.2.2.2
  | fluxes s1 s2 d =>
    have hT : 0 < (mean g s1 s2).T := by
      have := ho.1; have := ho.2
      simp only [mean]; positivity
    have h' : Inv g (mean g s1 s2, o) := ⟨hT, h.dk⟩
    exact (updateMulti_spec h').2.2.2.2.2

theorem reach (inv : (ℕ → ℕ → ℝ) → ℕ → ℕ → ℝ) {e₀ : Env} (hT : 0 < e₀.T) {h : List Op} (hk : ∀ op ∈ h, op.Ok) :
    Inv g (h.foldl (step g inv) (e₀, fresh e₀)) := by
  have i0 : Inv g (e₀, fresh e₀) := ⟨hT, by simp [fresh]⟩
  generalize (e₀, fresh e₀) = s at *
  induction h generalizing s with
  | nil => exact i0
  | cons op h ih =>
    rw [List.foldl_cons]
    exact ih (fun o ho => hk o (by simp [ho])) _ (step_inv inv i0 (hk op (by simp)))

/-- The setters. -/
theorem set_med (inv : (ℕ → ℕ → ℝ) → ℕ → ℕ → ℝ) (e : Env) (o : Obj) (v : ℝ) :
    (step g inv (e, o) (.setPorosity v)).2.med = ⟨v, o.med.tortuosity, o.med.poreRadius, o.med.diam, o.med.perm⟩ ∧
    (step g inv (e, o) (.setTortuosity v)).2.med = ⟨o.med.porosity, v, o.med.poreRadius, o.med.diam, o.med.perm⟩ ∧
    (step g inv (e, o) (.setMeanPoreRadius v)).2.med = ⟨o.med.porosity, o.med.tortuosity, v, o.med.diam, o.med.perm⟩ ∧
    (step g inv (e, o) (.setMeanParticleDiameter v)).2.med = ⟨o.med.porosity, o.med.tortuosity, o.med.poreRadius, v, o.med.perm⟩ ∧
    (step g inv (e, o) (.setPermeability v)).2.med = ⟨o.med.porosity, o.med.tortuosity, o.med.poreRadius, o.med.diam, v⟩ :=
  ⟨rfl, rfl, rfl, rfl, rfl⟩

/-- Queries do not change the medium. -/
theorem query_med (inv : (ℕ → ℕ → ℝ) → ℕ → ℕ → ℝ) {s : Env × Obj} (h : Inv g s) {op : Op} (ho : op.Ok)
    (hq : op = .multiDiff ∨ (∃ e, op = .state e) ∨ ∃ s1 s2 d, op = .fluxes s1 s2 d) : (step g inv s op).2.med = s.2.med := by
  obtain ⟨e, o⟩ := s
  rcases hq with c | ⟨e', c⟩ | ⟨s1, s2, d, c⟩
  · subst c; exact (updateMulti_spec h).1
  · subst c; rfl
  · subst c
    have hT : 0 < (mean g s1 s2).T := by
      have := ho.1; have := ho.2
      simp only [mean]; positivity
    exact (updateMulti_spec (e := mean g s1 s2) ⟨hT, h.dk⟩).1

/-- The matrix for given state and medium. -/
noncomputable def Hspec (g : Gas) (e : Env) (m : Medium) (k j : ℕ) : ℝ :=
  if j = k then 1 / knudsen g.R e.T (g.mw k) m +
    ∑ i ∈ (range g.n).erase k, max tiny (e.X i) / (g.dgas e k i * (m.porosity / m.tortuosity))
  else -(max tiny (e.X k) / (g.dgas e k j * (m.porosity / m.tortuosity)))

theorem H_eq {e : Env} {o : Obj} (h : Inv g (e, o)) {k : ℕ} (hk : k < g.n) (j : ℕ) :
    H g (updateMulti g e o) k j = Hspec g e o.med k j := by
  obtain ⟨_, _, a, b, c, _⟩ := updateMulti_spec h
  rw [H, Hspec]
  by_cases d : j = k
  · rw [if_pos d, if_pos d, a]
    congr 1
    rw [← Finset.sum_erase_add _ _ (mem_range.2 hk)]
    simp only [ne_eq, not_true_eq_false, if_false, add_zero]
    refine Finset.sum_congr rfl fun i hi => ?_
    rw [if_pos (Finset.ne_of_mem_erase hi), b, c]
  · rw [if_neg d, if_neg d, b, c, neg_div]

/-- Whatever was done before, the matrix is that of the current state and medium. -/
theorem matrix_current (inv : (ℕ → ℕ → ℝ) → ℕ → ℕ → ℝ) {e₀ : Env} (hT : 0 < e₀.T) {h : List Op} (hk : ∀ op ∈ h, op.Ok)
    {e : Env} {o : Obj} (hr : h.foldl (step g inv) (e₀, fresh e₀) = (e, o)) {k : ℕ} (hn : k < g.n) (j : ℕ) :
    H g (updateMulti g e o) k j = Hspec g e o.med k j := by
  have i := reach (g := g) inv hT hk
  rw [hr] at i
  exact H_eq i hn j

/-- Physical data. -/
structure Phys (g : Gas) (e : Env) (m : Medium) : Prop where
  T : 0 < e.T
  R : 0 < g.R
  mw : ∀ k < g.n, 0 < g.mw k
  D : ∀ i < g.n, ∀ j < g.n, 0 < g.dgas e i j
  sym : ∀ i < g.n, ∀ j < g.n, g.dgas e i j = g.dgas e j i
  eps : 0 < m.porosity
  tau : 0 < m.tortuosity
  rad : 0 < m.poreRadius

theorem knudsen_pos {e : Env} {m : Medium} (p : Phys g e m) {k : ℕ} (hk : k < g.n) : 0 < knudsen g.R e.T (g.mw k) m := by
  have := p.T; have := p.R; have := p.mw k hk; have := p.eps; have := p.tau; have := p.rad
  have := Real.pi_pos
  rw [knudsen]
  positivity

/-- Lighter species diffuse faster in pores (Knudsen): the ratio is the inverse ratio of the square roots of the weights. -/
theorem knudsen_ratio {e : Env} {m : Medium} (p : Phys g e m) {k : ℕ} (hk : k < g.n) :
    knudsen g.R e.T (g.mw k) m * Real.sqrt (g.mw k) =
      2 / 3 * (m.poreRadius * m.porosity / m.tortuosity) * Real.sqrt (8 * g.R * e.T / Real.pi) := by
  have hw := p.mw k hk
  rw [knudsen, mul_assoc]
  congr 1
  rw [← Real.sqrt_mul (by have := p.T; have := p.R; have := Real.pi_pos; positivity)]
  congr 1
  have := Real.pi_pos
  field_simp

theorem tiny_pos : 0 < tiny := by rw [tiny]; norm_num

/-- Column sums of the matrix. -/
theorem col_sum {e : Env} {m : Medium} (p : Phys g e m) {j : ℕ} (hj : j < g.n) :
    ∑ k ∈ range g.n, Hspec g e m k j = 1 / knudsen g.R e.T (g.mw j) m := by
  rw [← Finset.sum_erase_add _ _ (mem_range.2 hj), Hspec, if_pos rfl]
  have : ∑ k ∈ (range g.n).erase j, Hspec g e m k j =
      -∑ i ∈ (range g.n).erase j, max tiny (e.X i) / (g.dgas e j i * (m.porosity / m.tortuosity)) := by
    rw [← Finset.sum_neg_distrib]
    refine Finset.sum_congr rfl fun k hk => ?_
    rw [Hspec, if_neg (Finset.ne_of_mem_erase hk).symm, p.sym k (mem_range.1 (Finset.mem_of_mem_erase hk)) j hj]
  rw [this]
  ring

/-- The matrix is nonsingular, so that the inversion succeeds. -/
theorem nonsingular {e : Env} {m : Medium} (p : Phys g e m) :
    (Matrix.of fun k j : Fin g.n => Hspec g e m k j).det ≠ 0 := by
  refine det_ne_zero_of_sum_col_lt_diag fun k => ?_
  have hk := k.2
  have off : ∀ i ∈ univ.erase k, ‖Matrix.of (fun k j : Fin g.n => Hspec g e m k j) i k‖ =
      max tiny (e.X i) / (g.dgas e k i * (m.porosity / m.tortuosity)) := by
    intro i hi
    have ne : (k : ℕ) ≠ i := fun c => Finset.ne_of_mem_erase hi (Fin.ext c.symm)
    rw [Matrix.of_apply, Hspec, if_neg ne, norm_neg, Real.norm_eq_abs, p.sym i i.2 k k.2, abs_of_nonneg]
    have := p.D k k.2 i i.2; have := p.eps; have := p.tau
    have : 0 ≤ max tiny (e.X i) := le_trans tiny_pos.le (le_max_left _ _)
    positivity
  rw [Finset.sum_congr rfl off, Matrix.of_apply, Hspec, if_pos rfl]
  have conv : ∑ i ∈ univ.erase k, max tiny (e.X i) / (g.dgas e k i * (m.porosity / m.tortuosity)) =
      ∑ i ∈ (range g.n).erase (k : ℕ), max tiny (e.X i) / (g.dgas e k i * (m.porosity / m.tortuosity)) := by
    have a := Fin.sum_univ_eq_sum_range (fun i => max tiny (e.X i) / (g.dgas e k i * (m.porosity / m.tortuosity))) g.n
    rw [← Finset.sum_erase_add _ _ (mem_univ k), ← Finset.sum_erase_add _ _ (mem_range.2 hk)] at a
    linarith
  rw [conv]
  have kp := knudsen_pos p hk
  have nn : 0 ≤ ∑ i ∈ (range g.n).erase (k : ℕ), max tiny (e.X i) / (g.dgas e k i * (m.porosity / m.tortuosity)) := by
    refine Finset.sum_nonneg fun i hi => ?_
    have := p.D k k.2 i (mem_range.1 (Finset.mem_of_mem_erase hi)); have := p.eps; have := p.tau
    have : 0 ≤ max tiny (e.X i) := le_trans tiny_pos.le (le_max_left _ _)
    positivity
  have : 0 < 1 / knudsen g.R e.T (g.mw k) m := by positivity
  rw [Real.norm_eq_abs, abs_of_nonneg (by linarith)]
  linarith

/-- The oracle returns an inverse of the matrix. -/
def IsInv (g : Gas) (M P : ℕ → ℕ → ℝ) : Prop :=
  ∀ k < g.n, ∀ j < g.n, ∑ i ∈ range g.n, M k i * P i j = if k = j then 1 else 0

/-- An inverse exists. -/
theorem inverse_exists {e : Env} {m : Medium} (p : Phys g e m) : ∃ P, IsInv g (Hspec g e m) P := by
  set A := Matrix.of fun k j : Fin g.n => Hspec g e m k j with hA
  have u : IsUnit A.det := isUnit_iff_ne_zero.2 (nonsingular p)
  refine ⟨fun i j => if h : i < g.n ∧ j < g.n then A⁻¹ ⟨i, h.1⟩ ⟨j, h.2⟩ else 0, fun k hk j hj => ?_⟩
  have q := congrFun (congrFun (A.mul_nonsing_inv u) ⟨k, hk⟩) ⟨j, hj⟩
  rw [Matrix.mul_apply, Matrix.one_apply] at q
  rw [← Fin.sum_univ_eq_sum_range
    (fun i => Hspec g e m k i * if h : i < g.n ∧ j < g.n then A⁻¹ ⟨i, h.1⟩ ⟨j, h.2⟩ else 0) g.n]
  have : ∀ i : Fin g.n, Hspec g e m k i * (if h : (i : ℕ) < g.n ∧ j < g.n then A⁻¹ ⟨i, h.1⟩ ⟨j, h.2⟩ else 0) =
      A ⟨k, hk⟩ i * A⁻¹ i ⟨j, hj⟩ := by
    intro i
    rw [dif_pos ⟨i.2, hj⟩, hA, Matrix.of_apply]
  rw [Finset.sum_congr rfl fun i _ => this i, q]
  simp

/-- Product of the matrix with a vector of fluxes. -/
theorem row_eq (e : Env) (m : Medium) (N : ℕ → ℝ) {k : ℕ} (hk : k < g.n) : ∑ j ∈ range g.n, Hspec g e m k j * N j =
    (∑ j ∈ (range g.n).erase k, (max tiny (e.X j) * N k - max tiny (e.X k) * N j) / (g.dgas e k j * (m.porosity / m.tortuosity))) +
      N k / knudsen g.R e.T (g.mw k) m := by
  rw [← Finset.sum_erase_add _ _ (mem_range.2 hk), Hspec, if_pos rfl, add_mul, Finset.sum_mul]
  have : ∀ j ∈ (range g.n).erase k, Hspec g e m k j * N j =
      -(max tiny (e.X k) / (g.dgas e k j * (m.porosity / m.tortuosity))) * N j := fun j hj => by
    rw [Hspec, if_neg (Finset.ne_of_mem_erase hj)]
  rw [Finset.sum_congr rfl this]
  have s : ∀ j ∈ (range g.n).erase k,
      (max tiny (e.X j) * N k - max tiny (e.X k) * N j) / (g.dgas e k j * (m.porosity / m.tortuosity)) =
      max tiny (e.X j) / (g.dgas e k j * (m.porosity / m.tortuosity)) * N k +
        -(max tiny (e.X k) / (g.dgas e k j * (m.porosity / m.tortuosity))) * N j := fun j _ => by ring
  rw [Finset.sum_congr rfl s, Finset.sum_add_distrib]
  ring

/-- Product of the matrix with the computed fluxes. -/
theorem fluxes_mul {inv : (ℕ → ℕ → ℝ) → ℕ → ℕ → ℝ} {s1 s2 : Point} {delta : ℝ} {e : Env} {o : Obj} (h : Inv g (e, o))
    (t1 : 0 < s1.T) (t2 : 0 < s2.T)
    (hi : IsInv g (H g (updateMulti g (mean g s1 s2) o)) (inv (H g (updateMulti g (mean g s1 s2) o)))) {k : ℕ} (hk : k < g.n) :
    ∑ j ∈ range g.n, Hspec g (mean g s1 s2) o.med k j * (fluxes g inv s1 s2 delta o).2.2 j =
      -((conc g s2 k - conc g s1 k) / delta) - (conc g s1 k + conc g s2 k) / 2 / knudsen g.R ((s1.T + s2.T) / 2) (g.mw k) o.med *
        (permeability o.med / g.visc (mean g s1 s2)) * ((press g s2 - press g s1) / delta) := by
  have hT : 0 < (mean g s1 s2).T := by simp only [mean]; positivity
  have h' : Inv g (mean g s1 s2, o) := ⟨hT, h.dk⟩
  have tm : (mean g s1 s2).T = (s1.T + s2.T) / 2 := by simp only [mean]; ring
  obtain ⟨md, _, dk, _⟩ := updateMulti_spec h'
  have eqH : ∀ j, Hspec g (mean g s1 s2) o.med k j = H g (updateMulti g (mean g s1 s2) o) k j := fun j => (H_eq h' hk j).symm
  set M := H g (updateMulti g (mean g s1 s2) o) with hM
  set P := inv M with hP
  have app : ∀ v : ℕ → ℝ, ∑ j ∈ range g.n, M k j * ∑ i ∈ range g.n, P j i * v i = v k := by
    intro v
    have : ∀ j ∈ range g.n, M k j * ∑ i ∈ range g.n, P j i * v i = ∑ i ∈ range g.n, M k j * P j i * v i := fun j _ => by
      rw [Finset.mul_sum]; exact Finset.sum_congr rfl fun i _ => by ring
    rw [Finset.sum_congr rfl this, Finset.sum_comm]
    have t : ∀ i ∈ range g.n, ∑ j ∈ range g.n, M k j * P j i * v i = if k = i then v i else 0 := fun i hi' => by
      rw [← Finset.sum_mul, hi k hk i (mem_range.1 hi')]; split_ifs <;> ring
    rw [Finset.sum_congr rfl t, Finset.sum_ite_eq, if_pos (mem_range.2 hk)]
  have f : ∀ j ∈ range g.n, Hspec g (mean g s1 s2) o.med k j * (fluxes g inv s1 s2 delta o).2.2 j =
      -(M k j * ∑ i ∈ range g.n, P j i * ((conc g s2 i - conc g s1 i) / delta)) -
      M k j * ∑ i ∈ range g.n, P j i * (permeability o.med * ((press g s2 - press g s1) / delta / g.visc (mean g s1 s2)) *
        (0.5 * (conc g s1 i + conc g s2 i) / knudsen g.R ((s1.T + s2.T) / 2) (g.mw i) o.med)) := by
    intro j _
    rw [eqH]
    simp only [fluxes, ← hM, ← hP, md, dk, tm]
    ring
  rw [Finset.sum_congr rfl f, Finset.sum_sub_distrib, Finset.sum_neg_distrib, app, app]
  ring

/-- The dusty gas equations: momentum exchange between species and with the medium balances diffusion and viscous flow. -/
theorem dusty_gas {inv : (ℕ → ℕ → ℝ) → ℕ → ℕ → ℝ} {s1 s2 : Point} {delta : ℝ} {e : Env} {o : Obj} (h : Inv g (e, o))
    (t1 : 0 < s1.T) (t2 : 0 < s2.T)
    (hi : IsInv g (H g (updateMulti g (mean g s1 s2) o)) (inv (H g (updateMulti g (mean g s1 s2) o)))) {k : ℕ} (hk : k < g.n) :
    let N := (fluxes g inv s1 s2 delta o).2.2
    let x := fun j => max tiny ((mean g s1 s2).X j)
    let dK := knudsen g.R ((s1.T + s2.T) / 2) (g.mw k) o.med
    (∑ j ∈ (range g.n).erase k, (x j * N k - x k * N j) /
      (g.dgas (mean g s1 s2) k j * (o.med.porosity / o.med.tortuosity))) + N k / dK =
      -((conc g s2 k - conc g s1 k) / delta) - (conc g s1 k + conc g s2 k) / 2 / dK *
        (permeability o.med / g.visc (mean g s1 s2)) * ((press g s2 - press g s1) / delta) := by
  intro N x dK
  have a := fluxes_mul (delta := delta) h t1 t2 hi hk
  rw [row_eq _ _ _ hk] at a
  have tm : (mean g s1 s2).T = (s1.T + s2.T) / 2 := by simp only [mean]; ring
  rw [tm] at a
  exact a

/-- Graham's law: at uniform temperature and pressure the fluxes weighted by the square roots of the molecular weights sum to
zero. -/
theorem graham {inv : (ℕ → ℕ → ℝ) → ℕ → ℕ → ℝ} {s1 s2 : Point} {delta : ℝ} {e : Env} {o : Obj} (h : Inv g (e, o))
    (t1 : 0 < s1.T) (p : Phys g (mean g s1 s2) o.med)
    (hi : IsInv g (H g (updateMulti g (mean g s1 s2) o)) (inv (H g (updateMulti g (mean g s1 s2) o))))
    (hT : s1.T = s2.T) (hp : press g s1 = press g s2) :
    ∑ k ∈ range g.n, (fluxes g inv s1 s2 delta o).2.2 k * Real.sqrt (g.mw k) = 0 := by
  have t2 : 0 < s2.T := by rw [← hT]; exact t1
  set N := (fluxes g inv s1 s2 delta o).2.2 with hN
  have rows : ∀ k ∈ range g.n, ∑ j ∈ range g.n, Hspec g (mean g s1 s2) o.med k j * N j =
      -((conc g s2 k - conc g s1 k) / delta) := by
    intro k hk
    rw [hN, fluxes_mul h t1 t2 hi (mem_range.1 hk), hp]
    ring
  have cs : ∑ k ∈ range g.n, conc g s1 k = ∑ k ∈ range g.n, conc g s2 k := by
    rw [press, press, ← hT] at hp
    have : g.R * s1.T ≠ 0 := (mul_pos p.R t1).ne'
    rw [mul_assoc, mul_assoc] at hp
    exact mul_right_cancel₀ this hp
  have total : ∑ k ∈ range g.n, ∑ j ∈ range g.n, Hspec g (mean g s1 s2) o.med k j * N j = 0 := by
    rw [Finset.sum_congr rfl rows, Finset.sum_neg_distrib, ← Finset.sum_div, Finset.sum_sub_distrib, cs]
    simp
  rw [Finset.sum_comm] at total
  have col : ∀ j ∈ range g.n, ∑ k ∈ range g.n, Hspec g (mean g s1 s2) o.med k j * N j =
      N j * Real.sqrt (g.mw j) / (2 / 3 * (o.med.poreRadius * o.med.porosity / o.med.tortuosity) *
        Real.sqrt (8 * g.R * (mean g s1 s2).T / Real.pi)) := by
    intro j hj
    rw [← Finset.sum_mul, col_sum p (mem_range.1 hj), ← knudsen_ratio p (mem_range.1 hj)]
    have kp := knudsen_pos p (mem_range.1 hj)
    have sp : 0 < Real.sqrt (g.mw j) := Real.sqrt_pos.2 (p.mw j (mem_range.1 hj))
    field_simp
  rw [Finset.sum_congr rfl col, ← Finset.sum_div] at total
  have c : 0 < 2 / 3 * (o.med.poreRadius * o.med.porosity / o.med.tortuosity) *
      Real.sqrt (8 * g.R * (mean g s1 s2).T / Real.pi) := by
    have := p.T; have := p.R; have := p.eps; have := p.tau; have := p.rad; have := Real.pi_pos
    positivity
  rcases div_eq_zero_iff.1 total with q | q
  · exact q
  · exact absurd q c.ne'

/-- One species: Knudsen diffusion and Darcy flow. -/
theorem single {inv : (ℕ → ℕ → ℝ) → ℕ → ℕ → ℝ} {s1 s2 : Point} {delta : ℝ} {e : Env} {o : Obj} (h : Inv g (e, o))
    (t1 : 0 < s1.T) (t2 : 0 < s2.T) (p : Phys g (mean g s1 s2) o.med) (hn : g.n = 1)
    (hi : IsInv g (H g (updateMulti g (mean g s1 s2) o)) (inv (H g (updateMulti g (mean g s1 s2) o)))) :
    (fluxes g inv s1 s2 delta o).2.2 0 =
      -(knudsen g.R ((s1.T + s2.T) / 2) (g.mw 0) o.med * ((conc g s2 0 - conc g s1 0) / delta)) -
        (conc g s1 0 + conc g s2 0) / 2 * (permeability o.med / g.visc (mean g s1 s2)) * ((press g s2 - press g s1) / delta) := by
  have a := dusty_gas (delta := delta) h t1 t2 hi (k := 0) (by omega)
  have tm : (mean g s1 s2).T = (s1.T + s2.T) / 2 := by simp only [mean]; ring
  have kp := knudsen_pos p (k := 0) (by omega)
  rw [tm] at kp
  have er : (range g.n).erase 0 = ∅ := by rw [hn]; rfl
  simp only [er, Finset.sum_empty, zero_add] at a
  generalize knudsen g.R ((s1.T + s2.T) / 2) (g.mw 0) o.med = dK at *
  rw [div_eq_iff kp.ne'] at a
  rw [a]
  field_simp

theorem mean_comm (s1 s2 : Point) : mean g s1 s2 = mean g s2 s1 := by
  simp only [mean, add_comm (press g s1), add_comm s1.T]
  congr 1
  funext k
  rw [add_comm (conc g s1 k)]
  congr 1
  exact Finset.sum_congr rfl fun k _ => by rw [add_comm (conc g s1 k)]

/-- Exchanging the points reverses the fluxes. -/
theorem fluxes_swap (inv : (ℕ → ℕ → ℝ) → ℕ → ℕ → ℝ) (s1 s2 : Point) (delta : ℝ) (o : Obj) (k : ℕ) :
    (fluxes g inv s2 s1 delta o).2.2 k = -(fluxes g inv s1 s2 delta o).2.2 k := by
  simp only [fluxes]
  rw [mean_comm s2 s1]
  rw [← mul_neg, neg_add, ← Finset.sum_neg_distrib, ← Finset.sum_neg_distrib]
  congr 2
  · exact Finset.sum_congr rfl fun j _ => by ring
  · refine Finset.sum_congr rfl fun j _ => ?_
    rw [add_comm (conc g s2 j)]
    ring

/-- No fluxes between equal points. -/
theorem fluxes_uniform (inv : (ℕ → ℕ → ℝ) → ℕ → ℕ → ℝ) (s : Point) (delta : ℝ) (o : Obj) (k : ℕ) :
    (fluxes g inv s s delta o).2.2 k = 0 := by
  have := fluxes_swap (g := g) inv s s delta o k
  linarith

/-- The phase is left at the mean state. -/
theorem fluxes_state (inv : (ℕ → ℕ → ℝ) → ℕ → ℕ → ℝ) (s1 s2 : Point) (delta : ℝ) (o : Obj) :
    (fluxes g inv s1 s2 delta o).1.T = (s1.T + s2.T) / 2 ∧
    (fluxes g inv s1 s2 delta o).1.p = ((∑ k ∈ range g.n, s1.rho * s1.Y k / g.mw k) * g.R * s1.T +
      (∑ k ∈ range g.n, s2.rho * s2.Y k / g.mw k) * g.R * s2.T) / 2 ∧
    ∀ k, (fluxes g inv s1 s2 delta o).1.X k = (s1.rho * s1.Y k / g.mw k + s2.rho * s2.Y k / g.mw k) /
      ∑ j ∈ range g.n, (s1.rho * s1.Y j / g.mw j + s2.rho * s2.Y j / g.mw j) := by
  refine ⟨by simp only [fluxes, mean]; ring, by simp only [fluxes, mean, press, conc]; ring, fun k => ?_⟩
  simp only [fluxes, mean, conc]
  rw [← Finset.mul_sum, mul_div_mul_left _ _ (by norm_num)]

/-- Permeability: as given, or that of packed spheres. -/
theorem permeability_given (m : Medium) (h : 0 ≤ m.perm) : permeability m = m.perm := by
  rw [permeability, if_neg (not_lt.2 h)]

theorem permeability_default (m : Medium) (h : m.perm < 0) :
    permeability m = m.porosity ^ 3 * m.diam ^ 2 / (72 * m.tortuosity * (1 - m.porosity) ^ 2) := by
  rw [permeability, if_pos h]
  congr 1 <;> ring

/-- The multicomponent coefficients are an inverse of the matrix of the current state, whatever was done before. -/
theorem multiDiff_current (inv : (ℕ → ℕ → ℝ) → ℕ → ℕ → ℝ) {e₀ : Env} (hT : 0 < e₀.T) {h : List Op} (hk : ∀ op ∈ h, op.Ok)
    {e : Env} {o : Obj} (hr : h.foldl (step g inv) (e₀, fresh e₀) = (e, o))
    (hi : IsInv g (H g (updateMulti g e o)) (inv (H g (updateMulti g e o)))) :
    IsInv g (Hspec g e o.med) (multiDiff g inv e o).2 := by
  intro k hk' j hj
  rw [← hi k hk' j hj]
  refine Finset.sum_congr rfl fun i _ => ?_
  rw [matrix_current inv hT hk hr hk' i]
  rfl

/-- A gas of two species. -/
noncomputable def demo : Gas where
  n := 2
  mw := fun k => if k = 0 then 2 else 32
  R := 8314
  dgas := fun _ _ _ => 1
  visc := fun _ => 1

/-- The assumptions can be met. -/
example : Phys demo ⟨300, 1, fun _ => 1 / 2⟩ ⟨1 / 2, 2, 1, 1, -1⟩ := by
  refine ⟨by norm_num, by norm_num [demo], ?_, ?_, ?_, by norm_num, by norm_num, by norm_num⟩
  · intro k _; simp only [demo]; split_ifs <;> norm_num
  · intro i _ j _; norm_num [demo]
  · intro i _ j _; rfl

/-- Points of equal temperature and pressure and different composition. -/
example : press demo ⟨300, 2, fun k => if k = 0 then 1 else 0⟩ = press demo ⟨300, 32, fun k => if k = 0 then 0 else 1⟩ := by
  norm_num [press, conc, demo, Finset.sum_range_succ]

end Verif.Transport.Dusty
