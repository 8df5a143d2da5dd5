import Verif.ZeroD.PfrProps
import Mathlib.Analysis.Calculus.Deriv.Mul
import Mathlib.Analysis.Calculus.Deriv.Comp

/-!
# Residual of the plug flow reactor, conservation along its solutions
-/

namespace Verif.Pfr

open Verif Finset

/-! ## Surfaces -/

theorem surfRhs_lt (K : Rates) (l : List Surf) (loc : ℕ) (v : ℕ → ℝ) (j : ℕ) (h : j < loc) :
    surfRhs K l loc v j = v j := by
  induction l generalizing loc v with
  | nil => rfl
  | cons S l ih =>
    rw [surfRhs, ih _ _ (by omega)]
    rw [if_neg (by omega), if_neg (by omega)]

theorem surfRhs_append (K : Rates) (l1 l2 : List Surf) (loc : ℕ) (v : ℕ → ℝ) :
    ∃ v', surfRhs K (l1 ++ l2) loc v = surfRhs K l2 (loc + (l1.map (·.nk)).sum) v' := by
  induction l1 generalizing loc v with
  | nil => exact ⟨v, by simp⟩
  | cons S l ih =>
    obtain ⟨v', hv⟩ := ih (loc + S.nk) fun j =>
      if j = loc then 0 - ∑ k ∈ Finset.Ico 1 S.nk, K S.kin S.cov k * (1 / S.site) * S.size k
      else if loc < j ∧ j < loc + S.nk then K S.kin S.cov (j - loc) * (1 / S.site) * S.size (j - loc)
      else v j
    refine ⟨v', ?_⟩
    rw [List.cons_append, surfRhs, hv, List.map_cons, List.sum_cons, add_assoc]

/-- Rate of change of the coverages: production over site density times sites; the changes of one surface add up
to zero. -/
theorem surface_rates (K : Rates) (l1 l2 : List Surf) (S : Surf) (v : ℕ → ℝ) :
    (∀ k, 1 ≤ k → k < S.nk → surfRhs K (l1 ++ S :: l2) 0 v ((l1.map (·.nk)).sum + k) =
      K S.kin S.cov k * S.size k / S.site) ∧
    ∑ k ∈ range S.nk, surfRhs K (l1 ++ S :: l2) 0 v ((l1.map (·.nk)).sum + k) = 0 := by
  obtain ⟨v', hv⟩ := surfRhs_append K l1 (S :: l2) 0 v
  rw [zero_add] at hv
  rw [hv]
  generalize (l1.map (·.nk)).sum = loc
  have e : ∀ k, 1 ≤ k → k < S.nk → surfRhs K (S :: l2) loc v' (loc + k) = K S.kin S.cov k * S.size k / S.site := by
    intro k h1 h2
    rw [surfRhs, surfRhs_lt _ _ _ _ _ (by omega), if_neg (by omega), if_pos (by omega),
      show loc + k - loc = k from by omega]
    ring
  refine ⟨e, ?_⟩
  rcases Nat.eq_zero_or_pos S.nk with h0 | h0
  · rw [h0]; simp
  · rw [Finset.range_eq_Ico, Finset.sum_eq_sum_Ico_succ_bot h0]
    have e0 : surfRhs K (S :: l2) loc v' (loc + 0) =
        0 - ∑ k ∈ Finset.Ico 1 S.nk, K S.kin S.cov k * (1 / S.site) * S.size k := by
      rw [surfRhs, surfRhs_lt _ _ _ _ _ (by omega), if_pos (by omega)]
    rw [e0, Finset.sum_congr rfl fun k hk => e k (by simp at hk; omega) (by simp at hk; omega)]
    have : ∑ k ∈ Finset.Ico 1 S.nk, K S.kin S.cov k * (1 / S.site) * S.size k =
        ∑ k ∈ Finset.Ico (0 + 1) S.nk, K S.kin S.cov k * S.size k / S.site :=
      Finset.sum_congr rfl fun k _ => by ring
    rw [this]; ring

example : surfRhs (fun _ _ k => (k : ℝ)) [⟨3, 1, 0, 2, fun _ => 1, 3, fun _ => 0⟩] 0 (fun _ => 0) 1 = 1 / 2 := by
  have := (surface_rates (fun _ _ k => (k : ℝ)) [] [] ⟨3, 1, 0, 2, fun _ => 1, 3, fun _ => 0⟩ (fun _ => 0)).1 1
    (by norm_num) (by norm_num)
  simpa using this

/-- Production of a gas species: the sum over the surfaces, each multiplied by the area of its `ReactorSurface`
although the residual multiplies by the surface to volume ratio. -/
theorem gas_production (K : Rates) (S : Surf) (l : List Surf) (k : ℕ) :
    sdot K [] k = 0 ∧ sdot K (S :: l) k = S.area * K S.kin S.cov (S.bulk + k) + sdot K l k := by
  refine ⟨rfl, ?_⟩
  simp only [sdot, List.map_cons, List.sum_cons]; ring

/-- Coverages found in a surface phase: those of the last surface that uses the kinetics object. -/
theorem phaseCov_last (l1 l2 : List Surf) (S : Surf) (c : ℕ → ℕ → ℝ) (h : ∀ S' ∈ l2, S'.kin ≠ S.kin) :
    phaseCov (l1 ++ S :: l2) c S.kin = S.cov := by
  have : ∀ (l : List Surf) (c : ℕ → ℕ → ℝ), (∀ S' ∈ l, S'.kin ≠ S.kin) → phaseCov l c S.kin = c S.kin := by
    intro l
    induction l with
    | nil => intro c _; rfl
    | cons S' l ih =>
      intro c hl
      have : phaseCov (S' :: l) c = phaseCov l (Function.update c S'.kin S'.cov) := rfl
      rw [this, ih _ fun x hx => hl x (List.mem_cons_of_mem _ hx)]
      exact Function.update_of_ne (hl S' List.mem_cons_self).symm _ _
  have e : phaseCov (l1 ++ S :: l2) c = phaseCov l2 (Function.update (phaseCov l1 c) S.kin S.cov) := by
    simp [phaseCov, List.foldl_append]
  rw [e, this _ _ h, Function.update_self]

theorem surfRes_lt (K : Rates) (c : ℕ → ℕ → ℝ) (y : ℕ → ℝ) (l : List Surf) (loc : ℕ) (v : ℕ → ℝ) (j : ℕ)
    (h : j < loc) : surfRes K c y l loc v j = v j := by
  induction l generalizing loc v with
  | nil => rfl
  | cons S l ih =>
    rw [surfRes, ih _ _ (by omega)]
    rw [if_neg (by omega), if_neg (by omega)]

theorem surfRes_ge (K : Rates) (c : ℕ → ℕ → ℝ) (y : ℕ → ℝ) (l : List Surf) (loc : ℕ) (v : ℕ → ℝ) (j : ℕ)
    (hl : ∀ S ∈ l, 0 < S.nk) (h : loc + (l.map (·.nk)).sum ≤ j) : surfRes K c y l loc v j = v j := by
  induction l generalizing loc v with
  | nil => rfl
  | cons S l ih =>
    have h0 := hl S List.mem_cons_self
    simp only [List.map_cons, List.sum_cons] at h
    rw [surfRes, ih _ _ (fun x hx => hl x (List.mem_cons_of_mem _ hx)) (by omega)]
    rw [if_neg (by omega), if_neg (by omega)]

theorem surfRes_append (K : Rates) (c : ℕ → ℕ → ℝ) (y : ℕ → ℝ) (l1 l2 : List Surf) (loc : ℕ) (v : ℕ → ℝ) :
    ∃ v', surfRes K c y (l1 ++ l2) loc v = surfRes K c y l2 (loc + (l1.map (·.nk)).sum) v' := by
  induction l1 generalizing loc v with
  | nil => exact ⟨v, by simp⟩
  | cons S l ih =>
    obtain ⟨v', hv⟩ := ih (loc + S.nk) fun j =>
      if j = loc then (y loc + ∑ i ∈ Finset.Ico 1 S.nk, y (loc + i)) - 1
      else if loc < j ∧ j < loc + S.nk then K S.kin (c S.kin) (j - loc)
      else v j
    refine ⟨v', ?_⟩
    rw [List.cons_append, surfRes, hv, List.map_cons, List.sum_cons, add_assoc]

/-- Residuals of one surface: the sum of its coverages less one, and the production rates of its other species
at the coverages present in the kinetics object. -/
theorem surface_residual (g : Gas) (K : Rates) (c : ℕ → ℕ → ℝ) (r : R) (y yd res : ℕ → ℝ)
    (l1 l2 : List Surf) (S : Surf) (hl : r.surfs = l1 ++ S :: l2) (h0 : 0 < S.nk) :
    (evalDae g K c r y yd res).2 (4 + g.nsp + (l1.map (·.nk)).sum) =
      (∑ k ∈ range S.nk, y (4 + g.nsp + (l1.map (·.nk)).sum + k)) - 1 ∧
    ∀ k, 1 ≤ k → k < S.nk → (evalDae g K c r y yd res).2 (4 + g.nsp + (l1.map (·.nk)).sum + k) =
      K S.kin (phaseCov r.surfs c S.kin) k := by
  simp only [evalDae]
  rw [hl]
  obtain ⟨v', hv⟩ := surfRes_append K (phaseCov (l1 ++ S :: l2) c) y l1 (S :: l2) (4 + g.nsp) _
  rw [hv]
  generalize 4 + g.nsp + (l1.map (·.nk)).sum = loc
  constructor
  · rw [surfRes, surfRes_lt _ _ _ _ _ _ _ (by omega), if_pos rfl, Finset.range_eq_Ico,
      Finset.sum_eq_sum_Ico_succ_bot h0]
    rfl
  · intro k h1 h2
    rw [surfRes, surfRes_lt _ _ _ _ _ _ _ (by omega), if_neg (by omega), if_pos (by omega),
      show loc + k - loc = k from by omega]

/-- With kinetics objects of their own, surfaces with vanishing residual have coverages adding up to one and are
stationary; if the reactions conserve sites the first species is stationary too. -/
theorem surface_stationary (g : Gas) (K : Rates) (c : ℕ → ℕ → ℝ) (r : R) (y yd res : ℕ → ℝ)
    (l1 l2 : List Surf) (S : Surf) (hl : r.surfs = l1 ++ S :: l2) (h0 : 0 < S.nk)
    (hk : ∀ S' ∈ l2, S'.kin ≠ S.kin) (hsize : S.size 0 ≠ 0)
    (hsite : ∑ k ∈ range S.nk, K S.kin S.cov k * S.size k = 0)
    (h : ∀ k < S.nk, (evalDae g K c r y yd res).2 (4 + g.nsp + (l1.map (·.nk)).sum + k) = 0) :
    ∑ k ∈ range S.nk, y (4 + g.nsp + (l1.map (·.nk)).sum + k) = 1 ∧ ∀ k < S.nk, K S.kin S.cov k = 0 := by
  obtain ⟨e1, e2⟩ := surface_residual g K c r y yd res l1 l2 S hl h0
  have hp : phaseCov r.surfs c S.kin = S.cov := by rw [hl]; exact phaseCov_last l1 l2 S c hk
  rw [hp] at e2
  have e3 : ∀ k, 1 ≤ k → k < S.nk → K S.kin S.cov k = 0 := fun k h1 h2 => by rw [← e2 k h1 h2]; exact h k h2
  refine ⟨?_, fun k hk' => ?_⟩
  · have := h 0 h0
    rw [add_zero, e1] at this
    linarith
  · rcases Nat.eq_zero_or_pos k with rfl | h1
    · rw [Finset.range_eq_Ico, Finset.sum_eq_sum_Ico_succ_bot h0, Finset.sum_eq_zero (s := Finset.Ico (0 + 1) S.nk)
        (fun k hk => by simp at hk; rw [e3 k (by omega) (by omega), zero_mul]), add_zero] at hsite
      exact (mul_eq_zero.1 hsite).resolve_right hsize
    · exact e3 k h1 hk'

/-- Two surfaces with one kinetics object: the equations of the first are evaluated at the coverages of the
second, so a vanishing residual does not make the first stationary. -/
theorem shared_kinetics : ∃ (g : Gas) (K : Rates) (r : R) (y : ℕ → ℝ) (S S' : Surf), r.surfs = [S, S'] ∧
    r.surfs = setCovs r.surfs (fun j => y (4 + g.nsp + j)) ∧
    (∀ c yd res j, 4 + g.nsp ≤ j → j < 4 + g.nsp + 4 → (evalDae g K c r y yd res).2 j = 0) ∧
    K S.kin S.cov 1 ≠ 0 := by
  let y : ℕ → ℝ := fun j => if j = 5 then 1 else if j = 6 then 1 else 0
  let S : Surf := ⟨2, 1, 0, 1, fun _ => 1, 2, fun j => y (4 + 0 + j)⟩
  let S' : Surf := ⟨2, 1, 0, 1, fun _ => 1, 2, fun j => y (4 + 0 + (2 + j))⟩
  let g : Gas := ⟨0, fun _ => 1, fun _ _ => 0, fun _ _ => 0, fun _ _ _ _ => 0⟩
  let r : R := ⟨1, 1, 1, 1, fun _ => 0, 1, 1, true, true, fun _ => 0, [S, S']⟩
  let K : Rates := fun _ c k => if k = 1 then c 1 else 0
  refine ⟨g, K, r, y, S, S', rfl, rfl, fun c yd res j h1 h2 => ?_, ?_⟩
  · have p : phaseCov r.surfs c 0 = S'.cov := phaseCov_last [S] [] S' c (by simp)
    have a := surface_residual g K c r y yd res [] [S'] S rfl (by norm_num [S])
    have b := surface_residual g K c r y yd res [S] [] S' rfl (by norm_num [S'])
    have ka : S.kin = 0 := rfl
    have kb : S'.kin = 0 := rfl
    rw [ka, p] at a
    rw [kb, p] at b
    have hg : g.nsp = 0 := rfl
    rw [hg] at a b h1 h2
    have e4 := a.1
    have e5 := a.2 1 le_rfl (by norm_num [S])
    have e6 := b.1
    have e7 := b.2 1 le_rfl (by norm_num [S'])
    simp [S, S', Finset.sum_range_succ, y, K] at e4 e5 e6 e7
    have : j = 4 ∨ j = 5 ∨ j = 6 ∨ j = 7 := by omega
    rcases this with rfl | rfl | rfl | rfl
    · exact e4
    · exact e5
    · exact e6
    · exact e7
  · simp [K, S, y]

/-! ## Residual of the gas equations -/

theorem skwk_last (g : Gas) (s : ℕ → ℝ) :
    skwk g s = if g.nsp = 0 then 0 else s (g.nsp - 1) * g.mw (g.nsp - 1) := by
  unfold skwk
  cases h : g.nsp with
  | zero => simp
  | succ n => simp [List.range_succ, List.foldl_append]

theorem evalDae_gas (g : Gas) (K : Rates) (c : ℕ → ℕ → ℝ) (r : R) (y yd res : ℕ → ℝ) :
    (evalDae g K c r y yd res).2 0 = r.rho - r.P * (∑ i ∈ range g.nsp, r.Y i / g.mw i)⁻¹ / (Rg * r.T) ∧
    (evalDae g K c r y yd res).2 1 = r.u * yd 0 + r.rho * yd 1 - ratio r * skwk g (sdot K r.surfs) ∧
    (evalDae g K c r y yd res).2 2 = r.rho * r.u * yd 1 + yd 2 + r.u * (ratio r * skwk g (sdot K r.surfs)) ∧
    (evalDae g K c r y yd res).2 3 = (if r.energy then
      r.rho * r.u * (∑ i ∈ range g.nsp, r.Y i / g.mw i * g.cp i r.T) * yd 3 +
        ∑ i ∈ range g.nsp, g.h i r.T *
          ((if r.chem then g.wdot r.T r.P r.Y else r.wdot) i + ratio r * sdot K r.surfs i) else yd 3) ∧
    ∀ i < g.nsp, (evalDae g K c r y yd res).2 (4 + i) = r.rho * r.u * yd (4 + i) +
      y (4 + i) * (ratio r * skwk g (sdot K r.surfs)) -
      g.mw i * ((if r.chem then g.wdot r.T r.P r.Y else r.wdot) i + ratio r * sdot K r.surfs i) := by
  simp only [evalDae]
  have l1 : 1 < 4 + g.nsp := by omega
  have l2 : 2 < 4 + g.nsp := by omega
  have l3 : 3 < 4 + g.nsp := by omega
  refine ⟨?_, ?_, ?_, ?_, fun i hi => ?_⟩
  · rw [surfRes_lt _ _ _ _ _ _ _ (by omega)]; rfl
  · rw [surfRes_lt _ _ _ _ _ _ _ (by omega)]
    simp [l1]; ring
  · rw [surfRes_lt _ _ _ _ _ _ _ (by omega)]
    simp [l1, l2]; ring
  · rw [surfRes_lt _ _ _ _ _ _ _ (by omega)]
    simp [Gas.cpMass, wdotNow, l3]
  · rw [surfRes_lt _ _ _ _ _ _ _ (by omega)]
    rw [if_neg (by omega), if_neg (by omega), if_neg (by omega), if_neg (by omega), if_pos (by omega),
      if_pos (by omega), show 4 + i - 4 = i from by omega]
    simp only [wdotNow]; ring

/-- The call writes to the derivative vector it was given: the entries of the coverages become the rates of the
surface reactions, the others stay. -/
theorem derivative_overwritten (g : Gas) (K : Rates) (c : ℕ → ℕ → ℝ) (r : R) (y yd res : ℕ → ℝ) :
    (∀ j < 4 + g.nsp, (evalDae g K c r y yd res).1 j = yd j) ∧
    ∀ j, (evalDae g K c r y yd res).1 (4 + g.nsp + j) =
      surfRhs K r.surfs 0 (fun i => yd (4 + g.nsp + i)) j := by
  refine ⟨fun j hj => by simp [evalDae, hj], fun j => ?_⟩
  simp only [evalDae]
  rw [if_neg (by omega)]
  congr 1; omega

/-- The mass given off by the walls, as it should be and as it is counted: only the last species. -/
theorem wall_mass (g : Gas) (s : ℕ → ℝ) (n : ℕ) (hn : g.nsp = n + 1) :
    skwk g s = s n * g.mw n ∧
    (skwk g s = ∑ i ∈ range g.nsp, s i * g.mw i ↔ ∑ i ∈ range n, s i * g.mw i = 0) := by
  have e : skwk g s = s n * g.mw n := by rw [skwk_last, hn]; simp
  refine ⟨e, ?_⟩
  rw [e, hn, Finset.sum_range_succ]
  constructor <;> intro h <;> linarith

/-- Consistency of the initial derivatives with the residual: each equation is satisfied up to the mass of the
species that the residual forgets. -/
theorem initial_residual (g : Gas) (K : Rates) (c : ℕ → ℕ → ℝ) (r : R) (X res : ℕ → ℝ)
    (h : Solves g r (if r.chem then g.wdot r.T r.P r.Y else r.wdot) (sdot K r.surfs) X)
    (hru : r.rho * r.u * (∑ i ∈ range g.nsp, r.Y i / g.mw i * g.cp i r.T) ≠ 0) :
    let d := ratio r * ((∑ i ∈ range g.nsp, sdot K r.surfs i * g.mw i) - skwk g (sdot K r.surfs))
    (evalDae g K c r (stateVec g r) X res).2 1 = d ∧
    (evalDae g K c r (stateVec g r) X res).2 2 = -r.u * d ∧
    (evalDae g K c r (stateVec g r) X res).2 3 = 0 ∧
    ∀ i < g.nsp, (evalDae g K c r (stateVec g r) X res).2 (4 + i) = -r.Y i * d := by
  intro d
  obtain ⟨-, f1, f2, f3, f4⟩ := evalDae_gas g K c r (stateVec g r) X res
  obtain ⟨x1, x2, x3, x4, x5⟩ := initial_equations g r _ _ X h
  refine ⟨?_, ?_, ?_, fun i hi => ?_⟩
  · rw [f1]; simp only [d]; linear_combination x1
  · rw [f2]; simp only [d]; linear_combination x2
  · rw [f3]
    cases he : r.energy
    · simp only [Bool.false_eq_true, if_false]
      exact (mul_eq_zero.1 (x4 he)).resolve_left hru
    · simp only [if_true]
      linear_combination x3 he
  · rw [f4 i hi, (stateVec_entries g r).2.2.2.2 i hi]
    simp only [d]
    linear_combination x5 i hi

/-- With chemistry switched off the rates are whatever was computed last, not zero. -/
theorem chemistry_off (g : Gas) (r : R) : r.chem = false → wdotNow g r = r.wdot := by
  intro h; simp [wdotNow, h]

/-- The density equation contains no derivative but is declared differential. -/
theorem density_constraint (g : Gas) (K : Rates) (c : ℕ → ℕ → ℝ) (r : R) (y yd yd' res : ℕ → ℝ) :
    constraint g 0 = 1 ∧ (evalDae g K c r y yd res).2 0 = (evalDae g K c r y yd' res).2 0 ∧
    (∀ j < 4 + g.nsp, constraint g j = 1) ∧ ∀ j, 4 + g.nsp ≤ j → constraint g j = 0 := by
  refine ⟨by simp [constraint], ?_, fun j hj => by simp [constraint, hj], fun j hj => by
    simp [constraint, not_lt.2 hj]⟩
  rw [(evalDae_gas g K c r y yd res).1, (evalDae_gas g K c r y yd' res).1]

/-- Two reactors in a network: the residual beyond the size of the larger one is never written. -/
theorem network_offset {α : Type} (f : α → (ℕ → ℝ) → (ℕ → ℝ) → (ℕ → ℝ) → (ℕ → ℝ) × (ℕ → ℝ)) (l : List α) (n : ℕ)
    (hf : ∀ a ∈ l, ∀ y yd res, ∀ j, n ≤ j → (f a y yd res).2 j = res j) (y yd res : ℕ → ℝ) :
    ∀ j, n ≤ j → (netEval f l y yd res).2 j = res j := by
  unfold netEval
  induction l generalizing yd res with
  | nil => intro j _; rfl
  | cons a l ih =>
    intro j hj
    rw [List.foldl_cons]
    have := ih (fun b hb => hf b (List.mem_cons_of_mem _ hb)) (f a y yd res).1 (f a y yd res).2 j hj
    rw [this]
    exact hf a List.mem_cons_self y yd res j hj

/-- The hypothesis of `network_offset` is met by the plug flow reactor. -/
theorem evalDae_size (g : Gas) (K : Rates) (c : ℕ → ℕ → ℝ) (r : R) (y yd res : ℕ → ℝ)
    (hl : ∀ S ∈ r.surfs, 0 < S.nk) (j : ℕ) (hj : 4 + g.nsp + (r.surfs.map (·.nk)).sum ≤ j) :
    (evalDae g K c r y yd res).2 j = res j := by
  simp only [evalDae]
  rw [surfRes_ge _ _ _ _ _ _ _ hl hj]
  rw [if_neg (by omega), if_neg (by omega), if_neg (by omega), if_neg (by omega), if_neg (by omega)]

/-! ## Solutions -/

/-- A profile along the reactor whose residual vanishes everywhere. -/
structure Solution (g : Gas) (K : ℝ → Rates) (c : ℕ → ℕ → ℝ) (r : R) (y yd : ℝ → ℕ → ℝ) : Prop where
  deriv : ∀ z, ∀ j < 4 + g.nsp, HasDerivAt (fun z => y z j) (yd z j) z
  zero : ∀ z, ∀ j < 4 + g.nsp + (r.surfs.map (·.nk)).sum,
    (evalDae g (K z) c (update g r (y z)) (y z) (yd z) 0).2 j = 0

theorem const_of_deriv {f : ℝ → ℝ} (h : ∀ z, HasDerivAt f 0 z) : ∀ a b, f a = f b :=
  is_const_of_deriv_eq_zero (fun z => (h z).differentiableAt) (fun z => (h z).deriv)

/-- The gas law holds along a solution. -/
theorem solution_gas_law {g K c r y yd} (h : Solution g K c r y yd) (z : ℝ) (hT : y z 3 ≠ 0)
    (hY : ∑ i ∈ range g.nsp, y z (4 + i) / g.mw i ≠ 0) :
    y z 2 = y z 0 * Rg * y z 3 * ∑ i ∈ range g.nsp, y z (4 + i) / g.mw i := by
  have := h.zero z 0 (by omega)
  rw [(evalDae_gas _ _ _ _ _ _ _).1] at this
  simp only [update] at this
  have hR := Rg_pos.ne'
  generalize ∑ i ∈ range g.nsp, y z (4 + i) / g.mw i = q at *
  field_simp at this
  linarith

/-- Without surfaces the mass flux and the momentum flux are constant. -/
theorem solution_fluxes {g K c r y yd} (h : Solution g K c r y yd) (hs : r.surfs = []) (a b : ℝ) :
    y a 0 * y a 1 = y b 0 * y b 1 ∧ y a 2 + y a 0 * y a 1 ^ 2 = y b 2 + y b 0 * y b 1 ^ 2 := by
  have q : ∀ z, skwk g (sdot (K z) (update g r (y z)).surfs) = 0 := by
    intro z
    have : (update g r (y z)).surfs = [] := by simp [update, hs, setCovs]
    rw [this, skwk_last]; simp [sdot]
  have e1 : ∀ z, y z 1 * yd z 0 + y z 0 * yd z 1 = 0 := by
    intro z
    have := h.zero z 1 (by omega)
    rw [(evalDae_gas _ _ _ _ _ _ _).2.1, q] at this
    simp only [update] at this
    linarith
  have e2 : ∀ z, y z 0 * y z 1 * yd z 1 + yd z 2 = 0 := by
    intro z
    have := h.zero z 2 (by omega)
    rw [(evalDae_gas _ _ _ _ _ _ _).2.2.1, q] at this
    simp only [update] at this
    linarith
  have d0 := fun z => h.deriv z 0 (by omega)
  have d1 := fun z => h.deriv z 1 (by omega)
  have d2 := fun z => h.deriv z 2 (by omega)
  refine ⟨const_of_deriv (f := fun z => y z 0 * y z 1) (fun z => ?_) a b,
    const_of_deriv (f := fun z => y z 2 + y z 0 * y z 1 ^ 2) (fun z => ?_) a b⟩
  · have := (d0 z).mul (d1 z)
    rw [show yd z 0 * y z 1 + y z 0 * yd z 1 = 0 from by linarith [e1 z]] at this
    exact this
  · have := (d2 z).add ((d0 z).mul ((d1 z).pow 2))
    have e : yd z 2 + (yd z 0 * y z 1 ^ 2 + y z 0 * ((2 : ℕ) * y z 1 ^ (2 - 1) * yd z 1)) = 0 := by
      norm_num
      linear_combination e2 z + y z 1 * e1 z
    simp only [Pi.pow_apply] at this
    rw [e] at this
    exact this

/-- Without surfaces every linear combination of moles per mass that the reactions conserve (an element, the mass)
is constant along the reactor. -/
theorem solution_conserved {g K c r y yd} (h : Solution g K c r y yd) (hs : r.surfs = []) (hch : r.chem = true)
    (hmw : ∀ i < g.nsp, g.mw i ≠ 0) (hru : ∀ z, y z 0 * y z 1 ≠ 0) (w : ℕ → ℝ)
    (hw : ∀ z, ∑ i ∈ range g.nsp, w i * g.wdot (y z 3) (y z 2) (fun i => y z (4 + i)) i = 0) (a b : ℝ) :
    ∑ i ∈ range g.nsp, w i * (y a (4 + i) / g.mw i) = ∑ i ∈ range g.nsp, w i * (y b (4 + i) / g.mw i) := by
  refine const_of_deriv (f := fun z => ∑ i ∈ range g.nsp, w i * (y z (4 + i) / g.mw i)) (fun z => ?_) a b
  have hu : (update g r (y z)).surfs = [] := by simp [update, hs, setCovs]
  have q : skwk g (sdot (K z) (update g r (y z)).surfs) = 0 := by rw [hu, skwk_last]; simp [sdot]
  have e : ∀ i < g.nsp, y z 0 * y z 1 * (yd z (4 + i) / g.mw i) =
      g.wdot (y z 3) (y z 2) (fun i => y z (4 + i)) i := by
    intro i hi
    have := h.zero z (4 + i) (by omega)
    rw [(evalDae_gas _ _ _ _ _ _ _).2.2.2.2 i hi, q, hu] at this
    simp only [update, hch, if_true, sdot, List.map_nil, List.sum_nil] at this
    have hm := hmw i hi
    field_simp
    linarith
  have hd : HasDerivAt (fun z => ∑ i ∈ range g.nsp, w i * (y z (4 + i) / g.mw i))
      (∑ i ∈ range g.nsp, w i * (yd z (4 + i) / g.mw i)) z :=
    HasDerivAt.fun_sum fun i hi =>
      ((h.deriv z (4 + i) (by have := Finset.mem_range.1 hi; omega)).div_const _).const_mul _
  have : y z 0 * y z 1 * ∑ i ∈ range g.nsp, w i * (yd z (4 + i) / g.mw i) = 0 := by
    rw [← hw z, mul_sum]
    refine sum_congr rfl fun i hi => ?_
    rw [← e i (Finset.mem_range.1 hi)]; ring
  rw [(mul_eq_zero.1 this).resolve_left (hru z)] at hd
  exact hd

/-- Without surfaces the enthalpy per mass is constant (kinetic energy is neglected). -/
theorem solution_enthalpy {g K c r y yd} (h : Solution g K c r y yd) (hs : r.surfs = []) (hch : r.chem = true)
    (hen : r.energy = true) (hmw : ∀ i < g.nsp, g.mw i ≠ 0) (hru : ∀ z, y z 0 * y z 1 ≠ 0)
    (hcp : ∀ i T, HasDerivAt (g.h i) (g.cp i T) T) (a b : ℝ) :
    ∑ i ∈ range g.nsp, y a (4 + i) / g.mw i * g.h i (y a 3) =
    ∑ i ∈ range g.nsp, y b (4 + i) / g.mw i * g.h i (y b 3) := by
  refine const_of_deriv (f := fun z => ∑ i ∈ range g.nsp, y z (4 + i) / g.mw i * g.h i (y z 3)) (fun z => ?_) a b
  have hu : (update g r (y z)).surfs = [] := by simp [update, hs, setCovs]
  have q : skwk g (sdot (K z) (update g r (y z)).surfs) = 0 := by rw [hu, skwk_last]; simp [sdot]
  have e : ∀ i < g.nsp, y z 0 * y z 1 * (yd z (4 + i) / g.mw i) =
      g.wdot (y z 3) (y z 2) (fun i => y z (4 + i)) i := by
    intro i hi
    have := h.zero z (4 + i) (by omega)
    rw [(evalDae_gas _ _ _ _ _ _ _).2.2.2.2 i hi, q, hu] at this
    simp only [update, hch, if_true, sdot, List.map_nil, List.sum_nil] at this
    have hm := hmw i hi
    field_simp
    linarith
  have e3 := h.zero z 3 (by omega)
  rw [(evalDae_gas _ _ _ _ _ _ _).2.2.2.1, hu] at e3
  simp only [update, hch, hen, if_true, sdot, List.map_nil, List.sum_nil, mul_zero, add_zero] at e3
  have hd : HasDerivAt (fun z => ∑ i ∈ range g.nsp, y z (4 + i) / g.mw i * g.h i (y z 3))
      (∑ i ∈ range g.nsp, (yd z (4 + i) / g.mw i * g.h i (y z 3) + y z (4 + i) / g.mw i * (g.cp i (y z 3) * yd z 3))) z :=
    HasDerivAt.fun_sum fun i hi =>
      ((h.deriv z (4 + i) (by have := Finset.mem_range.1 hi; omega)).div_const _).mul
        ((hcp i (y z 3)).comp z (h.deriv z 3 (by omega)))
  have : y z 0 * y z 1 * ∑ i ∈ range g.nsp, (yd z (4 + i) / g.mw i * g.h i (y z 3) +
      y z (4 + i) / g.mw i * (g.cp i (y z 3) * yd z 3)) = 0 := by
    rw [← e3, sum_add_distrib, mul_add, mul_sum, mul_sum, mul_sum, sum_mul, add_comm]
    congr 1
    · exact sum_congr rfl fun i _ => by ring
    · refine sum_congr rfl fun i hi => ?_
      rw [← e i (Finset.mem_range.1 hi)]; ring
  rw [(mul_eq_zero.1 this).resolve_left (hru z)] at hd
  exact hd

/-- The resting composition: without reactions a uniform flow is a solution. -/
theorem uniform_solution (g : Gas) (K : ℝ → Rates) (c : ℕ → ℕ → ℝ) (r : R) (hs : r.surfs = [])
    (hw : g.wdot = fun _ _ _ _ => 0) (hc : r.chem = true)
    (hd : r.rho = r.P * (∑ i ∈ range g.nsp, r.Y i / g.mw i)⁻¹ / (Rg * r.T)) :
    Solution g K c r (fun _ => stateVec g r) (fun _ _ => 0) := by
  refine ⟨fun z j _ => hasDerivAt_const _ _, fun z j hj => ?_⟩
  rw [hs] at hj
  obtain ⟨e0, e1, e2, e3, e4⟩ := stateVec_entries g r
  obtain ⟨f0, f1, f2, f3, f4⟩ := evalDae_gas g (K z) c (update g r (stateVec g r)) (stateVec g r) (fun _ => 0) 0
  have hu : (update g r (stateVec g r)).surfs = [] := by simp [update, hs, setCovs]
  have q : skwk g (sdot (K z) (update g r (stateVec g r)).surfs) = 0 := by rw [hu, skwk_last]; simp [sdot]
  rw [q] at f1 f2 f4
  rw [hu] at f3 f4
  have hc' : (update g r (stateVec g r)).chem = true := hc
  simp only [hc', if_true, hw, sdot, List.map_nil, List.sum_nil, mul_zero, add_zero, sub_zero,
    Finset.sum_const_zero, ite_self] at f1 f2 f3 f4
  rcases Nat.lt_or_ge j 4 with h4 | h4
  · interval_cases j
    · rw [f0]
      simp only [update, e0, e2, e3]
      rw [Finset.sum_congr rfl fun i hi => by rw [e4 i (Finset.mem_range.1 hi)], ← hd, sub_self]
    · exact f1
    · exact f2
    · exact f3
  · obtain ⟨i, rfl⟩ := Nat.exists_eq_add_of_le h4
    exact f4 i (by simpa using hj)

/-- Species exchanged at the wall without change of mass: at a vanishing residual the mass flux changes and the
mass fractions do not keep their sum. -/
theorem exchange_not_conserved : ∃ (g : Gas) (K : Rates) (r : R),
    (∀ i < g.nsp, 0 < g.mw i) ∧ (∑ i ∈ range g.nsp, sdot K r.surfs i * g.mw i = 0) ∧
    (∑ i ∈ range g.nsp, g.mw i * g.wdot r.T r.P r.Y i = 0) ∧ (∑ i ∈ range g.nsp, r.Y i = 1) ∧
    0 < r.rho ∧ 0 < r.u ∧
    ∀ c yd res, (∀ j < 4 + g.nsp, (evalDae g K c r (stateVec g r) yd res).2 j = 0 ∨ j = 0) →
      r.u * yd 0 + r.rho * yd 1 = -1 ∧ ∑ i ∈ range g.nsp, yd (4 + i) = 1 := by
  let S : Surf := ⟨1, 1, 0, 1, fun _ => 1, 1, fun _ => 1⟩
  let g : Gas := ⟨2, fun _ => 1, fun _ _ => 0, fun _ _ => 1, fun _ _ _ _ => 0⟩
  let r : R := ⟨1, 1, 1, 1, fun _ => 1 / 2, 1, 1, true, true, fun _ => 0, [S]⟩
  let K : Rates := fun _ _ k => if k = 1 then 1 else if k = 2 then -1 else 0
  have s0 : sdot K r.surfs 0 = 1 := by simp [sdot, r, K, S]
  have s1 : sdot K r.surfs 1 = -1 := by simp [sdot, r, K, S]
  have hg : g.nsp = 2 := rfl
  have hm : ∀ i, g.mw i = 1 := fun _ => rfl
  refine ⟨g, K, r, fun _ _ => one_pos, ?_, ?_, ?_, one_pos, one_pos, fun c yd res h => ?_⟩
  · rw [hg, sum_range_succ, sum_range_one, s0, s1, hm]; ring
  · simp [g]
  · rw [hg, sum_range_succ, sum_range_one]; simp only [r]; norm_num
  · obtain ⟨f0, f1, f2, f3, f4⟩ := evalDae_gas g K c r (stateVec g r) yd res
    have hq : skwk g (sdot K r.surfs) = -1 := by rw [skwk_last, hg]; simp [s1, hm]
    have ha : ratio r = 1 := by simp [ratio, r]
    have h1 := (h 1 (by omega)).resolve_right (by norm_num)
    have h4 := (h (4 + 0) (by omega)).resolve_right (by norm_num)
    have h5 := (h (4 + 1) (by omega)).resolve_right (by norm_num)
    rw [f1, hq, ha] at h1
    rw [f4 0 (by omega), hq, ha, s0, hm, (stateVec_entries g r).2.2.2.2 0 (by omega)] at h4
    rw [f4 1 (by omega), hq, ha, s1, hm, (stateVec_entries g r).2.2.2.2 1 (by omega)] at h5
    simp only [r, g, if_true] at h1 h4 h5 ⊢
    constructor
    · linarith
    · rw [sum_range_succ, sum_range_one]; linarith

/-- The initial derivatives of a reacting mixture do not satisfy the derivative of the gas law. -/
theorem initial_gas_law_refuted : ∃ (g : Gas) (r : R) (w X : ℕ → ℝ), Solves g r w (fun _ => 0) X ∧
    0 < r.rho ∧ 0 < r.T ∧ 0 < r.u ∧ (∑ i ∈ range g.nsp, g.mw i * w i = 0) ∧
    X 2 ≠ Rg * r.T * (∑ i ∈ range g.nsp, r.Y i / g.mw i) * X 0 +
      r.rho * Rg * (∑ i ∈ range g.nsp, r.Y i / g.mw i) * X 3 +
      r.rho * Rg * r.T * ∑ i ∈ range g.nsp, X (4 + i) / g.mw i := by
  have hR := Rg_pos
  let t : ℝ := 8 / (3 * Rg)
  have ht : 0 < t := by positivity
  have hRt : Rg * t = 8 / 3 := by simp only [t]; field_simp
  let g : Gas := ⟨2, fun i => if i = 0 then 1 else 2, fun _ _ => 0, fun _ _ => 1, fun _ _ _ _ => 0⟩
  let r : R := ⟨1, 1, 1, t, fun _ => 1 / 2, 1, 1, true, true, fun _ => 0, []⟩
  let w : ℕ → ℝ := fun i => if i = 0 then 2 else -1
  let X : ℕ → ℝ := fun i => if i = 0 then -t else if i = 1 then t else if i = 2 then -t else if i = 3 then 0
    else if i = 4 then 2 else -2
  have hS : Solves g r w (fun _ => 0) X := by
    intro i hi
    have hi : i < 6 := hi
    have h6 : 4 + g.nsp = 6 := rfl
    rw [h6]
    have hm : g.mmw r.Y = 4 / 3 := by simp [Gas.mmw, g, r, Finset.sum_range_succ]; norm_num
    have hk : hskwk g r (fun _ => 0) = 0 := by simp [hskwk]
    interval_cases i
    · simp [Finset.sum_range_succ, A, B, hm]
      simp [X, g, r]
      linear_combination (3 / 4 * t) * hRt
    · simp [Finset.sum_range_succ, A, B, hk]
      simp [X, r]
    · simp [Finset.sum_range_succ, A, B, hk]
      simp [X, r]
    · simp [Finset.sum_range_succ, A, B]
      simp [X, r, g]
    · simp [Finset.sum_range_succ, A, B, hk]
      simp [X, r, w, g]
    · simp [Finset.sum_range_succ, A, B, hk]
      simp [X, r, w, g]
  refine ⟨g, r, w, X, hS, one_pos, ht, one_pos, ?_, ?_⟩
  · simp [g, w, Finset.sum_range_succ]
  · intro h
    have := (initial_gas_law_iff g r w _ X hS one_ne_zero ht.ne').1 h
    simp [g, X, Finset.sum_range_succ] at this
    norm_num at this

/-! ## Names -/

/-- An index found for a name has that name. -/
theorem index_name (names : List String) (nm : String) (k : ℕ) (h : componentIndex names nm = some k) :
    componentName names k = .ok nm := by
  unfold componentIndex at h
  cases hf : names.findIdx? (· = nm) with
  | some i =>
    rw [hf] at h
    simp only [Option.some.injEq] at h
    subst h
    obtain ⟨hi, h1, -⟩ := List.findIdx?_eq_some_iff_getElem.1 hf
    simp only [decide_eq_true_eq] at h1
    unfold componentName
    rw [if_neg (by omega), if_neg (by omega), if_neg (by omega), if_neg (by omega), Nat.add_sub_cancel,
      List.getElem?_eq_getElem hi]
    simp [h1]
  | none =>
    rw [hf] at h
    simp only at h
    split_ifs at h with h1 h2 h3 h4 <;> simp only [Option.some.injEq] at h <;> subst h
    · simp [componentName, h1]
    · simp [componentName, h2]
    · simp [componentName, h3]
    · simp [componentName, h4]

/-- A species with the name of a variable hides it; an index beyond the last species has no name. -/
theorem name_hidden : componentIndex ["speed"] "speed" = some 4 ∧ componentName ["speed"] 1 = .ok "speed" ∧
    componentIndex ["H2"] "speed" = some 1 ∧ componentIndex ["H2"] "density" = some 0 ∧
    componentIndex ["H2"] "pressure" = some 2 ∧ componentIndex ["H2"] "temperature" = some 3 ∧
    componentIndex ["H2"] "H2" = some 4 ∧ componentIndex ["H2"] "mass" = none ∧
    ∀ names k, names.length + 4 ≤ k → componentName names k = .throw := by
  refine ⟨by decide, by simp [componentName], by decide, by decide, by decide, by decide, by decide, by decide,
    fun names k hk => ?_⟩
  unfold componentName
  rw [if_neg (by omega), if_neg (by omega), if_neg (by omega), if_neg (by omega),
    List.getElem?_eq_none (by omega)]

end Verif.Pfr
