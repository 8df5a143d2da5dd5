import Verif.OneDim.Flow
import Mathlib.Algebra.BigOperators.Group.Finset.Sigma
import Mathlib.Tactic.IntervalCases

/-!
# C53: sums of fluxes and mass fractions in a flow domain
-/

namespace Verif.OneDim.Flow

open Finset

/-- Sum of the mass fractions at a point. -/
noncomputable def sumY (c : Cfg) (x : Sol) (j : ℕ) : ℝ := ∑ k ∈ range c.nsp, Yv x j k

/-- Sum of the fluxes before the correction. -/
noncomputable def rawSum (c : Cfg) (b : Buf) (x : Sol) (j : ℕ) : ℝ :=
  ∑ k ∈ range c.nsp, rawFlux c b x j k

/-- What is left of the sum of the fluxes after the correction. -/
theorem flux_sum_eq (c : Cfg) (b : Buf) (x : Sol) (j : ℕ) (hm : c.multi = false)
    (hs : c.soret = false) :
    ∑ k ∈ range c.nsp, fluxCol c b x j k = rawSum c b x j * (1 - sumY c x j) := by
  unfold fluxCol diffFlux
  simp only [hm, hs, Bool.false_eq_true, if_false]
  rw [sum_add_distrib, ← mul_sum]
  unfold rawSum sumY
  ring

/-- **C53** The corrected mixture-averaged fluxes add up to zero wherever the mass fractions add up
to one, whatever the diffusion coefficients, the gradients and the basis of the gradients. -/
theorem flux_sum_zero (c : Cfg) (b : Buf) (x : Sol) (j : ℕ) (hm : c.multi = false)
    (hs : c.soret = false) (hY : sumY c x j = 1) :
    ∑ k ∈ range c.nsp, fluxCol c b x j k = 0 := by
  rw [flux_sum_eq c b x j hm hs, hY]; ring

/-- **C53** Multicomponent and thermal diffusion: the sum is zero if the coefficients of the
transport model have the property that makes it so; the code does not correct these fluxes. -/
theorem flux_sum_multi (c : Cfg) (b : Buf) (x : Sol) (j : ℕ) (hm : c.multi = true)
    (hd : ∀ m < c.nsp, ∑ k ∈ range c.nsp, (b.tc j).diff k * (b.tc j).multi k m = 0)
    (ht : c.soret = true → ∑ k ∈ range c.nsp, (b.tc j).dth k = 0) :
    ∑ k ∈ range c.nsp, fluxCol c b x j k = 0 := by
  have h1 : ∑ k ∈ range c.nsp, diffFlux c b x j k = 0 := by
    unfold diffFlux
    simp only [hm, if_true]
    rw [← sum_div]
    have : ∀ k ∈ range c.nsp, (∑ m ∈ range c.nsp, c.wt m * (b.tc j).multi k m *
        (Xf c b x m (j + 1) - Xf c b x m j)) * (b.tc j).diff k =
        ∑ m ∈ range c.nsp, (c.wt m * (Xf c b x m (j + 1) - Xf c b x m j)) *
          ((b.tc j).diff k * (b.tc j).multi k m) := by
      intro k _
      rw [sum_mul]
      exact sum_congr rfl fun m _ => by ring
    rw [sum_congr rfl this, Finset.sum_comm]
    have : ∀ m ∈ range c.nsp, ∑ k ∈ range c.nsp, (c.wt m * (Xf c b x m (j + 1) - Xf c b x m j)) *
          ((b.tc j).diff k * (b.tc j).multi k m) = 0 := by
      intro m hm'
      rw [← mul_sum, hd m (mem_range.mp hm'), mul_zero]
    rw [sum_eq_zero this, zero_div]
  unfold fluxCol
  by_cases hs : c.soret = true
  · simp only [hs, if_true]
    rw [sum_sub_distrib, h1, ← sum_mul, ht hs]; ring
  · simp only [hs]
    simpa using h1

theorem sum_upwind (c : Cfg) (x : Sol) (j : ℕ) :
    ∑ k ∈ range c.nsp, upwind c x (oY + k) j =
      (sumY c x (jloc x j) - sumY c x (jloc x j - 1)) / c.dz (jloc x j - 1) := by
  unfold upwind sumY Yv
  rw [← sum_div, sum_sub_distrib]

/-- The sum of the species residuals at an interior point. -/
theorem species_sum (c : Cfg) (b : Buf) (rdt : ℝ) (x : Sol) (j : ℕ) (h0 : j ≠ 0)
    (h1 : j ≠ c.pts - 1) (hw : ∑ k ∈ range c.nsp, c.wt k * b.wdot j k = 0) :
    ∑ k ∈ range c.nsp, species c b rdt x j k =
      (-(rhoU b x j * ((sumY c x (jloc x j) - sumY c x (jloc x j - 1)) / c.dz (jloc x j - 1)))
        - 2 * (∑ k ∈ range c.nsp, b.flux j k - ∑ k ∈ range c.nsp, b.flux (j - 1) k)
          / (c.z (j + 1) - c.z (j - 1))) / b.rho j
      - rdt * (sumY c x j - ∑ k ∈ range c.nsp, c.prev j (oY + k)) := by
  unfold species
  simp only [h0, h1, if_false]
  rw [sum_sub_distrib, ← sum_div, ← mul_sum, sum_sub_distrib, sum_sub_distrib, hw, ← mul_sum,
    sum_upwind, ← sum_div, ← mul_sum, sum_sub_distrib, sum_sub_distrib]
  unfold sumY Yv
  ring

/-- **C53** Wherever mass fractions (of the neighbourhood and of the previous time step) add up to
one, the species residuals add up to zero: the discretised equations are consistent with the sum. -/
theorem species_sum_zero (c : Cfg) (b : Buf) (rdt : ℝ) (x : Sol) (j : ℕ) (h0 : j ≠ 0)
    (h1 : j ≠ c.pts - 1) (hw : ∑ k ∈ range c.nsp, c.wt k * b.wdot j k = 0)
    (hf : ∑ k ∈ range c.nsp, b.flux j k = 0) (hf' : ∑ k ∈ range c.nsp, b.flux (j - 1) k = 0)
    (hY : ∀ i, sumY c x i = 1) (hp : ∑ k ∈ range c.nsp, c.prev j (oY + k) = 1) :
    ∑ k ∈ range c.nsp, species c b rdt x j k = 0 := by
  rw [species_sum c b rdt x j h0 h1 hw, hf, hf', hY, hY, hY, hp]
  ring

/-- **C53** Conversely, a solution of the species equations (steady, or one implicit time step from
a normalised state) that is normalised at the inlet is normalised everywhere in the interior, for
mixture-averaged transport and flow from left to right, unless the diffusive term cancels the
convective and transient ones exactly. -/
theorem sum_one (c : Cfg) (b : Buf) (rdt : ℝ) (x : Sol)
    (hm : c.multi = false) (hs : c.soret = false)
    (hfl : ∀ j, j + 1 < c.pts → b.flux j = fluxCol c b x j)
    (hw : ∀ j, 0 < j → j + 1 < c.pts → ∑ k ∈ range c.nsp, c.wt k * b.wdot j k = 0)
    (hu : ∀ j, 0 < j → j + 1 < c.pts → 0 < x j oU)
    (hr : ∀ j, 0 < j → j + 1 < c.pts → b.rho j ≠ 0)
    (hp : ∀ j, 0 < j → j + 1 < c.pts → rdt * (∑ k ∈ range c.nsp, c.prev j (oY + k)) = rdt)
    (hc : ∀ j, 0 < j → j + 1 < c.pts →
      rhoU b x j / c.dz (j - 1) - 2 * rawSum c b x j / (c.z (j + 1) - c.z (j - 1))
        + rdt * b.rho j ≠ 0)
    (hres : ∀ j, 0 < j → j + 1 < c.pts → ∀ k < c.nsp, species c b rdt x j k = 0)
    (hin : sumY c x 0 = 1) (j : ℕ) (hj : j + 1 < c.pts) :
    sumY c x j = 1 := by
  induction j with
  | zero => exact hin
  | succ j ih =>
    have ihj := ih (by omega)
    have hz : ∑ k ∈ range c.nsp, species c b rdt x (j + 1) k = 0 :=
      sum_eq_zero fun k hk => hres (j + 1) (by omega) hj k (mem_range.mp hk)
    rw [species_sum c b rdt x (j + 1) (by omega) (by omega)
      (hw _ (by omega) hj)] at hz
    have hl : jloc x (j + 1) = j + 1 := by
      unfold jloc; rw [if_pos (hu (j + 1) (by omega) hj)]
    have e1 : ∑ k ∈ range c.nsp, b.flux (j + 1) k
        = rawSum c b x (j + 1) * (1 - sumY c x (j + 1)) := by
      rw [hfl (j + 1) hj]; exact flux_sum_eq c b x (j + 1) hm hs
    have e2 : ∑ k ∈ range c.nsp, b.flux (j + 1 - 1) k = 0 := by
      rw [Nat.add_sub_cancel, hfl j (by omega)]
      exact flux_sum_zero c b x j hm hs ihj
    rw [hl, e1, e2, Nat.add_sub_cancel, ihj, mul_sub rdt, hp (j + 1) (by omega) hj] at hz
    have hc' := hc (j + 1) (by omega) hj
    rw [Nat.add_sub_cancel] at hc'
    have hr' := hr (j + 1) (by omega) hj
    have hz2 : (rhoU b x (j + 1) / c.dz j
        - 2 * rawSum c b x (j + 1) / (c.z (j + 1 + 1) - c.z j) + rdt * b.rho (j + 1))
        * (1 - sumY c x (j + 1)) = 0 := by
      have hz3 := congrArg (fun t => t * b.rho (j + 1)) hz
      simp only [zero_mul] at hz3
      rw [sub_mul, div_mul_cancel₀ _ hr'] at hz3
      rw [← hz3]; ring
    have := (mul_eq_zero.mp hz2).resolve_left hc'
    linarith

/-- **C53** With a fixed coefficient the sum of the fluxes is not zero if the mass fractions do not
add up to one: the correction uses the mass fractions of the left point as they are. -/
theorem flux_sum_unnormalised :
    ∃ (c : Cfg) (b : Buf) (x : Sol), c.multi = false ∧ c.soret = false ∧
      ∑ k ∈ range c.nsp, fluxCol c b x 0 k ≠ 0 := by
  refine ⟨⟨1, 2, fun j => j, false, false, false, false, false, true, false, false, false,
    fun _ => false, fun _ => 1, fun _ _ => ⟨1, 1, 1, 0, 0⟩, fun _ _ => ⟨1, 1, 1, 1, 0, 0, 0, 0⟩,
    1, 1, 0, 0, none, none, 0, 0, 0, 0, 0, 0, 0, 0⟩,
    ⟨1, 1, 1, 0, 0, fun _ => ⟨1, 1, 1, 0, 0⟩, 0, 0, 0, 0⟩, fun j _ => if j = 0 then 2 else 1,
    rfl, rfl, ?_⟩
  rw [flux_sum_eq _ _ _ _ rfl rfl]
  simp [rawSum, rawFlux, sumY, Yv]
  norm_num

/-! ## Example -/

/-- Two species on a uniform grid of four points. -/
noncomputable def exCfg : Cfg :=
  { nsp := 2, pts := 4, z := fun j => j, lam := false, free := false, two := false, multi := false,
    soret := false, massBasis := true, dovisc := false, rad := false, force := false,
    doE := fun _ => false, wt := fun _ => 1,
    gas := fun _ _ => ⟨1, 1, 1, 0, 0⟩, tr := fun _ _ => ⟨1, 1, 1, 1, 1, fun k => k + 1, 0, 0⟩,
    press := 1, sigma := 1, epsL := 0, epsR := 0, kCO2 := none, kH2O := none, zfixed := 0,
    tfixed := 0, zLeft := 0, tLeft := 0, zRight := 0, tRight := 0, fixedT := 0, prev := 0 }

/-- Work arrays with two different diffusion coefficients. -/
noncomputable def exBuf : Buf :=
  { rho := 1, wtm := 1, cp := 1, hk := 0, wdot := 0,
    tc := fun _ => ⟨1, 1, fun k => k + 1, 0, 0⟩, flux := 0, q := 0, kL := 0, kR := 0 }

/-- Mass fractions `1 - j/4` and `j/4`, velocity 1. -/
noncomputable def exSol : Sol := fun j n =>
  if n = oU then 1 else if n = oY then 1 - j / 4 else if n = oY + 1 then j / 4 else 0

theorem exSol_sum (j : ℕ) : sumY exCfg exSol j = 1 := by
  simp [sumY, exCfg, Yv, exSol, sum_range_succ, oU, oY]

/-- The fluxes of the example are not zero, but their sum is. -/
example : (∑ k ∈ range exCfg.nsp, fluxCol exCfg exBuf exSol 1 k = 0) ∧
    fluxCol exCfg exBuf exSol 1 0 ≠ 0 := by
  refine ⟨flux_sum_zero exCfg exBuf exSol 1 rfl rfl (exSol_sum 1), ?_⟩
  simp [fluxCol, diffFlux, rawFlux, exCfg, exBuf, exSol, Yv, sum_range_succ, oU, oY]
  norm_num

/-- Coefficients `(1, -1)` and `(-1, 1)` satisfy the condition of `flux_sum_multi`. -/
example : ∑ k ∈ range 2, fluxCol { exCfg with multi := true }
    { exBuf with tc := fun _ => ⟨1, 1, fun _ => 1, fun k m => if k = m then 1 else -1, 0⟩ }
    exSol 1 k = 0 := by
  refine flux_sum_multi { exCfg with multi := true } _ exSol 1 rfl ?_ ?_
  · intro m hm
    have hm2 : m < 2 := hm
    simp only [exCfg, sum_range_succ, range_zero, sum_empty]
    interval_cases m <;> norm_num
  · intro h; cases h

/-- A uniform composition solves the species equations. -/
noncomputable def exSol2 : Sol := fun _ n =>
  if n = oU then 1 else if n = oY then 1 / 2 else if n = oY + 1 then 1 / 2 else 0

example : ∀ j, j + 1 < exCfg.pts → sumY exCfg exSol2 j = 1 := by
  have raw : ∀ j k, rawFlux exCfg exBuf exSol2 j k = 0 := by
    intro j k; simp [rawFlux, exCfg, Yv, exSol2]
  have fl : ∀ j k, fluxCol exCfg exBuf exSol2 j k = 0 := by
    intro j k
    have h1 : exCfg.multi = false := rfl
    have h2 : exCfg.soret = false := rfl
    simp [fluxCol, diffFlux, raw, h1, h2]
  refine sum_one exCfg exBuf 0 exSol2 rfl rfl ?_ ?_ ?_ ?_ ?_ ?_ ?_ ?_
  · intro j _; funext k; rw [fl]; rfl
  · intro j _ _; simp [exBuf]
  · intro j _ _; simp [exSol2]
  · intro j _ _; simp [exBuf]
  · intro j _ _; simp
  · intro j h1 _
    obtain ⟨i, rfl⟩ : ∃ i, j = i + 1 := ⟨j - 1, by omega⟩
    have h : rawSum exCfg exBuf exSol2 (i + 1) = 0 := by simp [rawSum, raw]
    rw [h]
    simp [rhoU, exBuf, exSol2, Cfg.dz, exCfg]
  · intro j h1 h2 k _
    have : j ≠ exCfg.pts - 1 := by omega
    have h0 : j ≠ 0 := by omega
    simp [species, h0, this, upwind, exSol2, exBuf]
  · simp [sumY, exCfg, Yv, exSol2, sum_range_succ, oU, oY]; norm_num

end Verif.OneDim.Flow
