import Verif.OneDim.FlowEx
import Mathlib.Tactic.LinearCombination

/-!
# C54: balances of species, momentum and energy in a solution
-/

namespace Verif.OneDim.Flow

open Finset

section
variable {S : Sys} {rdt : ℝ} {X : Sol} {b : Buf}

/-- Slope of a component over the interval `j`. -/
noncomputable def slope (c : Cfg) (x : Sol) (n j : ℕ) : ℝ := (x (j + 1) n - x j n) / (c.z (j + 1) - c.z j)

/-- Conductive heat flux in the interval `j` (Fourier's law). -/
noncomputable def heatFlux (c : Cfg) (b : Buf) (x : Sol) (j : ℕ) : ℝ :=
  -(b.tc j).tcon * slope c x oT j

/-- Stress of the radial momentum in the interval `j` (Newton's law). -/
noncomputable def stress (c : Cfg) (b : Buf) (x : Sol) (j : ℕ) : ℝ :=
  (b.tc j).visc * slope c x oV j

/-- Width of the cell around the point `j`. -/
noncomputable def width (c : Cfg) (j : ℕ) : ℝ := (c.z (j + 1) - c.z (j - 1)) / 2

/-- **C54** The conduction term is the divergence of the heat flux of Fourier's law. -/
theorem conduction_flux (c : Cfg) (b : Buf) (x : Sol) (j : ℕ) (h0 : 0 < j)
    (hz : c.z (j - 1) < c.z (j + 1)) :
    conduction c b x j * width c j = heatFlux c b x j - heatFlux c b x (j - 1) := by
  have h : c.z (j + 1) - c.z (j - 1) ≠ 0 := by linarith
  unfold conduction heatFlux slope width
  rw [Nat.sub_add_cancel h0]
  field_simp
  ring

/-- **C54** The shear term is the divergence of the viscous stress. -/
theorem shear_stress (c : Cfg) (b : Buf) (x : Sol) (j : ℕ) (h0 : 0 < j)
    (hz : c.z (j - 1) < c.z (j + 1)) :
    shear c b x j * width c j = stress c b x j - stress c b x (j - 1) := by
  have h : c.z (j + 1) - c.z (j - 1) ≠ 0 := by linarith
  unfold shear stress slope width
  rw [Nat.sub_add_cancel h0]
  field_simp

/-- **C54** Heat conducted out of a part of the flow is the difference of the fluxes at its ends. -/
theorem conduction_telescopes (c : Cfg) (b : Buf) (x : Sol)
    (hz : ∀ i, i + 1 < c.pts → c.z i < c.z (i + 1)) (n : ℕ) (hn : n + 1 < c.pts) :
    ∑ i ∈ range n, conduction c b x (i + 1) * width c (i + 1)
      = heatFlux c b x n - heatFlux c b x 0 := by
  rw [← sum_range_sub (heatFlux c b x)]
  apply sum_congr rfl
  intro i hi
  have hi := mem_range.mp hi
  rw [conduction_flux c b x (i + 1) (by omega)
    ((hz i (by omega)).trans (hz (i + 1) (by omega)))]
  rfl

/-- The upwind derivative for flow to the right and to the left. -/
theorem upwind_right (c : Cfg) (x : Sol) (n j : ℕ) (h0 : 0 < j) (h : 0 < x j oU) :
    upwind c x n j = slope c x n (j - 1) := by
  unfold upwind slope jloc Cfg.dz
  rw [if_pos h, Nat.sub_add_cancel h0]

theorem upwind_left (c : Cfg) (x : Sol) (n j : ℕ) (h : ¬0 < x j oU) :
    upwind c x n j = slope c x n j := by
  unfold upwind slope jloc Cfg.dz
  rw [if_neg h, Nat.add_sub_cancel]

/-- The gradient of the enthalpies is taken over the interval of the upwind derivative. -/
theorem gradH_right (c : Cfg) (b : Buf) (x : Sol) (j k : ℕ) (h0 : 0 < j) (h : 0 < x j oU)
    (hz : c.z (j - 1) < c.z j) :
    gradH c b x j k * (c.z j - c.z (j - 1)) = b.hk j k - b.hk (j - 1) k := by
  have hne : c.z j - c.z (j - 1) ≠ 0 := by linarith
  unfold gradH jloc Cfg.dz
  rw [if_pos h, Nat.sub_add_cancel h0, div_mul_cancel₀ _ hne]

theorem gradH_left (c : Cfg) (b : Buf) (x : Sol) (j k : ℕ) (h : ¬0 < x j oU)
    (hz : c.z j < c.z (j + 1)) :
    gradH c b x j k * (c.z (j + 1) - c.z j) = b.hk (j + 1) k - b.hk j k := by
  have hne : c.z (j + 1) - c.z j ≠ 0 := by linarith
  unfold gradH jloc Cfg.dz
  rw [if_neg h, Nat.add_sub_cancel, div_mul_cancel₀ _ hne]

/-- **C54** Energy balance at an interior point of a steady solution with the energy equation:
convected, conducted, chemical and diffused heat and radiation cancel. -/
theorem energy_balance (h : IsRoot S 0 X b) (j : ℕ) (h0 : 0 < j) (h1 : j + 1 < S.c.pts)
    (he : S.c.doE j = true) (hr : dens S.c (flowPart X) j ≠ 0)
    (hcp : (gasAt S.c (flowPart X) j).cp ≠ 0) (hz : S.c.z (j - 1) < S.c.z (j + 1)) :
    (massFlux S.c (flowPart X) j * (gasAt S.c (flowPart X) j).cp * upwind S.c (flowPart X) oT j
      + ∑ k ∈ range S.c.nsp, (gasAt S.c (flowPart X) j).wdot k * (gasAt S.c (flowPart X) j).hk k
      + ∑ k ∈ range S.c.nsp, ((bufAfter S 0 X b).flux (j - 1) k + (bufAfter S 0 X b).flux j k) / 2
          / S.c.wt k * gradH S.c (bufAfter S 0 X b) (flowPart X) j k
      + (bufAfter S 0 X b).q j) * width S.c j
      + (heatFlux S.c (bufAfter S 0 X b) (flowPart X) j
          - heatFlux S.c (bufAfter S 0 X b) (flowPart X) (j - 1)) = 0 := by
  have hc := root_inner h j oT h0 h1
  have hrho := buf_rho S 0 X b j (by omega)
  have hbuf : (bufAfter S 0 X b).cp j = (gasAt S.c (flowPart X) j).cp ∧
      (bufAfter S 0 X b).hk j = (gasAt S.c (flowPart X) j).hk ∧
      (bufAfter S 0 X b).wdot j = (gasAt S.c (flowPart X) j).wdot := by
    have h1 : max 0 1 - 1 ≤ j ∧ j ≤ min (S.c.pts - 1 + 1) (S.c.pts - 1) := by omega
    simp only [bufAfter, evalSys, evalFlow, skipped, Bool.false_eq_true, if_false, evalRange,
      Option.isNone_none, updateProperties, Bool.true_or, if_true]
    cases S.c.rad <;> simp only [computeRadiation, updateDiffFluxes, updateTransport, updateThermo,
      Bool.false_eq_true, if_false, if_true, if_pos h1] <;> simp
  obtain ⟨b1, b2, b3⟩ := hbuf
  have hss : energySS S.c (bufAfter S 0 X b) (flowPart X) j = 0 := by
    have : energy S.c (bufAfter S 0 X b) 0 (flowPart X) j = 0 := hc
    unfold energy at this
    rw [if_neg (by omega), if_neg (by omega), if_pos he] at this
    split_ifs at this <;> simpa using this
  rw [← conduction_flux S.c _ _ j h0 hz, ← add_mul]
  have hm : rhoU (bufAfter S 0 X b) (flowPart X) j = massFlux S.c (flowPart X) j :=
    buf_rhoU S 0 X b j (by omega)
  unfold energySS at hss
  rw [hm, b1, b2, b3, hrho, ← sub_div, div_eq_zero_iff] at hss
  have hne : dens S.c (flowPart X) j * (gasAt S.c (flowPart X) j).cp ≠ 0 := mul_ne_zero hr hcp
  have hnum := hss.resolve_right hne
  rw [sum_add_distrib] at hnum
  have e : ∑ k ∈ range S.c.nsp, (1 / 2 * ((bufAfter S 0 X b).flux (j - 1) k
        + (bufAfter S 0 X b).flux j k) * gradH S.c (bufAfter S 0 X b) (flowPart X) j k / S.c.wt k)
      = ∑ k ∈ range S.c.nsp, ((bufAfter S 0 X b).flux (j - 1) k + (bufAfter S 0 X b).flux j k) / 2
          / S.c.wt k * gradH S.c (bufAfter S 0 X b) (flowPart X) j k :=
    sum_congr rfl fun k _ => by ring
  rw [e] at hnum
  have : massFlux S.c (flowPart X) j * (gasAt S.c (flowPart X) j).cp * upwind S.c (flowPart X) oT j
      + ∑ k ∈ range S.c.nsp, (gasAt S.c (flowPart X) j).wdot k * (gasAt S.c (flowPart X) j).hk k
      + ∑ k ∈ range S.c.nsp, ((bufAfter S 0 X b).flux (j - 1) k + (bufAfter S 0 X b).flux j k) / 2
          / S.c.wt k * gradH S.c (bufAfter S 0 X b) (flowPart X) j k
      + (bufAfter S 0 X b).q j + conduction S.c (bufAfter S 0 X b) (flowPart X) j = 0 := by
    linarith
  rw [this, zero_mul]

/-- **C54** Radial momentum balance at an interior point of a steady strained solution. -/
theorem momentum_balance (h : IsRoot S 0 X b) (j : ℕ) (h0 : 0 < j) (h1 : j + 1 < S.c.pts)
    (hl : S.c.lam = true) (hr : dens S.c (flowPart X) j ≠ 0)
    (hz : S.c.z (j - 1) < S.c.z (j + 1)) :
    (massFlux S.c (flowPart X) j * upwind S.c (flowPart X) oV j
      + dens S.c (flowPart X) j * (flowPart X j oV) ^ 2 + flowPart X j oL) * width S.c j
      = stress S.c (bufAfter S 0 X b) (flowPart X) j
        - stress S.c (bufAfter S 0 X b) (flowPart X) (j - 1) := by
  have hc : momentum S.c (bufAfter S 0 X b) 0 (flowPart X) j = 0 := root_inner h j oV h0 h1
  have hrho := buf_rho S 0 X b j (by omega)
  have hm : rhoU (bufAfter S 0 X b) (flowPart X) j = massFlux S.c (flowPart X) j :=
    buf_rhoU S 0 X b j (by omega)
  rw [← shear_stress S.c _ _ j h0 hz]
  unfold momentum at hc
  rw [if_neg (by simp [hl]), if_neg (by omega), if_neg (by omega), hm, hrho] at hc
  simp only [zero_mul, sub_zero, ite_self] at hc
  have := (div_eq_zero_iff.mp hc).resolve_right hr
  rw [show shear S.c (bufAfter S 0 X b) (flowPart X) j =
    massFlux S.c (flowPart X) j * upwind S.c (flowPart X) oV j
      + dens S.c (flowPart X) j * (flowPart X j oV) ^ 2 + flowPart X j oL by linear_combination this]

/-- **C54** Species balance at an interior point of a steady solution. -/
theorem species_balance (h : IsRoot S 0 X b) (j k : ℕ) (h0 : 0 < j) (h1 : j + 1 < S.c.pts)
    (hk : k < S.c.nsp) (hr : dens S.c (flowPart X) j ≠ 0)
    (hz : S.c.z (j - 1) < S.c.z (j + 1)) :
    massFlux S.c (flowPart X) j * upwind S.c (flowPart X) (oY + k) j * width S.c j
      + ((bufAfter S 0 X b).flux j k - (bufAfter S 0 X b).flux (j - 1) k)
      = S.c.wt k * (gasAt S.c (flowPart X) j).wdot k * width S.c j := by
  have hc := root_inner h j (oY + k) h0 h1
  rw [cell_species _ _ _ _ _ _ hk] at hc
  have hrho := buf_rho S 0 X b j (by omega)
  have hm : rhoU (bufAfter S 0 X b) (flowPart X) j = massFlux S.c (flowPart X) j :=
    buf_rhoU S 0 X b j (by omega)
  have b3 : (bufAfter S 0 X b).wdot j = (gasAt S.c (flowPart X) j).wdot := by
    have h1 : max 0 1 - 1 ≤ j ∧ j ≤ min (S.c.pts - 1 + 1) (S.c.pts - 1) := by omega
    simp only [bufAfter, evalSys, evalFlow, skipped, Bool.false_eq_true, if_false, evalRange,
      Option.isNone_none, updateProperties, Bool.true_or, if_true]
    cases S.c.rad <;> simp only [computeRadiation, updateDiffFluxes, updateTransport, updateThermo,
      Bool.false_eq_true, if_false, if_true, if_pos h1]
  unfold species at hc
  rw [if_neg (by omega), if_neg (by omega), hm, hrho, b3, zero_mul, sub_zero] at hc
  have := (div_eq_zero_iff.mp hc).resolve_right hr
  have hne : S.c.z (j + 1) - S.c.z (j - 1) ≠ 0 := by linarith
  unfold width
  field_simp at this ⊢
  linear_combination -this

/-- **C54** Global species balance of an unstrained flow to the right on a uniform grid: what the
flow takes out less what it brings in (convected and diffused) is what the reactions produce. -/
theorem global_species_balance (h : IsRoot S 0 X b) (h2 : 2 ≤ S.c.pts) (hl : S.c.lam = false)
    (hL : S.L.notSymm) (hR : S.R.plain) (d : ℝ) (hd : 0 < d)
    (hz : ∀ i, i + 1 < S.c.pts → S.c.z (i + 1) = S.c.z i + d)
    (hu : ∀ j, 0 < j → j + 1 < S.c.pts → 0 < flowPart X j oU)
    (hr : ∀ j, j < S.c.pts → dens S.c (flowPart X) j ≠ 0) (k : ℕ) (hk : k < S.c.nsp) (n : ℕ)
    (hn : n + 1 < S.c.pts) :
    (massFlux S.c (flowPart X) 0 * Yv (flowPart X) n k + (bufAfter S 0 X b).flux n k)
      - (massFlux S.c (flowPart X) 0 * Yv (flowPart X) 0 k + (bufAfter S 0 X b).flux 0 k)
      = ∑ i ∈ range n, S.c.wt k * (gasAt S.c (flowPart X) (i + 1)).wdot k * d := by
  have hz' : ∀ i, i + 1 < S.c.pts → S.c.z i < S.c.z (i + 1) := fun i hi => by rw [hz i hi]; linarith
  have hm := mass_flux_const h h2 hl hL hR hz'
  induction n with
  | zero => simp
  | succ n ih =>
    rw [sum_range_succ, ← ih (by omega)]
    have hb := species_balance h (n + 1) k (by omega) hn hk (hr _ (by omega))
      ((hz' n (by omega)).trans (hz' (n + 1) hn))
    have hw : width S.c (n + 1) = d := by
      unfold width
      rw [Nat.add_sub_cancel, hz (n + 1) hn, hz n (by omega)]
      ring
    have hs : upwind S.c (flowPart X) (oY + k) (n + 1) * d
        = Yv (flowPart X) (n + 1) k - Yv (flowPart X) n k := by
      rw [upwind_right _ _ _ _ (by omega) (hu _ (by omega) hn)]
      unfold slope Yv
      rw [Nat.add_sub_cancel, hz n (by omega), add_sub_cancel_left]
      exact div_mul_cancel₀ _ hd.ne'
    rw [hw, hm _ (by omega), mul_assoc, hs, Nat.add_sub_cancel] at hb
    linear_combination hb

end

/-! ## Examples -/

example : massFlux (uniSys false false false 3 .outlet).c (flowPart (uniX false 3)) 2
      * upwind (uniSys false false false 3 .outlet).c (flowPart (uniX false 3)) (oY + 1) 2
      * width (uniSys false false false 3 .outlet).c 2
    + ((bufAfter (uniSys false false false 3 .outlet) 0 (uniX false 3) exBuf).flux 2 1
      - (bufAfter (uniSys false false false 3 .outlet) 0 (uniX false 3) exBuf).flux (2 - 1) 1)
    = (uniSys false false false 3 .outlet).c.wt 1
      * (gasAt (uniSys false false false 3 .outlet).c (flowPart (uniX false 3)) 2).wdot 1
      * width (uniSys false false false 3 .outlet).c 2 :=
  species_balance (uni_outlet false 3) 2 1 (by omega) (by decide) (by decide)
    (by simp [dens, gasAt, uniSys, uniCfg, exCfg]) (by norm_num [uniSys, uniCfg, exCfg])

example : (massFlux (uniSys false false false 3 .outlet).c (flowPart (uniX false 3)) 0
        * Yv (flowPart (uniX false 3)) 2 1
      + (bufAfter (uniSys false false false 3 .outlet) 0 (uniX false 3) exBuf).flux 2 1)
    - (massFlux (uniSys false false false 3 .outlet).c (flowPart (uniX false 3)) 0
        * Yv (flowPart (uniX false 3)) 0 1
      + (bufAfter (uniSys false false false 3 .outlet) 0 (uniX false 3) exBuf).flux 0 1)
    = ∑ i ∈ range 2, (uniSys false false false 3 .outlet).c.wt 1
        * (gasAt (uniSys false false false 3 .outlet).c (flowPart (uniX false 3)) (i + 1)).wdot 1 * 1 :=
  global_species_balance (uni_outlet false 3) (by decide) rfl trivial trivial 1 one_pos
    (fun i _ => by simp [uniSys, uniCfg, exCfg])
    (fun j _ hj => by
      have hj' : j < 4 := by simp [uniSys, uniCfg, exCfg] at hj; omega
      rw [uni_val false 3 j _ hj']; simp [oU])
    (fun j _ => by simp [dens, gasAt, uniSys, uniCfg, exCfg]) 1 (by decide) 2 (by decide)

example : (massFlux (uniCfg true false false) (flowPart (uniX false 3)) 2
      * upwind (uniCfg true false false) (flowPart (uniX false 3)) oV 2
      + dens (uniCfg true false false) (flowPart (uniX false 3)) 2
        * (flowPart (uniX false 3) 2 oV) ^ 2 + flowPart (uniX false 3) 2 oL)
      * width (uniCfg true false false) 2
    = stress (uniCfg true false false) (bufAfter
      (uniSys true false false 3 (.inlet 300 0 (-3) (fun _ => 1 / 2))) 0 (uniX false 3) exBuf) (flowPart (uniX false 3)) 2
      - stress (uniCfg true false false) (bufAfter
      (uniSys true false false 3 (.inlet 300 0 (-3) (fun _ => 1 / 2))) 0 (uniX false 3) exBuf)
        (flowPart (uniX false 3)) (2 - 1) :=
  momentum_balance (uni_counterflow false 3) 2 (by omega) (by decide) rfl
    (by simp [dens, gasAt, uniSys, uniCfg, exCfg]) (by norm_num [uniSys, uniCfg, exCfg])

/-- The hypotheses of `energy_balance` hold for the example. -/
example : (uniSys false false false 3 .outlet).c.doE 2 = true ∧
    dens (uniSys false false false 3 .outlet).c (flowPart (uniX false 3)) 2 ≠ 0 ∧
    (gasAt (uniSys false false false 3 .outlet).c (flowPart (uniX false 3)) 2).cp ≠ 0 :=
  ⟨rfl, by simp [dens, gasAt, uniSys, uniCfg, exCfg], by simp [gasAt, uniSys, uniCfg, exCfg]⟩

end Verif.OneDim.Flow
