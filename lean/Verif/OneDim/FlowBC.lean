import Verif.OneDim.FlowSums

/-!
# C54: what a solution of the discretised flow equations satisfies
-/

namespace Verif.OneDim.Flow

open Finset

/-- Density at a point, as function of the solution. -/
noncomputable def dens (c : Cfg) (x : Sol) (j : ℕ) : ℝ := (gasAt c x j).rho

/-- Mass flux at a point, as function of the solution. -/
noncomputable def massFlux (c : Cfg) (x : Sol) (j : ℕ) : ℝ := dens c x j * x j oU

/-- All residuals of the stack vanish; `b` are the work arrays before the evaluation. -/
def IsRoot (S : Sys) (rdt : ℝ) (X : Sol) (b : Buf) : Prop :=
  ∀ p n, (evalSys S rdt none X b).2 p n = 0

/-- The work arrays after the evaluation. -/
noncomputable def bufAfter (S : Sys) (rdt : ℝ) (X : Sol) (b : Buf) : Buf :=
  (evalSys S rdt none X b).1

section
variable {S : Sys} {rdt : ℝ} {X : Sol} {b : Buf}

theorem evalFlow_full (c : Cfg) (first : ℕ) (rdt : ℝ) (x : Sol) (b : Buf) (r : Sol) (j n : ℕ)
    (hj : j ≤ c.pts - 1) :
    (evalFlow c first rdt none x b r).2 j n
      = cell c (evalFlow c first rdt none x b r).1 rdt x j n := by
  simp [evalFlow, skipped, evalRange, hj]

theorem root_inner (h : IsRoot S rdt X b) (j n : ℕ) (h0 : 0 < j) (h1 : j + 1 < S.c.pts) :
    cell S.c (bufAfter S rdt X b) rdt (flowPart X) j n = 0 := by
  have := h (j + 1) n
  simp only [evalSys, sysRes] at this
  rw [if_neg (by omega), if_neg (by omega), if_neg (by omega), if_neg (by omega),
    if_pos (by omega), Nat.add_sub_cancel, evalFlow_full _ _ _ _ _ _ _ _ (by omega)] at this
  exact this

theorem root_left (h : IsRoot S rdt X b) (h2 : 2 ≤ S.c.pts) (n : ℕ) :
    leftRb S.c S.L (bufAfter S rdt X b) (flowPart X)
      (cell S.c (bufAfter S rdt X b) rdt (flowPart X) 0) n = 0 := by
  have := h 1 n
  simp only [evalSys, sysRes] at this
  rw [if_neg (by omega), if_neg (by omega), if_pos True.intro] at this
  simp only [bdryActive, if_true] at this
  have e : (evalFlow S.c 1 rdt none (flowPart X) b (fun _ _ => 0)).2 0 =
      cell S.c (bufAfter S rdt X b) rdt (flowPart X) 0 :=
    funext fun n => evalFlow_full _ _ _ _ _ _ _ _ (by omega)
  rw [e] at this
  exact this

theorem root_right (h : IsRoot S rdt X b) (h2 : 2 ≤ S.c.pts) (n : ℕ) :
    rightRb S.c S.R (bufAfter S rdt X b) (flowPart X) (X (S.c.pts + 1))
      (cell S.c (bufAfter S rdt X b) rdt (flowPart X) (S.c.pts - 1)) n = 0 := by
  have := h S.c.pts n
  simp only [evalSys, sysRes] at this
  rw [if_neg (by omega), if_neg (by omega), if_neg (by omega), if_pos True.intro] at this
  simp only [bdryActive, if_true] at this
  have e : (evalFlow S.c 1 rdt none (flowPart X) b (fun _ _ => 0)).2 (S.c.pts - 1) =
      cell S.c (bufAfter S rdt X b) rdt (flowPart X) (S.c.pts - 1) :=
    funext fun n => evalFlow_full _ _ _ _ _ _ _ _ (by omega)
  rw [e] at this
  exact this

theorem root_own_left (h : IsRoot S rdt X b) (n : ℕ) :
    ownRes S.L rdt (X 1) (X 0) n = 0 := by
  have := h 0 n
  simp only [evalSys, sysRes] at this
  simpa [bdryActive] using this

theorem root_own_right (h : IsRoot S rdt X b) (n : ℕ) :
    ownRes S.R rdt (X S.c.pts) (X (S.c.pts + 1)) n = 0 := by
  have := h (S.c.pts + 1) n
  simp only [evalSys, sysRes] at this
  simpa [bdryActive] using this

/-- The densities used are those of the solution. -/
theorem buf_rho (S : Sys) (rdt : ℝ) (X : Sol) (b : Buf) (j : ℕ) (hj : j < S.c.pts) :
    (bufAfter S rdt X b).rho j = dens S.c (flowPart X) j := by
  have h1 : j ≤ min (S.c.pts - 1 + 1) (S.c.pts - 1) := by omega
  have h2 : max 0 1 - 1 ≤ j := by omega
  simp only [bufAfter, evalSys, evalFlow, skipped, Bool.false_eq_true, if_false, evalRange,
    Option.isNone_none, updateProperties, Bool.true_or, if_true]
  cases S.c.rad <;>
    simp [computeRadiation, updateDiffFluxes, updateTransport, updateThermo, dens] <;> omega

theorem buf_rhoU (S : Sys) (rdt : ℝ) (X : Sol) (b : Buf) (j : ℕ) (hj : j < S.c.pts) :
    rhoU (bufAfter S rdt X b) (flowPart X) j = massFlux S.c (flowPart X) j := by
  rw [rhoU, buf_rho S rdt X b j hj, massFlux]

/-- The work arrays before the calculation of the fluxes and of the radiation. -/
noncomputable def bufPre (S : Sys) (X : Sol) (b : Buf) : Buf :=
  let b2 := updateTransport S.c (flowPart X) (max 0 1 - 1) (min (S.c.pts - 1 + 1) (S.c.pts - 1))
    (updateThermo S.c (flowPart X) (max 0 1 - 1) (min (S.c.pts - 1 + 1) (S.c.pts - 1)) b)
  { b2 with kL := maxIdx (Yv (flowPart X) 0) S.c.nsp,
            kR := maxIdx (Yv (flowPart X) (S.c.pts - 1)) S.c.nsp }

theorem rawFlux_congr (c : Cfg) (b b' : Buf) (x : Sol) (j k : ℕ) (ht : b.tc j = b'.tc j)
    (hw : b.wtm j = b'.wtm j) (hw' : b.wtm (j + 1) = b'.wtm (j + 1)) :
    rawFlux c b x j k = rawFlux c b' x j k := by
  unfold rawFlux Xf
  rw [ht, hw, hw']

theorem fluxCol_congr (c : Cfg) (b b' : Buf) (x : Sol) (j : ℕ) (ht : b.tc j = b'.tc j)
    (hw : b.wtm j = b'.wtm j) (hw' : b.wtm (j + 1) = b'.wtm (j + 1)) :
    fluxCol c b x j = fluxCol c b' x j := by
  funext k
  have h : ∀ k, rawFlux c b x j k = rawFlux c b' x j k := fun k =>
    rawFlux_congr c b b' x j k ht hw hw'
  unfold fluxCol diffFlux
  simp only [h]
  unfold Xf
  rw [ht, hw, hw']

theorem buf_flux (S : Sys) (rdt : ℝ) (X : Sol) (b : Buf) (j : ℕ) (hj : j + 1 < S.c.pts) :
    (bufAfter S rdt X b).flux j = fluxCol S.c (bufAfter S rdt X b) (flowPart X) j := by
  have h1 : j < min (S.c.pts - 1 + 1) (S.c.pts - 1) := by omega
  have e : (bufAfter S rdt X b).flux j = fluxCol S.c (bufPre S X b) (flowPart X) j := by
    simp only [bufAfter, evalSys, evalFlow, skipped, Bool.false_eq_true, if_false, evalRange,
      Option.isNone_none, updateProperties, Bool.true_or, if_true]
    cases S.c.rad <;> simp [computeRadiation, updateDiffFluxes, bufPre] <;> omega
  rw [e]
  apply fluxCol_congr <;>
  · simp only [bufAfter, evalSys, evalFlow, skipped, Bool.false_eq_true, if_false, evalRange,
      Option.isNone_none, updateProperties, Bool.true_or, if_true]
    cases S.c.rad <;> simp [computeRadiation, updateDiffFluxes, bufPre]

theorem buf_kL (S : Sys) (rdt : ℝ) (X : Sol) (b : Buf) :
    (bufAfter S rdt X b).kL = maxIdx (Yv (flowPart X) 0) S.c.nsp := by
  simp only [bufAfter, evalSys, evalFlow, skipped, Bool.false_eq_true, if_false, evalRange,
    Option.isNone_none, updateProperties, Bool.true_or, if_true]
  cases S.c.rad <;> simp [computeRadiation, updateDiffFluxes]

theorem buf_kR (S : Sys) (rdt : ℝ) (X : Sol) (b : Buf) :
    (bufAfter S rdt X b).kR = maxIdx (Yv (flowPart X) (S.c.pts - 1)) S.c.nsp := by
  simp only [bufAfter, evalSys, evalFlow, skipped, Bool.false_eq_true, if_false, evalRange,
    Option.isNone_none, updateProperties, Bool.true_or, if_true]
  cases S.c.rad <;> simp [computeRadiation, updateDiffFluxes]

/-- `max_element` returns the index of a largest entry, the first one of them. -/
theorem maxIdx_spec (y : ℕ → ℝ) (n : ℕ) (hn : 0 < n) :
    maxIdx y n < n ∧ (∀ k < n, y k ≤ y (maxIdx y n)) ∧ ∀ k < maxIdx y n, y k < y (maxIdx y n) := by
  induction n with
  | zero => omega
  | succ n ih =>
    rw [maxIdx]
    by_cases h0 : n = 0
    · subst h0
      simp [maxIdx]
    · obtain ⟨i1, i2, i3⟩ := ih (by omega)
      by_cases h : y (maxIdx y n) < y n
      · rw [if_pos h]
        refine ⟨by omega, fun k hk => ?_, fun k hk => lt_of_le_of_lt (i2 k hk) h⟩
        rcases Nat.lt_succ_iff_lt_or_eq.mp hk with hk | rfl
        · exact (i2 k hk).trans h.le
        · exact le_rfl
      · rw [if_neg h]
        refine ⟨by omega, fun k hk => ?_, i3⟩
        rcases Nat.lt_succ_iff_lt_or_eq.mp hk with hk | rfl
        · exact i2 k hk
        · exact not_lt.mp h

/-! ## Mass flux of flows with a fixed cross section -/

/-- Boundaries at the right that leave continuity and spread rate alone. -/
def Bdry.plain : Bdry → Prop
  | .inlet .. => False
  | .symm => False
  | _ => True

/-- Boundaries at the left that leave the spread rate alone (an inlet does so in flows without
strain). -/
def Bdry.notSymm : Bdry → Prop
  | .symm => False
  | _ => True

theorem right_plain (c : Cfg) {B : Bdry} (hB : B.plain) (b : Buf) (x : Sol) (cov rb : ℕ → ℝ)
    (n : ℕ) (hn : n = oU ∨ n = oV) : rightRb c B b x cov rb n = rb n := by
  rcases hn with rfl | rfl <;> cases B <;> simp_all [rightRb, Bdry.plain, oY, oT, oU, oV]

theorem left_V (c : Cfg) {B : Bdry} (hB : B.notSymm) (hl : c.lam = false) (b : Buf) (x : Sol)
    (rb : ℕ → ℝ) : leftRb c B b x rb oV = rb oV := by
  cases B <;> simp_all [leftRb, Bdry.notSymm, oT, oV, oL]

/-- In flows without strain the spread rate vanishes. -/
theorem root_V (h : IsRoot S rdt X b) (h2 : 2 ≤ S.c.pts) (hl : S.c.lam = false)
    (hL : S.L.notSymm) (hR : S.R.plain) (j : ℕ) (hj : j < S.c.pts) : flowPart X j oV = 0 := by
  have hc : ∀ i, cell S.c (bufAfter S rdt X b) rdt (flowPart X) i oV = flowPart X i oV := by
    intro i; simp [cell, momentum, hl]
  by_cases h0 : j = 0
  · subst h0
    have := root_left h h2 oV
    rw [left_V _ hL hl, hc] at this
    exact this
  · by_cases h1 : j = S.c.pts - 1
    · subst h1
      have := root_right h h2 oV
      rw [right_plain _ hR _ _ _ _ _ (Or.inr rfl), hc] at this
      exact this
    · have := root_inner h j oV (by omega) (by omega)
      rw [hc] at this
      exact this

/-- **C54** In a free or unstrained flow the mass flux is the same at all points, whatever the
position of the fixed point. -/
theorem mass_flux_const (h : IsRoot S rdt X b) (h2 : 2 ≤ S.c.pts) (hl : S.c.lam = false)
    (hL : S.L.notSymm) (hR : S.R.plain) (hz : ∀ i, i + 1 < S.c.pts → S.c.z i < S.c.z (i + 1))
    (j : ℕ) (hj : j < S.c.pts) :
    massFlux S.c (flowPart X) j = massFlux S.c (flowPart X) 0 := by
  have hdz : ∀ i, i + 1 < S.c.pts → S.c.dz i ≠ 0 := fun i hi =>
    ne_of_gt (sub_pos.mpr (hz i hi))
  have hV := root_V h h2 hl hL hR
  -- neighbouring points
  have key : ∀ i, i + 1 < S.c.pts →
      massFlux S.c (flowPart X) (i + 1) = massFlux S.c (flowPart X) i := by
    intro i hi
    have eU : ∀ k, k < S.c.pts → rhoU (bufAfter S rdt X b) (flowPart X) k =
        massFlux S.c (flowPart X) k := fun k hk => buf_rhoU S rdt X b k hk
    have hneg : ∀ s t d : ℝ, d ≠ 0 → -(s - t) / d = 0 → s = t := by
      intro s t d hd hst
      rcases div_eq_zero_iff.mp hst with hst | hst
      · linarith
      · exact absurd hst hd
    by_cases hlast : i + 1 = S.c.pts - 1
    · have := root_right h h2 oU
      rw [right_plain _ hR _ _ _ _ _ (Or.inl rfl), ← hlast] at this
      simp only [cell, continuity] at this
      rw [if_neg (by omega), if_pos hlast, if_neg (by simp [hl]), Nat.add_sub_cancel,
        eU _ hi, eU _ (by omega)] at this
      linarith
    · by_cases hf : S.c.free = true
      · by_cases hzf : S.c.z (i + 1) > S.c.zfixed
        · have := root_inner h (i + 1) oU (by omega) (by omega)
          simp only [cell, continuity] at this
          rw [if_neg (by omega), if_neg hlast, if_neg (by simp [hl]), if_pos hf, if_pos hzf,
            Nat.add_sub_cancel, eU _ hi, eU _ (by omega)] at this
          exact hneg _ _ _ (hdz i hi) this
        · have hzi : S.c.z i < S.c.zfixed := lt_of_lt_of_le (hz i hi) (not_lt.mp hzf)
          by_cases h0 : i = 0
          · subst h0
            have := root_left h h2 oU
            have e : ∀ (B : Bdry) rb, leftRb S.c B (bufAfter S rdt X b) (flowPart X) rb oU
                = rb oU := by
              intro B rb
              cases B <;> simp [leftRb, oU, oT, oL, oV, hf]
            rw [e] at this
            simp only [cell, continuity] at this
            rw [if_pos True.intro, eU _ (by omega), eU _ (by omega), hV _ (by omega),
              hV _ (by omega), mul_zero, mul_zero, add_zero, sub_zero] at this
            exact hneg _ _ _ (hdz 0 hi) this
          · have := root_inner h i oU (by omega) (by omega)
            simp only [cell, continuity] at this
            rw [if_neg h0, if_neg (by omega), if_neg (by simp [hl]), if_pos hf,
              if_neg (not_lt.mpr hzi.le), if_neg (ne_of_lt hzi), eU _ hi, eU _ (by omega)] at this
            exact hneg _ _ _ (hdz i hi) this
      · have := root_inner h (i + 1) oU (by omega) (by omega)
        simp only [cell, continuity] at this
        rw [if_neg (by omega), if_neg hlast, if_neg (by simp [hl]), if_neg hf,
          Nat.add_sub_cancel, eU _ hi, eU _ (by omega)] at this
        linarith
  induction j with
  | zero => rfl
  | succ j ih => rw [key j hj, ih (by omega)]

/-- **C54** A free flame has the prescribed temperature at the fixed point. -/
theorem free_fixed_temperature (h : IsRoot S rdt X b) (hl : S.c.lam = false)
    (hf : S.c.free = true) (j : ℕ) (h0 : 0 < j) (h1 : j + 1 < S.c.pts)
    (hz : S.c.z j = S.c.zfixed) (he : S.c.doE j = true) : flowPart X j oT = S.c.tfixed := by
  have := root_inner h j oU h0 h1
  simp only [cell, continuity] at this
  rw [if_neg (by omega), if_neg (by omega), if_neg (by simp [hl]), if_pos hf,
    if_neg (by rw [hz]; exact lt_irrefl _), if_pos hz, if_pos he] at this
  linarith

/-- **C54** The mass flux of a burner is the one of its inlet. -/
theorem burner_mass_flux (h : IsRoot S rdt X b) (h2 : 2 ≤ S.c.pts) (hl : S.c.lam = false)
    (hf : S.c.free = false) {temp V0 mdot : ℝ} {yin : ℕ → ℝ}
    (hL : S.L = .inlet temp V0 mdot yin) : massFlux S.c (flowPart X) 0 = mdot := by
  have := root_left h h2 oU
  rw [hL] at this
  simp only [leftRb, oU, oT, oL, oV, hf, hl] at this
  norm_num at this
  rw [buf_rho S rdt X b 0 (by omega)] at this
  unfold massFlux
  linarith

/-! ## Strained flows -/

theorem left_U_strained (c : Cfg) (B : Bdry) (hl : c.lam = true) (b : Buf) (x : Sol)
    (rb : ℕ → ℝ) : leftRb c B b x rb oU = rb oU := by
  cases B <;> simp [leftRb, oU, oT, oL, oV, hl]

/-- **C54** The axial mass flux changes by what leaves radially: discrete mass balance between the
left end and any point. -/
theorem strained_balance (h : IsRoot S rdt X b) (h2 : 2 ≤ S.c.pts) (hl : S.c.lam = true)
    (hz : ∀ i, i + 1 < S.c.pts → S.c.z i < S.c.z (i + 1)) (j : ℕ) (hj : j < S.c.pts) :
    massFlux S.c (flowPart X) j = massFlux S.c (flowPart X) 0
      - ∑ i ∈ range j, (S.c.z (i + 1) - S.c.z i) *
          (dens S.c (flowPart X) (i + 1) * flowPart X (i + 1) oV
            + dens S.c (flowPart X) i * flowPart X i oV) := by
  have key : ∀ i, i + 1 < S.c.pts → massFlux S.c (flowPart X) (i + 1) =
      massFlux S.c (flowPart X) i - (S.c.z (i + 1) - S.c.z i) *
          (dens S.c (flowPart X) (i + 1) * flowPart X (i + 1) oV
            + dens S.c (flowPart X) i * flowPart X i oV) := by
    intro i hi
    have hd : S.c.dz i ≠ 0 := ne_of_gt (sub_pos.mpr (hz i hi))
    have e : -(massFlux S.c (flowPart X) (i + 1) - massFlux S.c (flowPart X) i) / S.c.dz i
        - (dens S.c (flowPart X) (i + 1) * flowPart X (i + 1) oV
            + dens S.c (flowPart X) i * flowPart X i oV) = 0 := by
      rw [← buf_rhoU S rdt X b _ hi, ← buf_rhoU S rdt X b i (by omega),
        ← buf_rho S rdt X b _ hi, ← buf_rho S rdt X b i (by omega)]
      by_cases h0 : i = 0
      · subst h0
        have := root_left h h2 oU
        rw [left_U_strained _ _ hl] at this
        simpa only [cell, continuity, if_true] using this
      · have := root_inner h i oU (by omega) (by omega)
        simp only [cell, continuity] at this
        rw [if_neg h0, if_neg (by omega), if_pos hl] at this
        exact this
    have e2 := sub_eq_zero.mp e
    rw [div_eq_iff hd] at e2
    unfold Cfg.dz at e2
    linarith
  induction j with
  | zero => simp
  | succ j ih => rw [sum_range_succ, key j hj, ih (by omega)]; ring

theorem left_L (c : Cfg) (B : Bdry) (ht : c.two = true) (b : Buf) (x : Sol)
    (rb : ℕ → ℝ) : leftRb c B b x rb oL = rb oL := by
  cases B <;> simp [leftRb, oT, oL, oV, ht]

theorem right_L (c : Cfg) (B : Bdry) (b : Buf) (x : Sol) (cov : ℕ → ℝ)
    (rb : ℕ → ℝ) : rightRb c B b x cov rb oL = rb oL := by
  cases B <;> simp [rightRb, oT, oL, oV, oU, oY]

theorem left_Uo (c : Cfg) (B : Bdry) (b : Buf) (x : Sol)
    (rb : ℕ → ℝ) : leftRb c B b x rb oUo = rb oUo := by
  cases B <;> simp [leftRb, oT, oL, oV, oUo, oU, oY]

theorem right_Uo (c : Cfg) (B : Bdry) (b : Buf) (x : Sol) (cov : ℕ → ℝ)
    (rb : ℕ → ℝ) : rightRb c B b x cov rb oUo = rb oUo := by
  cases B <;> simp [rightRb, oT, oUo, oV, oU, oY]

/-- A quantity tied to its left or right neighbour depending on the side of a point `zc` is
constant. -/
theorem const_of_sides (pts : ℕ) (z : ℕ → ℝ) (zc : ℝ) (v : ℕ → ℝ)
    (hz : ∀ i, i + 1 < pts → z i < z (i + 1)) (hleft : v 1 = v 0)
    (hright : 2 ≤ pts → v (pts - 1) = v (pts - 1 - 1))
    (hgt : ∀ j, 0 < j → j + 1 < pts → zc < z j → v j = v (j - 1))
    (hlt : ∀ j, 0 < j → j + 1 < pts → z j < zc → v j = v (j + 1)) (j : ℕ) (hj : j < pts) :
    v j = v 0 := by
  induction j with
  | zero => rfl
  | succ j ih =>
    rw [← ih (by omega)]
    by_cases hlast : j + 1 = pts - 1
    · have := hright (by omega)
      rw [← hlast] at this
      simpa using this
    · by_cases h : zc < z (j + 1)
      · simpa using hgt (j + 1) (by omega) (by omega) h
      · by_cases h0 : j = 0
        · subst h0; exact hleft
        · exact (hlt j (by omega) hj (lt_of_lt_of_le (hz j hj) (not_lt.mp h))).symm

/-- **C54** The radial pressure gradient is the same at all points of a strained flow, with and
without two-point control. -/
theorem lambda_const (h : IsRoot S rdt X b) (h2 : 2 ≤ S.c.pts) (hl : S.c.lam = true)
    (hz : ∀ i, i + 1 < S.c.pts → S.c.z i < S.c.z (i + 1)) (j : ℕ) (hj : j < S.c.pts) :
    flowPart X j oL = flowPart X 0 oL := by
  have hr : flowPart X (S.c.pts - 1) oL = flowPart X (S.c.pts - 1 - 1) oL := by
    have := root_right h h2 oL
    rw [right_L] at this
    simp only [cell, lambdaEq] at this
    rw [if_neg (by simp [hl]), if_neg (by omega), if_pos True.intro] at this
    linarith
  by_cases ht : S.c.two = true
  · refine const_of_sides S.c.pts S.c.z S.c.zLeft (fun j => flowPart X j oL) hz ?_ (fun _ => hr)
      ?_ ?_ j hj
    · have := root_left h h2 oL
      rw [left_L _ _ ht] at this
      simp only [cell, lambdaEq] at this
      rw [if_neg (by simp [hl]), if_pos True.intro, if_pos ht] at this
      show flowPart X 1 oL = flowPart X 0 oL
      linarith
    · intro i h0 h1 hc
      have := root_inner h i oL h0 h1
      simp only [cell, lambdaEq] at this
      rw [if_neg (by simp [hl]), if_neg (by omega), if_neg (by omega), if_pos ht,
        if_neg (ne_of_gt hc), if_pos hc] at this
      show flowPart X i oL = flowPart X (i - 1) oL
      linarith
    · intro i h0 h1 hc
      have := root_inner h i oL h0 h1
      simp only [cell, lambdaEq] at this
      rw [if_neg (by simp [hl]), if_neg (by omega), if_neg (by omega), if_pos ht,
        if_neg (ne_of_lt hc), if_neg (not_lt.mpr hc.le)] at this
      show flowPart X i oL = flowPart X (i + 1) oL
      linarith
  · induction j with
    | zero => rfl
    | succ j ih =>
      rw [← ih (by omega)]
      by_cases hlast : j + 1 = S.c.pts - 1
      · rw [← hlast] at hr; simpa using hr
      · have := root_inner h (j + 1) oL (by omega) (by omega)
        simp only [cell, lambdaEq] at this
        rw [if_neg (by simp [hl]), if_neg (by omega), if_neg hlast, if_neg ht,
          Nat.add_sub_cancel] at this
        linarith

/-- **C54** An inlet at the left of a strained flow imposes mass flux and spread rate. -/
theorem strained_left_inlet (h : IsRoot S rdt X b) (h2 : 2 ≤ S.c.pts) (hl : S.c.lam = true)
    (hf : S.c.free = false) (ht : S.c.two = false) {temp V0 mdot : ℝ} {yin : ℕ → ℝ}
    (hL : S.L = .inlet temp V0 mdot yin) :
    massFlux S.c (flowPart X) 0 = mdot ∧ flowPart X 0 oV = V0 := by
  constructor
  · have := root_left h h2 oL
    rw [hL] at this
    simp only [leftRb, oU, oT, oL, oV, hf, hl, ht, cell, lambdaEq] at this
    norm_num at this
    rw [buf_rhoU S rdt X b 0 (by omega)] at this
    linarith
  · have := root_left h h2 oV
    rw [hL] at this
    simp only [leftRb, oU, oT, oL, oV, hf, hl, cell, momentum] at this
    norm_num at this
    linarith

/-- **C54** An inlet at the right imposes mass flux (towards the left) and spread rate; with
two-point control the velocity is the one of the component `Uo`. -/
theorem strained_right_inlet (h : IsRoot S rdt X b) (h2 : 2 ≤ S.c.pts) (hl : S.c.lam = true)
    {temp V0 mdot : ℝ} {yin : ℕ → ℝ} (hR : S.R = .inlet temp V0 mdot yin) :
    (S.c.two = false → massFlux S.c (flowPart X) (S.c.pts - 1) = -mdot) ∧
    (S.c.two = true → massFlux S.c (flowPart X) (S.c.pts - 1) =
      dens S.c (flowPart X) (S.c.pts - 1) * flowPart X (S.c.pts - 1) oUo) ∧
    flowPart X (S.c.pts - 1) oV = V0 := by
  have hU := root_right h h2 oU
  rw [hR] at hU
  simp only [rightRb, oU, oT, oV, cell, continuity] at hU
  norm_num at hU
  rw [if_neg (by omega), if_pos hl, buf_rhoU S rdt X b _ (by omega)] at hU
  refine ⟨fun ht => ?_, fun ht => ?_, ?_⟩
  · simp only [rightMdot, ht] at hU
    norm_num at hU
    linarith
  · simp only [rightMdot, ht, if_true] at hU
    rw [buf_rho S rdt X b _ (by omega)] at hU
    linarith
  · have := root_right h h2 oV
    rw [hR] at this
    simp only [rightRb, cell, momentum] at this
    rw [if_pos True.intro, if_neg (by simp [hl]), if_neg (by omega), if_pos True.intro] at this
    linarith

/-- **C54** With two-point control the temperatures at the control points are the prescribed ones
and the velocity `Uo` of the right inlet is the same at all points. -/
theorem two_point (h : IsRoot S rdt X b) (h2 : 2 ≤ S.c.pts) (hl : S.c.lam = true)
    (ht : S.c.two = true) (hz : ∀ i, i + 1 < S.c.pts → S.c.z i < S.c.z (i + 1)) :
    (∀ j, 0 < j → j + 1 < S.c.pts → S.c.z j = S.c.zLeft → flowPart X j oT = S.c.tLeft) ∧
    (∀ j, 0 < j → j + 1 < S.c.pts → S.c.z j = S.c.zRight → flowPart X j oT = S.c.tRight) ∧
    ∀ j, j < S.c.pts → flowPart X j oUo = flowPart X 0 oUo := by
  refine ⟨fun j h0 h1 hc => ?_, fun j h0 h1 hc => ?_, fun j hj => ?_⟩
  · have := root_inner h j oL h0 h1
    simp only [cell, lambdaEq] at this
    rw [if_neg (by simp [hl]), if_neg (by omega), if_neg (by omega), if_pos ht, if_pos hc] at this
    linarith
  · have := root_inner h j oUo h0 h1
    simp only [cell, uoEq] at this
    rw [if_neg (by simp [ht]), if_neg (by omega), if_neg (by omega), if_pos hc] at this
    linarith
  · refine const_of_sides S.c.pts S.c.z S.c.zRight (fun j => flowPart X j oUo) hz ?_ (fun _ => ?_)
      ?_ ?_ j hj
    · have := root_left h h2 oUo
      rw [left_Uo] at this
      simp only [cell, uoEq] at this
      rw [if_neg (by simp [ht]), if_pos True.intro] at this
      show flowPart X 1 oUo = flowPart X 0 oUo
      linarith
    · have := root_right h h2 oUo
      rw [right_Uo] at this
      simp only [cell, uoEq] at this
      rw [if_neg (by simp [ht]), if_neg (by omega), if_pos True.intro] at this
      show flowPart X (S.c.pts - 1) oUo = flowPart X (S.c.pts - 1 - 1) oUo
      linarith
    · intro i h0 h1 hc
      have := root_inner h i oUo h0 h1
      simp only [cell, uoEq] at this
      rw [if_neg (by simp [ht]), if_neg (by omega), if_neg (by omega),
        if_neg (ne_of_gt hc), if_pos hc] at this
      show flowPart X i oUo = flowPart X (i - 1) oUo
      linarith
    · intro i h0 h1 hc
      have := root_inner h i oUo h0 h1
      simp only [cell, uoEq] at this
      rw [if_neg (by simp [ht]), if_neg (by omega), if_neg (by omega),
        if_neg (ne_of_lt hc), if_neg (not_lt.mpr hc.le)] at this
      show flowPart X i oUo = flowPart X (i + 1) oUo
      linarith

/-! ## Temperature -/

/-- The temperature a boundary imposes on the adjacent point of the flow: `doE` and `fixedT` are
those of the point, `nb` is the temperature of the next point. -/
noncomputable def wallT (B : Bdry) (doE : Bool) (fixedT nb : ℝ) : Option ℝ :=
  match B with
  | .inlet temp _ _ _ => some (if doE then temp else fixedT)
  | .symm => if doE then some nb else none
  | .outlet => some (if doE then nb else fixedT)
  | .outletRes _ => some (if doE then nb else fixedT)
  | .surf temp => some temp
  | .rsurf s => some s.temp
  | .empty => none

/-- **C54** The temperatures at the ends of the flow are those imposed by the boundaries. -/
theorem wall_temperature (h : IsRoot S rdt X b) (h2 : 2 ≤ S.c.pts) :
    (∀ t, wallT S.R (S.c.doE (S.c.pts - 1)) (S.c.fixedT (S.c.pts - 1))
        (flowPart X (S.c.pts - 1 - 1) oT) = some t → flowPart X (S.c.pts - 1) oT = t) ∧
    (S.L ≠ .outlet → (∀ y, S.L ≠ .outletRes y) →
      ∀ t, wallT S.L (S.c.doE 0) (S.c.fixedT 0) (flowPart X 1 oT) = some t →
        flowPart X 0 oT = t) := by
  have hr := root_right h h2 oT
  have hl := root_left h h2 oT
  have c0 : cell S.c (bufAfter S rdt X b) rdt (flowPart X) 0 oT = flowPart X 0 oT := by
    simp [cell, energy]
  have c1 : cell S.c (bufAfter S rdt X b) rdt (flowPart X) (S.c.pts - 1) oT =
      flowPart X (S.c.pts - 1) oT := by
    simp [cell, energy]
  constructor
  · intro t ht
    by_cases he : S.c.doE (S.c.pts - 1) = true <;> cases hR : S.R <;>
      simp [hR, rightRb, wallT, he, c1, oV] at hr ht <;> linarith
  · intro hno hno2 t ht
    by_cases he : S.c.doE 0 = true <;> cases hL : S.L <;>
      simp [hL, leftRb, wallT, he, c0, oV] at hl ht hno hno2 <;> linarith

/-! ## Species -/

theorem cell_species (c : Cfg) (b : Buf) (rdt : ℝ) (x : Sol) (j k : ℕ) (hk : k < c.nsp) :
    cell c b rdt x j (oY + k) = species c b rdt x j k := by
  have : oY + k = k + 6 := by unfold oY; omega
  rw [this]; simp [cell, hk]

theorem off_ne (k n : ℕ) (h : n < 6) : oY + k ≠ n := by unfold oY; omega

theorem off_in (k nsp : ℕ) (h : k < nsp) : oY ≤ oY + k ∧ oY + k < oY + nsp := by omega

/-- If all but one of the quantities vanish and so does their sum, all of them vanish. -/
theorem last_of_sum (n k0 : ℕ) (f : ℕ → ℝ) (h : ∀ k < n, k ≠ k0 → f k = 0)
    (hs : ∑ k ∈ range n, f k = 0) (k : ℕ) (hk : k < n) : f k = 0 := by
  by_cases e : k = k0
  · subst e
    rw [sum_eq_single k] at hs
    · exact hs
    · intro i hi hne; exact h i (mem_range.mp hi) hne
    · intro hne; exact absurd (mem_range.mpr hk) hne
  · exact h k hk e

/-- The mass flux of a left inlet is the one of the first point. -/
theorem left_mdot (h : IsRoot S rdt X b) (h2 : 2 ≤ S.c.pts)
    {temp V0 mdot : ℝ} {yin : ℕ → ℝ}
    (hL : S.L = .inlet temp V0 mdot yin) :
    leftMdot S.c (bufAfter S rdt X b) mdot (flowPart X 0) = massFlux S.c (flowPart X) 0 := by
  unfold leftMdot
  have hr := buf_rho S rdt X b 0 (by omega)
  by_cases hf : S.c.free = true
  · rw [if_pos hf, hr, massFlux]
  · rw [if_neg hf]
    by_cases hl : S.c.lam = true
    · rw [if_pos hl]
      by_cases ht : S.c.two = true
      · rw [if_pos ht, hr, massFlux]
      · rw [if_neg ht]
        exact ((strained_left_inlet h h2 hl (by simpa using hf) (by simpa using ht) hL).1).symm
    · rw [if_neg hl]
      exact (burner_mass_flux h h2 (by simpa using hl) (by simpa using hf) hL).symm

/-- **C54** At a left inlet convective and diffusive flux of every species (including the one whose
equation is replaced by the sum) equal what the inlet supplies, and the mass fractions add up to
one. -/
theorem inlet_species (h : IsRoot S rdt X b) (h2 : 2 ≤ S.c.pts)
    (hm : S.c.multi = false) (hs : S.c.soret = false)
    {temp V0 mdot : ℝ} {yin : ℕ → ℝ}
    (hL : S.L = .inlet temp V0 mdot yin) (hy : ∑ k ∈ range S.c.nsp, yin k = 1) :
    sumY S.c (flowPart X) 0 = 1 ∧
    ∀ k < S.c.nsp, (bufAfter S rdt X b).flux 0 k
        + massFlux S.c (flowPart X) 0 * Yv (flowPart X) 0 k
      = massFlux S.c (flowPart X) 0 * yin k := by
  have hn : 0 < S.c.nsp := by
    rcases Nat.eq_zero_or_pos S.c.nsp with h0 | h0
    · rw [h0] at hy; simp at hy
    · exact h0
  have hkL : (bufAfter S rdt X b).kL < S.c.nsp := by
    rw [buf_kL]; exact (maxIdx_spec _ _ hn).1
  have hmd := left_mdot h h2 hL
  have hU := buf_rhoU S rdt X b 0 (by omega)
  have eqn : ∀ k < S.c.nsp, (if k = (bufAfter S rdt X b).kL then
        species S.c (bufAfter S rdt X b) rdt (flowPart X) 0 k
      else species S.c (bufAfter S rdt X b) rdt (flowPart X) 0 k
        + massFlux S.c (flowPart X) 0 * yin k) = 0 := by
    intro k hk
    have := root_left h h2 (oY + k)
    rw [hL] at this
    simp only [leftRb] at this
    rw [if_neg (off_ne k _ (by decide)), if_neg (off_ne k _ (by decide)),
      if_neg (off_ne k _ (by decide)), if_neg (off_ne k _ (by decide)), if_pos (off_in k _ hk), hmd,
      cell_species _ _ _ _ _ _ hk, Nat.add_sub_cancel_left] at this
    exact this
  have hsum : sumY S.c (flowPart X) 0 = 1 := by
    have := eqn _ hkL
    rw [if_pos rfl] at this
    simp only [species, if_true] at this
    unfold sumY
    linarith
  have hfz : ∑ k ∈ range S.c.nsp, (bufAfter S rdt X b).flux 0 k = 0 := by
    rw [buf_flux S rdt X b 0 (by omega)]
    exact flux_sum_zero _ _ _ _ hm hs hsum
  refine ⟨hsum, fun k hk => ?_⟩
  have := last_of_sum S.c.nsp (bufAfter S rdt X b).kL
    (fun k => (bufAfter S rdt X b).flux 0 k + massFlux S.c (flowPart X) 0 * Yv (flowPart X) 0 k
      - massFlux S.c (flowPart X) 0 * yin k) ?_ ?_ k hk
  · linarith
  · intro i hi hne
    have e := eqn i hi
    rw [if_neg hne] at e
    simp only [species, if_true] at e
    rw [if_neg hne, hU] at e
    linarith
  · rw [sum_sub_distrib, sum_add_distrib, ← mul_sum, ← mul_sum, hfz, hy]
    unfold sumY at hsum
    rw [hsum]; ring

/-- **C54** At an outlet the gradients of all mass fractions vanish if the mass fractions of the
point before add up to one (see `sum_one`), and the mass fractions add up to one. -/
theorem outlet_species (h : IsRoot S rdt X b) (h2 : 2 ≤ S.c.pts) (hR : S.R = .outlet)
    (hn : 0 < S.c.nsp) :
    sumY S.c (flowPart X) (S.c.pts - 1) = 1 ∧
    (sumY S.c (flowPart X) (S.c.pts - 1 - 1) = 1 → ∀ k < S.c.nsp,
      Yv (flowPart X) (S.c.pts - 1) k = Yv (flowPart X) (S.c.pts - 1 - 1) k) := by
  have hkR : (bufAfter S rdt X b).kR < S.c.nsp := by
    rw [buf_kR]; exact (maxIdx_spec _ _ hn).1
  have eqn : ∀ k < S.c.nsp, (if k = (bufAfter S rdt X b).kR then
        species S.c (bufAfter S rdt X b) rdt (flowPart X) (S.c.pts - 1) k
      else Yv (flowPart X) (S.c.pts - 1) k - Yv (flowPart X) (S.c.pts - 1 - 1) k) = 0 := by
    intro k hk
    have := root_right h h2 (oY + k)
    rw [hR] at this
    simp only [rightRb] at this
    rw [if_neg (off_ne k _ (by decide)), if_pos (off_in k _ hk),
      cell_species _ _ _ _ _ _ hk] at this
    by_cases e : k = (bufAfter S rdt X b).kR
    · rw [if_pos (by omega)] at this
      rw [if_pos e]; exact this
    · rw [if_neg (by omega)] at this
      rw [if_neg e]; exact this
  have hsum : sumY S.c (flowPart X) (S.c.pts - 1) = 1 := by
    have := eqn _ hkR
    rw [if_pos rfl] at this
    simp only [species] at this
    rw [if_neg (by omega), if_pos True.intro, if_pos True.intro] at this
    unfold sumY
    linarith
  refine ⟨hsum, fun hp k hk => ?_⟩
  have := last_of_sum S.c.nsp (bufAfter S rdt X b).kR
    (fun k => Yv (flowPart X) (S.c.pts - 1) k - Yv (flowPart X) (S.c.pts - 1 - 1) k) ?_ ?_ k hk
  · linarith
  · intro i hi hne
    have e := eqn i hi
    rw [if_neg hne] at e
    exact e
  · rw [sum_sub_distrib]
    unfold sumY at hsum hp
    rw [hsum, hp]; ring

/-- **C54 (partial)** At a reservoir outlet the mass fractions are those of the reservoir for all
species except the one whose component number is the number of the most abundant species.  Missing:
that species, see `reservoir_wrong`. -/
theorem reservoir_species_partial (h : IsRoot S rdt X b) (h2 : 2 ≤ S.c.pts) {yres : ℕ → ℝ}
    (hR : S.R = .outletRes yres) (k : ℕ) (hk : k < S.c.nsp)
    (hne : oY + k ≠ maxIdx (Yv (flowPart X) (S.c.pts - 1)) S.c.nsp) :
    Yv (flowPart X) (S.c.pts - 1) k = yres k := by
  have := root_right h h2 (oY + k)
  rw [hR] at this
  simp only [rightRb] at this
  rw [if_neg (off_ne k _ (by decide)), if_pos (off_in k _ hk), buf_kR, if_neg hne,
    Nat.add_sub_cancel_left] at this
  unfold Yv
  linarith

/-- **C54** At a reacting surface at the right of the flow the flux of every species other than
the replaced one is what the surface consumes; the mass fractions and the coverages add up to
one, and the coverages are steady. -/
theorem surface_species (h : IsRoot S rdt X b) (h2 : 2 ≤ S.c.pts) {s : RSurf}
    (hR : S.R = .rsurf s) (hn : 0 < S.c.nsp) :
    sumY S.c (flowPart X) (S.c.pts - 1) = 1 ∧
    (∀ k < S.c.nsp, k ≠ maxIdx (Yv (flowPart X) (S.c.pts - 1)) S.c.nsp →
      (bufAfter S rdt X b).flux (S.c.pts - 1 - 1) k
        + massFlux S.c (flowPart X) (S.c.pts - 1) * Yv (flowPart X) (S.c.pts - 1) k
      = -((s.kin (X (S.c.pts + 1)) (flowPart X (S.c.pts - 1) oT)
            (Yv (flowPart X) (S.c.pts - 1))).2 k * S.c.wt k)) ∧
    (s.enabled = true → 0 < s.ns → ∑ k ∈ range s.ns, X (S.c.pts + 1) k = 1) ∧
    (s.enabled = true → rdt = 0 → ∀ k, 0 < k → k < s.ns →
      (s.kin (X (S.c.pts + 1)) (flowPart X (S.c.pts - 1) oT)
            (Yv (flowPart X) (S.c.pts - 1))).1 k * s.sizeRs k = 0) := by
  have hkR : maxIdx (Yv (flowPart X) (S.c.pts - 1)) S.c.nsp < S.c.nsp := (maxIdx_spec _ _ hn).1
  have eqn : ∀ k < S.c.nsp, (if k = (bufAfter S rdt X b).kR then
        species S.c (bufAfter S rdt X b) rdt (flowPart X) (S.c.pts - 1) k
      else species S.c (bufAfter S rdt X b) rdt (flowPart X) (S.c.pts - 1) k +
        (s.kin (X (S.c.pts + 1)) (flowPart X (S.c.pts - 1) oT)
            (Yv (flowPart X) (S.c.pts - 1))).2 k * S.c.wt k) = 0 := by
    intro k hk
    have := root_right h h2 (oY + k)
    rw [hR] at this
    simp only [rightRb] at this
    rw [if_neg (off_ne k _ (by decide)), if_pos (off_in k _ hk),
      cell_species _ _ _ _ _ _ hk, Nat.add_sub_cancel_left] at this
    exact this
  have hpt : S.c.pts = S.c.pts - 1 + 1 := by omega
  have own := root_own_right h
  rw [hR] at own
  have eX : X S.c.pts = flowPart X (S.c.pts - 1) := by unfold flowPart; rw [← hpt]
  refine ⟨?_, fun k hk hne => ?_, fun he h0 => ?_, fun he hr k h0 hk => ?_⟩
  · have := eqn (bufAfter S rdt X b).kR (by rw [buf_kR]; exact hkR)
    rw [if_pos rfl] at this
    simp only [species] at this
    rw [if_neg (by omega), if_pos True.intro, if_pos True.intro] at this
    unfold sumY
    linarith
  · have := eqn k hk
    rw [if_neg (by rw [buf_kR]; exact hne)] at this
    simp only [species] at this
    rw [if_neg (by omega), if_pos True.intro, if_neg (by rw [buf_kR]; exact hne),
      buf_rhoU S rdt X b _ (by omega)] at this
    linarith
  · have := own 0
    simp only [ownRes, rsurfRes] at this
    rw [if_pos h0, if_pos he, if_pos True.intro] at this
    linarith
  · have := own k
    simp only [ownRes, rsurfRes] at this
    rw [if_pos hk, if_pos he, if_neg (by omega), hr, zero_mul, sub_zero, eX] at this
    exact this

/-! ## Violations -/

/-- **C54 (violation)** A reacting surface at the left of a flow does not supply what it produces
to the flow: it acts on the flow like an inert surface of the same temperature
(Boundary1D.cpp:719-723, compare 739-743). -/
theorem left_surface_ignored (c : Cfg) (s : RSurf) (b : Buf) (x : Sol) (rb : ℕ → ℝ) :
    leftRb c (.rsurf s) b x rb = leftRb c (.surf s.temp) b x rb := rfl

/-- **C54 (violation)** The transient term of the energy equation, which is to be left out at the
control points, is there: the coordinates are compared with the temperatures
(Flow1D.cpp:678). -/
theorem control_point_transient (c : Cfg) (b : Buf) (rdt : ℝ) (x : Sol) (j : ℕ) (h0 : j ≠ 0)
    (h1 : j ≠ c.pts - 1) (he : c.doE j = true) (hl : c.z j = c.zLeft) (hn : c.zLeft ≠ c.tLeft)
    (hn' : c.zLeft ≠ c.tRight) :
    energy c b rdt x j = energySS c b x j - rdt * (x j oT - c.prev j oT) := by
  have : energyTransient c j = true := by simp [energyTransient, hl, hn, hn']
  simp [energy, h0, h1, he, this]

end

/-! ### Reservoir -/

/-- Seven species without diffusion. -/
noncomputable def resCfg : Cfg := { exCfg with nsp := 7, pts := 2 }

/-- Inlet without flow, reservoir with 0.4 of the first species and 0.6 of the last one. -/
noncomputable def resSys : Sys :=
  { c := { resCfg with tr := fun _ _ => ⟨1, 1, 0, 0, 0, 0, 0, 0⟩ }
    L := .inlet 0 0 0 (fun k => if k = 0 then 1 else 0)
    R := .outletRes (fun k => if k = 0 then 2 / 5 else if k = 6 then 3 / 5 else 0) }

/-- The first point is pure species 6, the last one has only 0.1 of the first species and 0.6 of
the last one. -/
noncomputable def resX : Sol := fun p n =>
  if p = 1 then (if n = 12 then 1 else 0)
  else if p = 2 then (if n = 6 then 1 / 10 else if n = 12 then 3 / 5 else 0)
  else 0

theorem resMax1 : maxIdx (Yv (flowPart resX) 1) 7 = 6 := by
  norm_num [maxIdx, Yv, flowPart, resX, oY]

theorem resMax0 : maxIdx (Yv (flowPart resX) 0) 7 = 6 := by
  norm_num [maxIdx, Yv, flowPart, resX, oY]

theorem res_flux (b : Buf) (k : ℕ) : (bufAfter resSys 0 resX b).flux 0 k = 0 := by
  have htc : ((bufAfter resSys 0 resX b).tc 0).diff = fun _ => 0 := by
    funext k
    simp [bufAfter, evalSys, evalFlow, skipped, evalRange, updateProperties, resSys, resCfg, exCfg,
      updateDiffFluxes, updateTransport, trCol, trAt]
  rw [buf_flux resSys 0 resX b 0 (by simp [resSys, resCfg])]
  have hm : resSys.c.multi = false := rfl
  have hs : resSys.c.soret = false := rfl
  simp [fluxCol, diffFlux, rawFlux, hm, hs, htc]

theorem res_root (b : Buf) : IsRoot resSys 0 resX b := by
  have hp : resSys.c.pts = 2 := rfl
  have hn : resSys.c.nsp = 7 := rfl
  have hlam : resSys.c.lam = false := rfl
  have hfree : resSys.c.free = false := rfl
  have htwo : resSys.c.two = false := rfl
  have hdoE : ∀ j, resSys.c.doE j = false := fun _ => rfl
  have hfix : ∀ j, resSys.c.fixedT j = 0 := fun _ => rfl
  have hf := res_flux b
  have kL : (bufAfter resSys 0 resX b).kL = 6 := by rw [buf_kL]; exact resMax0
  have kR : (bufAfter resSys 0 resX b).kR = 6 := by rw [buf_kR]; exact resMax1
  have hx0 : ∀ n, n ≠ 12 → flowPart resX 0 n = 0 := fun n h => by simp [flowPart, resX, h]
  have hx1 : ∀ n, n ≠ 12 → n ≠ 6 → flowPart resX 1 n = 0 := fun n h h' => by
    simp [flowPart, resX, h, h']
  have hU : ∀ j < 2, rhoU (bufAfter resSys 0 resX b) (flowPart resX) j = 0 := by
    intro j hj
    unfold rhoU
    interval_cases j
    · rw [hx0 _ (by decide), mul_zero]
    · rw [hx1 _ (by decide) (by decide), mul_zero]
  have e0 : (evalFlow resSys.c 1 0 none (flowPart resX) b (fun _ _ => 0)).2 0 =
      cell resSys.c (bufAfter resSys 0 resX b) 0 (flowPart resX) 0 :=
    funext fun n => evalFlow_full _ _ _ _ _ _ _ _ (by omega)
  have e1 : (evalFlow resSys.c 1 0 none (flowPart resX) b (fun _ _ => 0)).2 1 =
      cell resSys.c (bufAfter resSys 0 resX b) 0 (flowPart resX) 1 :=
    funext fun n => evalFlow_full _ _ _ _ _ _ _ _ (by omega)
  have eb : (evalFlow resSys.c 1 0 none (flowPart resX) b (fun _ _ => 0)).1 =
      bufAfter resSys 0 resX b := rfl
  intro p n
  simp only [evalSys, sysRes, bdryActive, if_true, hp, e0, e1, eb]
  split_ifs with h0 h1 h2 h3 h4
  · simp [resSys, ownRes]
  · simp [resSys, ownRes]
  · have hL : resSys.L = .inlet 0 0 0 (fun k => if k = 0 then 1 else 0) := rfl
    rw [hL]
    simp only [leftRb, hdoE, hfix, hlam, hfree, leftMdot, kL, Bool.false_eq_true, if_false,
      sub_zero, zero_mul, add_zero, ite_self]
    by_cases hT : n = oT
    · subst hT; simp [cell, energy, hx0]
    by_cases hLL : n = oL
    · subst hLL; simp [cell, lambdaEq, hlam, hx0, oT]
    by_cases hV : n = oV
    · subst hV; simp [cell, momentum, hlam, hx0, oT, oL]
    by_cases hUU : n = oU
    · subst hUU
      have := hU 0 (by omega)
      unfold rhoU at this
      simp [this, oT, oL, oV]
    rw [if_neg hT, if_neg hLL, if_neg hV, if_neg hUU]
    rcases n with - | - | - | - | - | - | k
    · exact absurd rfl hUU
    · exact absurd rfl hV
    · exact absurd rfl hT
    · exact absurd rfl hLL
    · simp [cell, hx0]
    · simp [cell, uoEq, htwo, hx0]
    · by_cases hk : k < 7
      · simp only [cell, hn, hk, if_true, species, kL, hf, hU 0 (by omega)]
        by_cases h6 : k = 6
        · subst h6
          have hs : ∑ i ∈ range 7, Yv (flowPart resX) 0 i = 1 := by
            simp only [sum_range_succ, range_zero, sum_empty, Yv, flowPart, resX, oY]
            norm_num
          simp [hs]
        · simp [h6]
      · simp [cell, hn, hk]
  · have hR : resSys.R = .outletRes
      (fun k => if k = 0 then 2 / 5 else if k = 6 then 3 / 5 else 0) := rfl
    rw [hR]
    simp only [rightRb, hdoE, hfix, hp, hn, kR, Bool.false_eq_true, if_false, sub_zero]
    rcases n with - | - | - | - | - | - | k
    · have := hU 1 (by omega)
      have h' := hU 0 (by omega)
      simp [oT, oY, cell, continuity, hp, hlam, this, h']
    · simp [oT, oY, cell, momentum, hlam, hx1]
    · simp [oT, hx1]
    · simp [oT, oY, cell, lambdaEq, hlam, hx1]
    · simp [oT, oY, cell, hx1]
    · simp [oT, oY, cell, uoEq, htwo, hx1]
    · by_cases hk : k < 7
      · by_cases hk0 : k = 0
        · subst hk0
          simp [oT, oY, cell, hn, species, hp, kR, hf, hU]
        · have h1 : oY ≤ k + 6 ∧ k + 6 < oY + 7 := by unfold oY; omega
          have h2 : k + 6 ≠ oT := by unfold oT; omega
          rw [if_neg h2, if_pos h1, if_neg (by omega)]
          by_cases hk6 : k = 6
          · subst hk6; norm_num [flowPart, resX, oY]
          · have e : k + 6 - oY = k := by unfold oY; omega
            rw [e, if_neg hk0, if_neg hk6, hx1 _ (by omega) (by omega)]
            ring
      · have h1 : ¬(oY ≤ k + 6 ∧ k + 6 < oY + 7) := by unfold oY; omega
        have h2 : k + 6 ≠ oT := by unfold oT; omega
        rw [if_neg h2, if_neg h1]
        simp [cell, hn, hk]
  · omega
  · rfl

/-- **C54 (violation)** A solution at a reservoir outlet whose mass fractions are not those of the
reservoir and do not add up to one: the index of the species to be skipped lacks the offset of the
mass fractions (Boundary1D.cpp:505-507, compare 423-425). -/
theorem reservoir_wrong :
    ∃ (S : Sys) (X : Sol) (b : Buf) (yres : ℕ → ℝ), 2 ≤ S.c.pts ∧ IsRoot S 0 X b ∧
      S.R = .outletRes yres ∧ ∑ k ∈ range S.c.nsp, yres k = 1 ∧
      Yv (flowPart X) (S.c.pts - 1) 0 ≠ yres 0 ∧ sumY S.c (flowPart X) (S.c.pts - 1) ≠ 1 := by
  refine ⟨resSys, resX, exBuf, fun k => if k = 0 then 2 / 5 else if k = 6 then 3 / 5 else 0,
    le_rfl, res_root _, rfl, ?_, ?_, ?_⟩
  · norm_num [resSys, resCfg, sum_range_succ]
  · norm_num [resSys, resCfg, Yv, flowPart, resX, oY]
  · norm_num [resSys, resCfg, Yv, flowPart, resX, oY, sumY, sum_range_succ]

end Verif.OneDim.Flow
