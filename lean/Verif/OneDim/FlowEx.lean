import Verif.OneDim.FlowBC

/-!
# C54: examples (uniform flows)
-/

set_option linter.unusedSimpArgs false

namespace Verif.OneDim.Flow

open Finset

/-- Two species, four points, all kinds of flow. -/
noncomputable def uniCfg (lam free two : Bool) : Cfg :=
  { exCfg with
    lam := lam, free := free, two := two, doE := fun _ => true, zfixed := 2, tfixed := 300,
    zLeft := 1, tLeft := 300, zRight := 2, tRight := 300, fixedT := fun _ => 300 }

/-- Uniform flow with the velocity `u`; with two-point control `Uo` is the velocity as well.  The
boundary points have no components, except for one surface species at the right. -/
noncomputable def uniX (two : Bool) (u : ℝ) : Sol := fun p n =>
  if p = 5 then (if n = 0 then 1 else 0)
  else if n = oU then u else if n = oT then 300 else if n = oUo then (if two then u else 0)
  else if n = oY then 1 / 2 else if n = oY + 1 then 1 / 2 else 0

/-- The stack with an inlet at the left. -/
noncomputable def uniSys (lam free two : Bool) (u : ℝ) (R : Bdry) : Sys :=
  { c := uniCfg lam free two, L := .inlet 300 0 u (fun _ => 1 / 2), R := R }

theorem uni_x (two : Bool) (u : ℝ) (i j n : ℕ) (hi : i < 4) (hj : j < 4) :
    flowPart (uniX two u) i n = flowPart (uniX two u) j n := by
  have h1 : i + 1 ≠ 5 := by omega
  have h2 : j + 1 ≠ 5 := by omega
  simp [flowPart, uniX, h1, h2]

section
variable (lam free two : Bool) (u : ℝ) (R : Bdry)

theorem uni_rho (j : ℕ) (hj : j < 4) :
    (bufAfter (uniSys lam free two u R) 0 (uniX two u) exBuf).rho j = 1 := by
  rw [buf_rho _ _ _ _ j hj]; rfl

theorem uni_rhoU (j : ℕ) (hj : j < 4) :
    rhoU (bufAfter (uniSys lam free two u R) 0 (uniX two u) exBuf) (flowPart (uniX two u)) j
      = u := by
  have h1 : j ≠ 4 := by omega
  rw [rhoU, uni_rho lam free two u R j hj]
  simp [flowPart, uniX, h1]

theorem uni_flux (j k : ℕ) (hj : j < 3) :
    (bufAfter (uniSys lam free two u R) 0 (uniX two u) exBuf).flux j k = 0 := by
  have hs : (uniSys lam free two u R).c.soret = false := rfl
  have hm : (uniSys lam free two u R).c.multi = false := rfl
  have hb : (uniSys lam free two u R).c.massBasis = true := rfl
  have hr : ∀ k, rawFlux (uniSys lam free two u R).c
      (bufAfter (uniSys lam free two u R) 0 (uniX two u) exBuf) (flowPart (uniX two u)) j k = 0 := by
    intro k
    have : Yv (flowPart (uniX two u)) j k = Yv (flowPart (uniX two u)) (j + 1) k :=
      uni_x two u _ _ _ (by omega) (by omega)
    simp [rawFlux, hb, this]
  have hp : (uniSys lam free two u R).c.pts = 4 := rfl
  rw [buf_flux _ _ _ _ j (by omega)]
  simp [fluxCol, diffFlux, hs, hm, hr]

theorem uni_wdot (j k : ℕ) (hj : j < 4) :
    (bufAfter (uniSys lam free two u R) 0 (uniX two u) exBuf).wdot j k = 0 := by
  simp only [bufAfter, evalSys, evalFlow, skipped, Bool.false_eq_true, if_false, evalRange,
    Option.isNone_none, updateProperties, Bool.true_or, if_true]
  have h1 : j ≤ min ((uniSys lam free two u R).c.pts - 1 + 1) ((uniSys lam free two u R).c.pts - 1)
      := by simp [uniSys, uniCfg, exCfg]; omega
  have h2 : (uniSys lam free two u R).c.rad = false := rfl
  simp only [h2, Bool.false_eq_true, if_false, updateDiffFluxes, updateTransport, updateThermo]
  rw [if_pos ⟨by omega, h1⟩]
  rfl

theorem uni_q (j : ℕ) :
    (bufAfter (uniSys lam free two u R) 0 (uniX two u) exBuf).q j = 0 := by
  simp only [bufAfter, evalSys, evalFlow, skipped, Bool.false_eq_true, if_false, evalRange,
    Option.isNone_none, updateProperties, Bool.true_or, if_true]
  have h2 : (uniSys lam free two u R).c.rad = false := rfl
  simp only [h2, Bool.false_eq_true, if_false, updateDiffFluxes, updateTransport, updateThermo]
  rfl

theorem uni_upwind (j n : ℕ) (h0 : 0 < j) (hj : j < 3) :
    upwind (uniSys lam free two u R).c (flowPart (uniX two u)) n j = 0 := by
  have : jloc (flowPart (uniX two u)) j < 4 := by unfold jloc; split_ifs <;> omega
  unfold upwind
  rw [uni_x two u (jloc (flowPart (uniX two u)) j) (jloc (flowPart (uniX two u)) j - 1) n this
    (by omega), sub_self, zero_div]

theorem uni_val (j n : ℕ) (hj : j < 4) : flowPart (uniX two u) j n =
    if n = oU then u else if n = oT then 300 else if n = oUo then (if two then u else 0)
    else if n = oY then 1 / 2 else if n = oY + 1 then 1 / 2 else 0 := by
  have h1 : j + 1 ≠ 5 := by omega
  simp [flowPart, uniX, h1]

theorem uni_sumY (j : ℕ) (hj : j < 4) :
    ∑ i ∈ range 2, Yv (flowPart (uniX two u)) j i = 1 := by
  simp only [sum_range_succ, range_zero, sum_empty, Yv]
  rw [uni_val two u j _ hj, uni_val two u j _ hj]
  norm_num

/-- The work arrays of the example. -/
noncomputable def uniBuf : Buf := bufAfter (uniSys lam free two u R) 0 (uniX two u) exBuf

theorem uni_inner (j n : ℕ) (h0 : 0 < j) (hj : j < 3) :
    cell (uniSys lam free two u R).c (uniBuf lam free two u R) 0 (flowPart (uniX two u)) j n
      = 0 := by
  have hp : (uniSys lam free two u R).c.pts = 4 := rfl
  have hn : (uniSys lam free two u R).c.nsp = 2 := rfl
  have hU := uni_rhoU lam free two u R
  have hV := fun j n hj => uni_val two u j n hj
  have hj0 : j ≠ 0 := by omega
  have hj3 : j ≠ 3 := by omega
  have hr := uni_rho lam free two u R
  have hup := uni_upwind lam free two u R j
  have hq := uni_q lam free two u R j
  have hw := fun k => uni_wdot lam free two u R j k (by omega)
  have hf := uni_flux lam free two u R
  have hT : ∀ i, i < 4 → flowPart (uniX two u) i oT = 300 := fun i hi => by
    rw [hV i _ hi]; simp [oT, oU]
  have hL : ∀ i, i < 4 → flowPart (uniX two u) i oL = 0 := fun i hi => by
    rw [hV i _ hi]; simp [oT, oU, oL, oUo, oY]
  have hVV : ∀ i, i < 4 → flowPart (uniX two u) i oV = 0 := fun i hi => by
    rw [hV i _ hi]; simp [oT, oU, oV, oUo, oY]
  have hUo : ∀ i, i < 4 → flowPart (uniX two u) i oUo = if two then u else 0 := fun i hi => by
    rw [hV i _ hi]; simp [oT, oU, oV, oUo, oY]
  have hlam : (uniSys lam free two u R).c.lam = lam := rfl
  have hfree : (uniSys lam free two u R).c.free = free := rfl
  have htwo : (uniSys lam free two u R).c.two = two := rfl
  have hdoE : (uniSys lam free two u R).c.doE j = true := rfl
  have ht : (uniSys lam free two u R).c.tfixed = 300 := rfl
  have htl : (uniSys lam free two u R).c.tLeft = 300 := rfl
  have htr : (uniSys lam free two u R).c.tRight = 300 := rfl
  rcases n with - | - | - | - | - | - | k
  · simp only [cell, continuity, uniBuf, hp, hlam, hfree, hdoE, ht]
    rw [hU j (by omega), hU (j + 1) (by omega), hU (j - 1) (by omega), hVV j (by omega),
      hVV (j + 1) (by omega), hT j (by omega)]
    simp [hj0, hj3]
  · simp only [cell, momentum, uniBuf, hp, hlam, htwo]
    have hsh : shear (uniSys lam free two u R).c
        (bufAfter (uniSys lam free two u R) 0 (uniX two u) exBuf) (flowPart (uniX two u)) j = 0 := by
      simp only [shear]
      rw [hVV j (by omega), hVV (j + 1) (by omega), hVV (j - 1) (by omega)]
      simp
    rw [hVV j (by omega), hL j (by omega), hup oV h0 hj, hsh]
    simp
  · have hc : conduction (uniSys lam free two u R).c
        (bufAfter (uniSys lam free two u R) 0 (uniX two u) exBuf) (flowPart (uniX two u)) j = 0 := by
      simp only [conduction]
      rw [hT j (by omega), hT (j + 1) (by omega), hT (j - 1) (by omega)]
      simp
    simp only [cell, energy, uniBuf, hp, hdoE, energySS]
    rw [hup oT h0 hj, hc, hq]
    have : ∀ k ∈ range (uniSys lam free two u R).c.nsp,
        (bufAfter (uniSys lam free two u R) 0 (uniX two u) exBuf).wdot j k
          * (bufAfter (uniSys lam free two u R) 0 (uniX two u) exBuf).hk j k
        + (1 / 2) * ((bufAfter (uniSys lam free two u R) 0 (uniX two u) exBuf).flux (j - 1) k
            + (bufAfter (uniSys lam free two u R) 0 (uniX two u) exBuf).flux j k)
          * gradH (uniSys lam free two u R).c
            (bufAfter (uniSys lam free two u R) 0 (uniX two u) exBuf) (flowPart (uniX two u)) j k
          / (uniSys lam free two u R).c.wt k = 0 := by
      intro k _
      rw [hw, hf _ _ (by omega), hf _ _ hj]; ring
    rw [sum_eq_zero this]
    simp [hj0, hj3]
  · simp only [cell, lambdaEq, uniBuf, hp, hlam, htwo, htl]
    rw [hL j (by omega), hL (j + 1) (by omega), hL (j - 1) (by omega), hT j (by omega)]
    simp [hj0, hj3]
  · simp only [cell]
    rw [hV j _ (by omega)]
    simp [oE, oU, oT, oUo, oY]
  · simp only [cell, uoEq, uniBuf, hp, htwo, htr]
    rw [hUo j (by omega), hUo (j + 1) (by omega), hUo (j - 1) (by omega), hT j (by omega)]
    simp only [hj0, hj3, if_false]
    cases two <;> simp [hj3]
  · by_cases hk : k < 2
    · simp only [cell, hn, hk, if_true, species, uniBuf, hp, hj0, hj3, if_false]
      rw [hw, hup _ h0 hj, hf _ _ hj, hf _ _ (by omega)]
      simp
    · simp [cell, hn, hk]

theorem uni_left (hlf : ¬(lam = true ∧ free = true)) (n : ℕ) :
    leftRb (uniSys lam free two u R).c (uniSys lam free two u R).L (uniBuf lam free two u R)
      (flowPart (uniX two u))
      (cell (uniSys lam free two u R).c (uniBuf lam free two u R) 0 (flowPart (uniX two u)) 0) n
      = 0 := by
  have hp : (uniSys lam free two u R).c.pts = 4 := rfl
  have hn : (uniSys lam free two u R).c.nsp = 2 := rfl
  have hU := uni_rhoU lam free two u R
  have hr : (uniBuf lam free two u R).rho 0 = 1 := uni_rho lam free two u R 0 (by omega)
  have hV := fun j n hj => uni_val two u j n hj
  have hf := fun k => uni_flux lam free two u R 0 k (by omega)
  have hlam : (uniSys lam free two u R).c.lam = lam := rfl
  have hfree : (uniSys lam free two u R).c.free = free := rfl
  have htwo : (uniSys lam free two u R).c.two = two := rfl
  have hdoE : (uniSys lam free two u R).c.doE 0 = true := rfl
  have hLL : (uniSys lam free two u R).L = .inlet 300 0 u (fun _ => 1 / 2) := rfl
  have hmd : leftMdot (uniSys lam free two u R).c (uniBuf lam free two u R) u
      (flowPart (uniX two u) 0) = u := by
    unfold leftMdot
    rw [hr, hV 0 _ (by omega)]
    simp
  have hUb := hU 0 (by omega)
  have hUb1 := hU 1 (by omega)
  rw [hLL]
  simp only [leftRb, hmd, hlam, hfree, htwo, hdoE, hn]
  rcases n with - | - | - | - | - | - | k
  · have := hV 0 0 (by omega)
    simp only [oT, oL, oV, oU]
    rw [if_neg (by omega), if_neg (by omega), if_neg (by omega), if_pos True.intro]
    simp only [cell, continuity, uniBuf]
    rw [if_pos True.intro, hUb, hUb1, hV 0 _ (by omega), hV 1 _ (by omega)]
    simp only [uniBuf] at hr
    rw [hr, hV 0 _ (by omega)]
    simp [oV, oU, oT, oUo, oY]
  · simp only [cell, momentum, hlam]
    rw [hV 0 _ (by omega)]
    simp [oV, oU, oT, oUo, oY, oL]
  · simp only [cell, energy]
    rw [hV 0 _ (by omega)]
    simp [oU, oT]
  · simp only [cell, lambdaEq, uniBuf, hUb, hlam, htwo]
    rw [hV 0 _ (by omega), hV 1 _ (by omega)]
    cases lam <;> cases free <;> cases two <;> simp [oV, oU, oT, oUo, oY, oL] <;> simp at hlf
  · simp only [cell]
    rw [hV 0 _ (by omega)]
    simp [oV, oU, oT, oUo, oY, oL, oE]
  · simp only [cell, uoEq, htwo]
    rw [hV 0 _ (by omega), hV 1 _ (by omega)]
    cases two <;> simp [oV, oU, oT, oUo, oY, oL]
  · by_cases hk : k < 2
    · have hy := uni_sumY two u 0 (by omega)
      have hY : Yv (flowPart (uniX two u)) 0 k = 1 / 2 := by
        unfold Yv
        rw [hV 0 _ (by omega)]
        interval_cases k <;> simp [oV, oU, oT, oUo, oY, oL]
      have e : k + 6 - oY = k := by unfold oY; omega
      have h1 : oY ≤ k + 6 ∧ k + 6 < oY + 2 := by unfold oY; omega
      rw [if_neg (by unfold oT; omega), if_neg (by unfold oL; omega),
        if_neg (by unfold oV; omega), if_neg (by unfold oU; omega), if_pos h1, e]
      simp only [cell, hn, hk, if_true, species, uniBuf, hy, hf, hUb, hY]
      split_ifs <;> ring
    · have h1 : ¬(oY ≤ k + 6 ∧ k + 6 < oY + 2) := by unfold oY; omega
      rw [if_neg (by unfold oT; omega), if_neg (by unfold oL; omega),
        if_neg (by unfold oV; omega), if_neg (by unfold oU; omega), if_neg h1]
      simp [cell, hn, hk]

/-- The last point, if not changed by the boundary. -/
theorem uni_last (n : ℕ) :
    cell (uniSys lam free two u R).c (uniBuf lam free two u R) 0 (flowPart (uniX two u)) 3 n
      = if n = oU then (if lam then u else 0) else if n = oT then 300
        else if n = oY + (uniBuf lam free two u R).kR then 0
        else if n = oY ∨ n = oY + 1 then u / 2 else 0 := by
  have hp : (uniSys lam free two u R).c.pts = 4 := rfl
  have hn : (uniSys lam free two u R).c.nsp = 2 := rfl
  have hU := uni_rhoU lam free two u R
  have hV := fun j n hj => uni_val two u j n hj
  have hf := fun k => uni_flux lam free two u R 2 k (by omega)
  have hlam : (uniSys lam free two u R).c.lam = lam := rfl
  have htwo : (uniSys lam free two u R).c.two = two := rfl
  rcases n with - | - | - | - | - | - | k
  · simp only [cell, continuity, uniBuf, hp, hlam]
    simp [hU 3 (by omega), hU 2 (by omega), oU]
  · simp only [cell, momentum, hlam, hp]
    rw [hV 3 _ (by omega)]
    simp [oV, oU, oT, oUo, oY]
  · simp only [cell, energy, hp]
    rw [hV 3 _ (by omega)]
    simp [oU, oT]
  · simp only [cell, lambdaEq, hlam, hp]
    rw [hV 3 _ (by omega), hV 2 _ (by omega)]
    cases lam <;> simp [oV, oU, oT, oUo, oY, oL]
  · simp only [cell]
    rw [hV 3 _ (by omega)]
    simp [oV, oU, oT, oUo, oY, oE]
  · simp only [cell, uoEq, htwo, hp]
    rw [hV 3 _ (by omega), hV 2 _ (by omega)]
    cases two <;> simp [oV, oU, oT, oUo, oY]
  · by_cases hk : k < 2
    · have hy := uni_sumY two u 3 (by omega)
      have hY : Yv (flowPart (uniX two u)) 3 k = 1 / 2 := by
        unfold Yv
        rw [hV 3 _ (by omega)]
        interval_cases k <;> simp [oV, oU, oT, oUo, oY, oL]
      have hs : cell (uniSys lam free two u R).c (uniBuf lam free two u R) 0
          (flowPart (uniX two u)) 3 (k + 6) = if k = (uniBuf lam free two u R).kR then 1 - 1 else
            (uniBuf lam free two u R).flux 2 k
              + rhoU (uniBuf lam free two u R) (flowPart (uniX two u)) 3 * (1 / 2) := by
        simp [cell, hn, hk, species, hp, hy, hY]
      have g1 : ¬k + 6 = oU := by unfold oU; omega
      have g2 : ¬k + 6 = oT := by unfold oT; omega
      show cell _ _ _ _ _ (k + 6) = if k + 6 = oU then _ else if k + 6 = oT then _ else
        if k + 6 = oY + _ then _ else if k + 6 = oY ∨ k + 6 = oY + 1 then _ else _
      rw [hs, if_neg g1, if_neg g2]
      by_cases hkr : k = (uniBuf lam free two u R).kR
      · rw [if_pos hkr, if_pos (by unfold oY; omega)]; ring
      · rw [if_neg hkr, if_neg (by unfold oY; omega), if_pos (by unfold oY; omega)]
        simp only [uniBuf, hf, hU 3 (by omega)]
        ring
    · have : ¬(k + 6 = oY ∨ k + 6 = oY + 1) := by unfold oY; omega
      have g1 : ¬k + 6 = oU := by unfold oU; omega
      have g2 : ¬k + 6 = oT := by unfold oT; omega
      show cell _ _ _ _ _ (k + 6) = if k + 6 = oU then _ else if k + 6 = oT then _ else
        if k + 6 = oY + _ then _ else if k + 6 = oY ∨ k + 6 = oY + 1 then _ else _
      rw [if_neg g1, if_neg g2, if_neg this]
      simp [cell, hn, hk]

/-- The uniform flow is a solution if the boundary at the right agrees with it. -/
theorem uni_root (hlf : ¬(lam = true ∧ free = true))
    (hR : ∀ n, rightRb (uniSys lam free two u R).c R (uniBuf lam free two u R)
      (flowPart (uniX two u)) (uniX two u 5)
      (cell (uniSys lam free two u R).c (uniBuf lam free two u R) 0 (flowPart (uniX two u)) 3) n = 0)
    (hown : ∀ n, ownRes R 0 (uniX two u 4) (uniX two u 5) n = 0) :
    IsRoot (uniSys lam free two u R) 0 (uniX two u) exBuf := by
  have hp : (uniSys lam free two u R).c.pts = 4 := rfl
  have e : ∀ j < 4, (evalFlow (uniSys lam free two u R).c 1 0 none (flowPart (uniX two u)) exBuf
      (fun _ _ => 0)).2 j =
      cell (uniSys lam free two u R).c (uniBuf lam free two u R) 0 (flowPart (uniX two u)) j :=
    fun j hj => funext fun n => evalFlow_full _ _ _ _ _ _ _ _ (by omega)
  have eb : (evalFlow (uniSys lam free two u R).c 1 0 none (flowPart (uniX two u)) exBuf
      (fun _ _ => 0)).1 = uniBuf lam free two u R := rfl
  intro p n
  simp only [evalSys, sysRes, bdryActive, if_true, hp, eb]
  split_ifs with h0 h1 h2 h3 h4
  · simp [uniSys, ownRes]
  · exact hown n
  · rw [e 0 (by omega)]; exact uni_left lam free two u R hlf n
  · rw [e (4 - 1) (by omega)]; exact hR n
  · rw [e (p - 1) (by omega)]; exact uni_inner lam free two u R (p - 1) n (by omega) (by omega)
  · rfl

end

/-! ## The examples -/

/-- Burner and free flame with an outlet. -/
theorem uni_outlet (free : Bool) (u : ℝ) :
    IsRoot (uniSys false free false u .outlet) 0 (uniX false u) exBuf := by
  have hp : (uniSys false free false u .outlet).c.pts = 4 := rfl
  have hn : (uniSys false free false u .outlet).c.nsp = 2 := rfl
  have hd : ∀ j, (uniSys false free false u .outlet).c.doE j = true := fun _ => rfl
  apply uni_root
  · simp
  · intro n
    simp only [rightRb, hp, hn, hd]
    rw [uni_last, uni_x false u (4 - 1) (4 - 1 - 1) oT (by omega) (by omega),
      uni_x false u (4 - 1) (4 - 1 - 1) n (by omega) (by omega)]
    by_cases h1 : n = oT
    · simp [h1]
    · by_cases h2 : oY ≤ n ∧ n < oY + 2
      · have h3 : n ≠ oU := by unfold oY at h2; unfold oU; omega
        rw [if_neg h1, if_pos h2]
        simp [h1, h3]
        omega
      · have h3 : ¬(n = oY ∨ n = oY + 1) := by omega
        rw [if_neg h1, if_neg h2]
        simp [h3, h1]
  · intro n; rfl

example : massFlux (uniSys false true false 3 .outlet).c (flowPart (uniX false 3)) 2
    = massFlux (uniSys false true false 3 .outlet).c (flowPart (uniX false 3)) 0 :=
  mass_flux_const (uni_outlet true 3) (by decide) rfl trivial trivial
    (fun i _ => by simp [uniSys, uniCfg, exCfg]) 2 (by decide)

example : flowPart (uniX false 3) 2 oT = 300 :=
  free_fixed_temperature (uni_outlet true 3) rfl rfl 2 (by omega) (by decide)
    (by simp [uniSys, uniCfg, exCfg]) rfl

example : massFlux (uniSys false false false 3 .outlet).c (flowPart (uniX false 3)) 0 = 3 :=
  burner_mass_flux (uni_outlet false 3) (by decide) rfl rfl rfl

example : sumY (uniSys false false false 3 .outlet).c (flowPart (uniX false 3)) 0 = 1 :=
  (inlet_species (uni_outlet false 3) (by decide) rfl rfl rfl
    (by norm_num [uniSys, uniCfg, exCfg])).1

example : sumY (uniSys false false false 3 .outlet).c (flowPart (uniX false 3)) 3 = 1 :=
  (outlet_species (uni_outlet false 3) (by decide) rfl (by decide)).1

example : flowPart (uniX false 3) 0 oT = 300 :=
  (wall_temperature (uni_outlet false 3) (by decide)).2 (by simp [uniSys]) (by simp [uniSys])
    300 rfl

/-- Counterflow with and without two-point control. -/
theorem uni_counterflow (two : Bool) (u : ℝ) :
    IsRoot (uniSys true false two u (.inlet 300 0 (-u) (fun _ => 1 / 2))) 0 (uniX two u)
      exBuf := by
  have hp : (uniSys true false two u (.inlet 300 0 (-u) (fun _ => 1 / 2))).c.pts = 4 := rfl
  have hn : (uniSys true false two u (.inlet 300 0 (-u) (fun _ => 1 / 2))).c.nsp = 2 := rfl
  have hd : ∀ j, (uniSys true false two u (.inlet 300 0 (-u) (fun _ => 1 / 2))).c.doE j = true :=
    fun _ => rfl
  have ht : (uniSys true false two u (.inlet 300 0 (-u) (fun _ => 1 / 2))).c.two = two := rfl
  apply uni_root
  · simp
  · intro n
    have hm : rightMdot (uniSys true false two u (.inlet 300 0 (-u) (fun _ => 1 / 2))).c
        (uniBuf true false two u (.inlet 300 0 (-u) (fun _ => 1 / 2))) (-u)
        (flowPart (uniX two u) 3) = -u := by
      have := uni_rho true false two u (.inlet 300 0 (-u) (fun _ => 1 / 2)) 3 (by omega)
      simp only [rightMdot, ht, hp, uniBuf]
      rw [this, uni_val two u 3 _ (by omega)]
      cases two <;> simp [oU, oT, oUo]
    have e43 : 4 - 1 = 3 := rfl
    simp only [rightRb, hp, hn, hd, e43, hm]
    rw [uni_last]
    by_cases hV : n = oV
    · subst hV
      rw [if_pos rfl, if_neg (by decide), if_neg (by decide), if_neg (by unfold oV oY; omega),
        if_neg (by decide)]
      ring
    by_cases hT : n = oT
    · subst hT; rw [if_neg hV, if_pos rfl, if_pos True.intro, if_neg (by decide), if_pos rfl]
      norm_num
    by_cases hU : n = oU
    · subst hU; rw [if_neg hV, if_neg hT, if_pos rfl, if_pos rfl]; norm_num
    rw [if_neg hV, if_neg hT, if_neg hU, if_neg hU, if_neg hT]
    by_cases h2 : oY ≤ n ∧ n < oY + 2
    · have h3 : n = oY ∨ n = oY + 1 := by omega
      rw [if_pos h2]
      by_cases hk : n = oY + (uniBuf true false two u (.inlet 300 0 (-u) (fun _ => 1 / 2))).kR
      · rw [if_pos hk, if_pos (by omega)]
      · rw [if_neg hk, if_neg (by omega), if_pos h3]; ring
    · have h3 : ¬(n = oY ∨ n = oY + 1) := by omega
      rw [if_neg h2]
      simp [h3]
  · intro n; rfl

example : massFlux (uniCfg true false false) (flowPart (uniX false 3)) 0 = 3 :=
  (strained_left_inlet (uni_counterflow false 3) (by decide) rfl rfl rfl rfl).1

example : massFlux (uniCfg true false false) (flowPart (uniX false 3)) 3 = -(-3) :=
  (strained_right_inlet (uni_counterflow false 3) (by decide) rfl rfl).1 rfl

example : flowPart (uniX true 3) 2 oL = flowPart (uniX true 3) 0 oL :=
  lambda_const (uni_counterflow true 3) (by decide) rfl
    (fun i _ => by simp [uniSys, uniCfg, exCfg]) 2 (by decide)

example : flowPart (uniX true 3) 1 oT = 300 :=
  (two_point (uni_counterflow true 3) (by decide) rfl rfl
    (fun i _ => by simp [uniSys, uniCfg, exCfg])).1 1 (by omega) (by decide)
    (by simp [uniSys, uniCfg, exCfg])

example : massFlux (uniCfg true false false) (flowPart (uniX false 3)) 3 =
    massFlux (uniCfg true false false) (flowPart (uniX false 3)) 0 -
      ∑ i ∈ range 3, ((uniCfg true false false).z (i + 1) - (uniCfg true false false).z i) *
        (dens (uniCfg true false false) (flowPart (uniX false 3)) (i + 1)
            * flowPart (uniX false 3) (i + 1) oV
          + dens (uniCfg true false false) (flowPart (uniX false 3)) i
            * flowPart (uniX false 3) i oV) :=
  strained_balance (uni_counterflow false 3) (by decide) rfl
    (fun i _ => by simp [uniSys, uniCfg, exCfg]) 3 (by decide)

/-- An inert surface with one surface species. -/
noncomputable def exSurf : RSurf :=
  { ns := 1, temp := 300, enabled := true, fixedCov := 0, prev := 0, sizeRs := 1,
    kin := fun _ _ _ => (0, 0) }

/-- Flow at rest in front of the surface. -/
theorem uni_surface : IsRoot (uniSys true false false 0 (.rsurf exSurf)) 0 (uniX false 0)
    exBuf := by
  have hp : (uniSys true false false 0 (.rsurf exSurf)).c.pts = 4 := rfl
  have hn : (uniSys true false false 0 (.rsurf exSurf)).c.nsp = 2 := rfl
  apply uni_root
  · simp
  · intro n
    have e43 : 4 - 1 = 3 := rfl
    simp only [rightRb, hp, hn, e43]
    rw [uni_last, uni_val false 0 3 _ (by omega)]
    by_cases hT : n = oT
    · subst hT; simp [oU, oT, exSurf]
    · rw [if_neg hT]
      simp [hT, exSurf]
  · intro n
    simp only [ownRes, rsurfRes, exSurf]
    by_cases h : n < 1
    · have : n = 0 := by omega
      subst this
      simp [uniX]
    · simp [h]

example : ∑ k ∈ range exSurf.ns, uniX false 0 5 k = 1 :=
  (surface_species (uni_surface) (by decide) rfl (by decide)).2.2.1 rfl (by decide)

example : Yv (flowPart resX) 1 6 = 3 / 5 :=
  (reservoir_species_partial (res_root exBuf) (by decide) rfl 6 (by decide)
    (by rw [show resSys.c.pts - 1 = 1 from rfl, show resSys.c.nsp = 7 from rfl, resMax1]; decide))
    |>.trans (by norm_num)

end Verif.OneDim.Flow
