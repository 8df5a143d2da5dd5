import Verif.OneDim.FlowJac

/-!
# C55: examples and limits
-/

set_option linter.unusedSimpArgs false

namespace Verif.OneDim.Flow

open Finset

/-! ## Examples -/

/-- The default settings of the perturbation (OneDim.h:454-458). -/
noncomputable def defPert : Pert := { thr := 0, rel := 1e-5, abs := 1e-10 }

theorem uni_compact (lam free two : Bool) : Compact (uniCfg lam free two) :=
  ⟨fun _ _ _ _ => rfl, fun h => by simp [uniCfg, exCfg] at h⟩

theorem uni_word : (uniCfg false false false).pts + 2 < word := by
  show 6 < word
  unfold word; norm_num

/-- The Jacobian of the burner of `FlowEx`: the residual of the temperature at the inlet is the
difference from the temperature of the inlet, so the diagonal entry is one. -/
example (b : Buf) :
    (evalJacobian (uniSys false false false 3 .outlet) defPert (uniX false 3) b).J 1 oT 1 oT = 1 := by
  have hdx := (dx_ne_zero defPert (by norm_num [defPert]) (by norm_num [defPert])
    (uniX false 3 1 oT)).1
  have hd : (uniSys false false false 3 .outlet).c.doE 0 = true := rfl
  have hp : (uniSys false false false 3 .outlet).c.pts = 4 := rfl
  rw [jacobian_exact_partial (uniSys false false false 3 .outlet) (by decide) uni_word
    (uni_compact false false false) defPert rfl _ _ 1 oT 1 oT (by decide) (by decide) (by decide)
    (by decide)]
  have key : ∀ X : Sol, refF (uniSys false false false 3 .outlet) (uniX false 3) b X 1 oT
      = X 1 oT - 300 := by
    intro X
    simp only [refF, frozenRes, sysRes, hp, bdryActive]
    norm_num
    simp [leftRb, uniSys, cell, energy, flowPart, uniCfg]
  rw [key, key, setAt_same]
  rw [div_eq_one_iff_eq hdx]
  ring

example (b : Buf) : (evalJacobian (uniSys false false false 3 .outlet) defPert (uniX false 3) b).X
    = uniX false 3 :=
  (jacobian_spec_partial (uniSys false false false 3 .outlet) (by decide) uni_word
    (uni_compact false false false) defPert le_rfl _ _).1

example (b b' : Buf) (h : ∀ j, b.q j = b'.q j) (i n : ℕ) :
    (evalSys (uniSys false false false 3 .outlet) 0 none (uniX false 3) b).2 i n =
      (evalSys (uniSys false false false 3 .outlet) 0 none (uniX false 3) b').2 i n :=
  full_history_free_partial _ (by decide) (fun h => by simp [uniSys, uniCfg, exCfg] at h) _ _ _ _
    (fun _ => h) i n

/-- The species equations of the example have a time derivative, the temperature of the inlet
does not. -/
example : mask (uniSys false false false 3 .outlet) 2 oY = 1 ∧
    mask (uniSys false false false 3 .outlet) 1 oT = 0 := by
  constructor <;> simp [mask, flowMask, uniSys, uniCfg, exCfg, oY, oT]

/-- Flows with radiation to cold surroundings are covered. -/
example : Compact { uniCfg false false false with rad := true, kCO2 := some 0 } :=
  ⟨fun _ _ _ _ => rfl, fun _ => ⟨rfl, rfl⟩⟩

/-! ## Limits -/

/-- Carbon dioxide at 1000 K between an inlet and an outlet, with radiation if `r`, and wall
emissivity `e` at the left. -/
noncomputable def radSys (r : Bool) (e : ℝ) : Sys :=
  { c := { uniCfg false false false with rad := r, kCO2 := some 0, epsL := e }
    L := .inlet 1000 0 0 (fun k => if k = 0 then 1 else 0), R := .outlet }

/-- The gas at rest; the temperature of the first point is `t`. -/
noncomputable def radX (t : ℝ) : Sol := fun p n =>
  if n = oT then (if p = 1 then t else 1000) else if n = oY then 1 else 0

/-- The energy equation of the third point is the radiation. -/
theorem rad_res (r : Bool) (e t : ℝ) (tc : ℕ → TCol) (kL kR : ℕ) (q : ℕ → ℝ) :
    frozenRes (radSys r e) 0 tc kL kR q (radX t) 3 oT =
      -(frozen (radSys r e).c tc kL kR q (flowPart (radX t))).q 2 := by
  have hp : (radSys r e).c.pts = 4 := rfl
  have hd : (radSys r e).c.doE 2 = true := rfl
  have hn : (radSys r e).c.nsp = 2 := rfl
  simp only [frozenRes, sysRes, hp, bdryActive]
  rw [if_neg (by decide), if_neg (by decide), if_neg (by decide), if_neg (by decide),
    if_pos (by decide), if_pos (by decide)]
  show energy _ _ _ _ 2 = _
  have hu : flowPart (radX t) 2 oU = 0 := by simp [flowPart, radX, oU, oT, oY]
  have hT : ∀ j, 0 < j → flowPart (radX t) j oT = 1000 := by
    intro j hj
    have : j + 1 ≠ 1 := by omega
    simp [flowPart, radX, oT]
    omega
  have hc : conduction (radSys r e).c (frozen (radSys r e).c tc kL kR q (flowPart (radX t)))
      (flowPart (radX t)) 2 = 0 := by
    unfold conduction
    rw [hT 2 (by omega), hT (2 + 1) (by omega), hT (2 - 1) (by omega)]
    simp
  simp only [energy, hp, hd, if_true]
  norm_num
  unfold energySS rhoU
  rw [hc, hu]
  simp [frozen, frozPre, gasAt, gradH, radSys, uniCfg, exCfg]

theorem rad_q (e t : ℝ) (tc : ℕ → TCol) (kL kR : ℕ) (q : ℕ → ℝ) :
    (frozen (radSys true e).c tc kL kR q (flowPart (radX t))).q 2 =
      2 * (27.3741 / 101325) * (2 * 1000 ^ 4 - e * t ^ 4) := by
  have : planck cCO2 1000 = 27.3741 / 101325 := by
    norm_num [planck, cCO2, sum_range_succ]
  simp [frozen, frozPre, radLoss, radSys, uniCfg, exCfg, Xf, Yv, flowPart, radX, gasAt, oY, oT]
  left
  rw [this]

/-- **C55 (violation)** After radiation has been switched off the heat loss of the last evaluation
with radiation is still subtracted: the residual is not the one of a flow that never had
radiation (Flow1D.cpp:336-338, 677). -/
theorem radiation_stale (b : Buf) (h : b.q 2 = 0) :
    (evalSys (radSys false 0) 0 none (radX 1000) b).2 3 oT = 0 ∧
    (evalSys (radSys false 0) 0 none (radX 1000)
      (bufAfter (radSys true 0) 0 (radX 1000) b)).2 3 oT < 0 := by
  have h2 : ∀ r, 2 ≤ (radSys r 0).c.pts := fun r => by simp [radSys, uniCfg, exCfg]
  have hq : ∀ b : Buf, (evalSys (radSys false 0) 0 none (radX 1000) b).2 3 oT = -b.q 2 := by
    intro b
    rw [full_eq _ (h2 false), rad_res]
    simp [frozen, radSys]
  constructor
  · rw [hq, h, neg_zero]
  · rw [hq]
    have e1 : (evalSys (radSys true 0) 0 none (radX 1000) b).2 3 oT
        = -(bufAfter (radSys true 0) 0 (radX 1000) b).q 2 := by
      rw [full_eq _ (h2 true), rad_res]
      congr 1
    rw [← e1, full_eq _ (h2 true), rad_res, rad_q]
    norm_num

/-- Entries between points that are not adjacent are never set. -/
theorem jac_far (S : Sys) (P : Pert) (w1 : Sol) (s : JState) (k : ℕ) (i m p n : ℕ)
    (h : p + 1 < i ∨ i + 1 < p) (hs : s.J i m p n = 0) : (jacLoop S P w1 k s).J i m p n = 0 := by
  have hcol : ∀ p' n' s, JState.J s i m p n = 0 → (jacCol S P w1 p' n' s).J i m p n = 0 := by
    intro p' n' s hs
    simp only [jacCol]
    rw [if_neg, hs]
    rintro ⟨⟨rfl, rfl⟩, h1, -⟩
    omega
  have hpt : ∀ p' k s, JState.J s i m p n = 0 → (jacPoint S P w1 p' k s).J i m p n = 0 := by
    intro p' k s hs
    induction k with
    | zero => exact hs
    | succ k ih => exact hcol _ _ _ ih
  induction k with
  | zero => exact hs
  | succ k ih => exact hpt _ _ _ ih

/-- **C55 (violation)** Radiation from a wall couples the temperature of the boundary point with
the energy equations of all points; these entries are missing in the Jacobian
(Flow1D.cpp:505-507). -/
theorem wall_coupling_missed (b : Buf) :
    (evalJacobian (radSys true (1 / 2)) ⟨0, 0, 1⟩ (radX 1000) b).J 3 oT 1 oT = 0 ∧
    refF (radSys true (1 / 2)) (radX 1000) b (setAt (radX 1000) 1 oT (1000 + 1)) 3 oT
      ≠ refF (radSys true (1 / 2)) (radX 1000) b (radX 1000) 3 oT := by
  constructor
  · exact jac_far _ _ _ _ _ _ _ _ _ (by omega) rfl
  · have : setAt (radX 1000) 1 oT (1000 + 1) = radX 1001 := by
      funext i m
      unfold setAt radX
      by_cases h1 : i = 1 <;> by_cases h2 : m = oT <;> simp [h1, h2]
      norm_num
    rw [this]
    unfold refF
    rw [rad_res, rad_res, rad_q, rad_q]
    norm_num

/-- **C55 (violation)** The point before a flow domain that is not the first point of the stack:
the local index underflows, no point of the flow is evaluated, and its residual stays what it was
(zero), although the first point is read for the column.  This concerns a flow at the right of a
reacting surface that has another flow at its left (Flow1D.cpp:315, 329-331). -/
theorem underflow_unevaluated (c : Cfg) (first : ℕ) (h1 : 2 ≤ first) (hf : first < word)
    (hp : c.pts + 3 < word) (rdt : ℝ) (x : Sol) (b : Buf) (r : Sol) :
    skipped c first (some (first - 1)) = false ∧
    (evalFlow c first rdt (some (first - 1)) x b r).2 = r := by
  have hs : skipped c first (some (first - 1)) = false := by simp [skipped]; omega
  refine ⟨hs, ?_⟩
  have e : (first - 1 + word - first) % word = word - 1 := by
    have : first - 1 + word - first = word - 1 := by omega
    rw [this, Nat.mod_eq_of_lt (by omega)]
  have e2 : (word - 1 + 1) % word = 0 := by
    rw [Nat.sub_add_cancel (by omega), Nat.mod_self]
  have h0 : first - 1 ≠ 0 := by omega
  funext j n
  simp only [evalFlow, hs, evalRange, h0, e, e2, if_false, Bool.false_eq_true]
  rw [if_neg (by omega)]

end Verif.OneDim.Flow
