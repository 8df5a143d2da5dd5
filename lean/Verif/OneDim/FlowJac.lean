import Verif.OneDim.FlowEx

/-!
# C55: local evaluations and the Jacobian of the one-dimensional system
-/

namespace Verif.OneDim.Flow

open Finset

/-! ## The reference: residual with frozen transport properties -/

/-- Transport properties used for the interval `j`: the stored ones, or (with
`force_full_update`) new ones. -/
noncomputable def frozTc (c : Cfg) (x : Sol) (tc : ℕ → TCol) (j : ℕ) : TCol :=
  if c.force then trCol c x j (tc j) else tc j

/-- Gas properties of the solution `x` at all points, transport properties `frozTc`; no fluxes
yet. -/
noncomputable def frozPre (c : Cfg) (tc : ℕ → TCol) (kL kR : ℕ) (q : ℕ → ℝ) (x : Sol) : Buf :=
  { rho := fun j => (gasAt c x j).rho
    wtm := fun j => (gasAt c x j).wtm
    cp := fun j => (gasAt c x j).cp
    hk := fun j => (gasAt c x j).hk
    wdot := fun j => (gasAt c x j).wdot
    tc := frozTc c x tc
    flux := fun _ _ => 0
    q := q
    kL := kL
    kR := kR }

/-- All properties as functions of the solution. -/
noncomputable def frozen (c : Cfg) (tc : ℕ → TCol) (kL kR : ℕ) (q : ℕ → ℝ) (x : Sol) : Buf :=
  { frozPre c tc kL kR q x with
    flux := fun j => fluxCol c (frozPre c tc kL kR q x) x j
    q := fun j => if c.rad then radLoss c (frozPre c tc kL kR q x) x j else q j }

/-- The residual of the stack as function of the solution, given the transport properties `tc`,
the species `kL`, `kR` whose equations are replaced, and (without radiation) the stored heat
loss `q`. -/
noncomputable def frozenRes (S : Sys) (rdt : ℝ) (tc : ℕ → TCol) (kL kR : ℕ) (q : ℕ → ℝ) (X : Sol) :
    Sol :=
  sysRes S rdt none X (frozen S.c tc kL kR q (flowPart X))
    (fun j n => if j ≤ S.c.pts - 1 then
      cell S.c (frozen S.c tc kL kR q (flowPart X)) rdt (flowPart X) j n else 0)

/-! ## On what the residual at a point depends -/

/-- Agreement of the work arrays in the columns read for the point `j`. -/
structure Near (c : Cfg) (b b' : Buf) (j : ℕ) : Prop where
  rho : ∀ i, i < c.pts → i ≤ j + 1 → j ≤ i + 1 → b.rho i = b'.rho i
  hk : ∀ i, i < c.pts → i ≤ j + 1 → j ≤ i + 1 → b.hk i = b'.hk i
  wdot : b.wdot j = b'.wdot j
  cp : b.cp j = b'.cp j
  visc : ∀ i, i + 1 < c.pts → i ≤ j → j ≤ i + 1 → (b.tc i).visc = (b'.tc i).visc
  tcon : ∀ i, i + 1 < c.pts → i ≤ j → j ≤ i + 1 → (b.tc i).tcon = (b'.tc i).tcon
  flux : ∀ i, i + 1 < c.pts → i ≤ j → j ≤ i + 1 → b.flux i = b'.flux i
  q : 0 < j → j + 1 < c.pts → b.q j = b'.q j
  rho0 : 0 < j → j + 1 < c.pts → c.lam = false → c.free = true → c.z j = c.zfixed →
    c.doE j = false → b.rho 0 = b'.rho 0
  kL : j = 0 → b.kL = b'.kL
  kR : j + 1 = c.pts → b.kR = b'.kR

theorem jloc_cases (x : Sol) (j : ℕ) : jloc x j = j ∨ jloc x j = j + 1 := by
  unfold jloc; split_ifs <;> simp

theorem cell_congr (c : Cfg) (h2 : 2 ≤ c.pts) (b b' : Buf) (rdt : ℝ) (x x' : Sol) (j n : ℕ)
    (hj : j < c.pts) (hb : Near c b b' j)
    (hx : ∀ i, i < c.pts → i ≤ j + 1 → j ≤ i + 1 → x i = x' i) :
    cell c b rdt x j n = cell c b' rdt x' j n := by
  have x0 : x j = x' j := hx j hj (by omega) (by omega)
  have r0 : b.rho j = b'.rho j := hb.rho j hj (by omega) (by omega)
  have u0 : rhoU b x j = rhoU b' x' j := by unfold rhoU; rw [x0, r0]
  have xp : j + 1 < c.pts → x (j + 1) = x' (j + 1) := fun h => hx _ h le_rfl (by omega)
  have rp : j + 1 < c.pts → b.rho (j + 1) = b'.rho (j + 1) := fun h => hb.rho _ h le_rfl (by omega)
  have up : j + 1 < c.pts → rhoU b x (j + 1) = rhoU b' x' (j + 1) := fun h => by
    unfold rhoU; rw [xp h, rp h]
  have xm : x (j - 1) = x' (j - 1) := hx _ (by omega) (by omega) (by omega)
  have rm : b.rho (j - 1) = b'.rho (j - 1) := hb.rho _ (by omega) (by omega) (by omega)
  have um : rhoU b x (j - 1) = rhoU b' x' (j - 1) := by unfold rhoU; rw [xm, rm]
  have hjl : jloc x j = jloc x' j := by unfold jloc; rw [x0]
  have hup : ∀ m, 0 < j → j + 1 < c.pts → upwind c x m j = upwind c x' m j := by
    intro m h0 h1
    unfold upwind
    rw [hjl]
    rcases jloc_cases x' j with e | e <;> rw [e]
    · rw [x0, xm]
    · rw [Nat.add_sub_cancel, xp h1, x0]
  have hgr : ∀ k, 0 < j → j + 1 < c.pts → gradH c b x j k = gradH c b' x' j k := by
    intro k h0 h1
    unfold gradH
    rw [hjl]
    rcases jloc_cases x' j with e | e <;> rw [e]
    · rw [hb.hk j hj (by omega) (by omega), hb.hk (j - 1) (by omega) (by omega) (by omega)]
    · rw [Nat.add_sub_cancel, hb.hk (j + 1) h1 (by omega) (by omega),
        hb.hk j hj (by omega) (by omega)]
  have h0p : j = 0 → j + 1 < c.pts := by omega
  have hint : j ≠ 0 → j ≠ c.pts - 1 → 0 < j ∧ j + 1 < c.pts := by omega
  have hY : ∀ k, Yv x j k = Yv x' j k := fun k => by unfold Yv; rw [x0]
  rcases n with - | - | - | - | - | - | k
  · show continuity c b x j = continuity c b' x' j
    unfold continuity
    by_cases e0 : j = 0
    · rw [if_pos e0, if_pos e0, up (h0p e0), u0, rp (h0p e0), xp (h0p e0), r0, x0]
    rw [if_neg e0, if_neg e0]
    by_cases e1 : j = c.pts - 1
    · rw [if_pos e1, if_pos e1, u0, um]
    rw [if_neg e1, if_neg e1]
    obtain ⟨g0, g1⟩ := hint e0 e1
    rw [up g1, u0, um, rp g1, r0, xp g1, x0]
    by_cases hl : c.lam = true
    · simp only [hl, if_true]
    by_cases hf : c.free = true
    · simp only [hl, hf, if_true, Bool.false_eq_true, if_false]
      by_cases hd : c.doE j = true
      · simp only [hd, if_true]
      · by_cases hz : c.z j = c.zfixed
        · rw [hb.rho0 g0 g1 (by simpa using hl) hf hz (by simpa using hd)]
        · simp only [hz, if_false]
    · simp only [hl, hf, Bool.false_eq_true, if_false]
  · show momentum c b rdt x j = momentum c b' rdt x' j
    unfold momentum
    by_cases hl : c.lam = false
    · rw [if_pos hl, if_pos hl, x0]
    by_cases e0 : j = 0
    · rw [if_neg hl, if_neg hl, if_pos e0, if_pos e0, x0]
    by_cases e1 : j = c.pts - 1
    · rw [if_neg hl, if_neg hl, if_neg e0, if_neg e0, if_pos e1, if_pos e1, x0]
    obtain ⟨g0, g1⟩ := hint e0 e1
    have hs : shear c b x j = shear c b' x' j := by
      unfold shear
      rw [hb.visc j g1 le_rfl (by omega), hb.visc (j - 1) (by omega) (by omega) (by omega), xp g1,
        x0, xm]
    rw [hs, u0, hup _ g0 g1, r0, x0]
  · show energy c b rdt x j = energy c b' rdt x' j
    unfold energy
    by_cases e0 : j = 0
    · rw [if_pos e0, if_pos e0, x0]
    by_cases e1 : j = c.pts - 1
    · rw [if_neg e0, if_neg e0, if_pos e1, if_pos e1, x0]
    obtain ⟨g0, g1⟩ := hint e0 e1
    have hcd : conduction c b x j = conduction c b' x' j := by
      unfold conduction
      rw [hb.tcon j g1 le_rfl (by omega), hb.tcon (j - 1) (by omega) (by omega) (by omega), xp g1,
        x0, xm]
    have hss : energySS c b x j = energySS c b' x' j := by
      unfold energySS
      rw [hcd, hb.cp, u0, hup _ g0 g1, r0, hb.q g0 g1, hb.wdot, hb.hk j hj (by omega) (by omega),
        hb.flux j g1 le_rfl (by omega), hb.flux (j - 1) (by omega) (by omega) (by omega)]
      simp only [hgr _ g0 g1]
    rw [hss, x0]
  · show lambdaEq c b x j = lambdaEq c b' x' j
    unfold lambdaEq
    by_cases e0 : j = 0
    · simp only [if_pos e0]
      rw [xp (h0p e0), x0, u0]
    by_cases e1 : j = c.pts - 1
    · simp only [if_neg e0, if_pos e1]
      rw [x0, xm]
    obtain ⟨g0, g1⟩ := hint e0 e1
    rw [xp g1, x0, xm, u0]
  · show x j oE = x' j oE
    rw [x0]
  · show uoEq c x j = uoEq c x' j
    unfold uoEq
    by_cases e0 : j = 0
    · simp only [if_pos e0]
      rw [xp (h0p e0), x0]
    by_cases e1 : j = c.pts - 1
    · simp only [if_neg e0, if_pos e1]
      rw [x0, xm]
    obtain ⟨g0, g1⟩ := hint e0 e1
    rw [xp g1, x0, xm]
  · show (if k < c.nsp then species c b rdt x j k else 0)
      = if k < c.nsp then species c b' rdt x' j k else 0
    have : species c b rdt x j k = species c b' rdt x' j k := by
      unfold species
      by_cases e0 : j = 0
      · simp only [if_pos e0]
        rw [hb.kL e0, hb.flux j (h0p e0) le_rfl (by omega), u0]
        simp only [hY]
      by_cases e1 : j = c.pts - 1
      · simp only [if_neg e0, if_pos e1]
        rw [hb.kR (by omega), hb.flux (j - 1) (by omega) (by omega) (by omega), u0]
        simp only [hY]
      obtain ⟨g0, g1⟩ := hint e0 e1
      simp only [if_neg e0, if_neg e1]
      rw [hb.wdot, u0, hup _ g0 g1, hb.flux j g1 le_rfl (by omega),
        hb.flux (j - 1) (by omega) (by omega) (by omega), r0, x0]
    rw [this]

theorem fluxCol_congr2 (c : Cfg) (b b' : Buf) (x x' : Sol) (j : ℕ) (ht : b.tc j = b'.tc j)
    (hw : b.wtm j = b'.wtm j) (hw' : b.wtm (j + 1) = b'.wtm (j + 1)) (hx : x j = x' j)
    (hx' : x (j + 1) = x' (j + 1)) : fluxCol c b x j = fluxCol c b' x' j := by
  rw [fluxCol_congr c b b' x j ht hw hw']
  funext k
  have h : ∀ k, rawFlux c b' x j k = rawFlux c b' x' j k := fun k => by
    unfold rawFlux Xf Yv; rw [hx, hx']
  unfold fluxCol diffFlux
  simp only [h]
  unfold Xf Yv gradLogT
  rw [hx, hx']

theorem trCol_congr (c : Cfg) (x x' : Sol) (j : ℕ) (o : TCol) (hx : x j = x' j)
    (hx' : x (j + 1) = x' (j + 1)) : trCol c x j o = trCol c x' j o := by
  have : trAt c x j = trAt c x' j := by unfold trAt Yv; rw [hx, hx']
  unfold trCol
  rw [this]

theorem trCol_idem (c : Cfg) (x x' : Sol) (j : ℕ) (o : TCol) :
    trCol c x j (trCol c x' j o) = trCol c x j o := by
  unfold trCol
  cases c.multi <;> cases c.soret <;> simp

/-- Without the exceptional forms of the equations that read far points: a free flame without
energy equation at its fixed point (Flow1D.cpp:556), and radiation from walls
(Flow1D.cpp:505-507). -/
structure Compact (c : Cfg) : Prop where
  fixed : c.lam = false → c.free = true → ∀ j, c.z j = c.zfixed → c.doE j = true
  walls : c.rad = true → c.epsL = 0 ∧ c.epsR = 0

theorem radLoss_congr (c : Cfg) (hc : c.rad = true → c.epsL = 0 ∧ c.epsR = 0) (b b' : Buf)
    (x x' : Sol) (j : ℕ) (hr : c.rad = true) (hw : b.wtm j = b'.wtm j) (hx : x j = x' j) :
    radLoss c b x j = radLoss c b' x' j := by
  obtain ⟨h1, h2⟩ := hc hr
  unfold radLoss Xf Yv
  rw [h1, h2, hw, hx]
  simp only [zero_mul, sub_zero]

/-- **C55** The residual at a point of the flow depends on this point and its neighbours only. -/
theorem frozen_cell_local (c : Cfg) (h2 : 2 ≤ c.pts) (hc : Compact c) (tc : ℕ → TCol)
    (kL kR : ℕ) (q : ℕ → ℝ) (rdt : ℝ) (x x' : Sol) (j n : ℕ) (hj : j < c.pts)
    (hx : ∀ i, i < c.pts → i ≤ j + 1 → j ≤ i + 1 → x i = x' i) :
    cell c (frozen c tc kL kR q x) rdt x j n = cell c (frozen c tc kL kR q x') rdt x' j n := by
  have hg : ∀ i, i < c.pts → i ≤ j + 1 → j ≤ i + 1 → gasAt c x i = gasAt c x' i := by
    intro i h1 h2 h3
    unfold gasAt Yv
    rw [hx i h1 h2 h3]
  have htc : ∀ i, i + 1 < c.pts → i ≤ j → j ≤ i + 1 → frozTc c x tc i = frozTc c x' tc i := by
    intro i h1 h2 h3
    unfold frozTc
    rw [trCol_congr c x x' i _ (hx i (by omega) (by omega) h3) (hx (i + 1) h1 (by omega) (by omega))]
  apply cell_congr c h2 _ _ _ _ _ _ _ hj _ hx
  refine ⟨?_, ?_, ?_, ?_, ?_, ?_, ?_, ?_, ?_, ?_, ?_⟩
  · intro i h1 h2 h3; simp only [frozen, frozPre]; rw [hg i h1 h2 h3]
  · intro i h1 h2 h3; simp only [frozen, frozPre]; rw [hg i h1 h2 h3]
  · simp only [frozen, frozPre]; rw [hg j hj (by omega) (by omega)]
  · simp only [frozen, frozPre]; rw [hg j hj (by omega) (by omega)]
  · intro i h1 h2 h3; simp only [frozen, frozPre]; rw [htc i h1 h2 h3]
  · intro i h1 h2 h3; simp only [frozen, frozPre]; rw [htc i h1 h2 h3]
  · intro i h1 h2 h3
    simp only [frozen]
    apply fluxCol_congr2
    · simp only [frozPre]; rw [htc i h1 h2 h3]
    · simp only [frozPre]; rw [hg i (by omega) (by omega) (by omega)]
    · simp only [frozPre]; rw [hg (i + 1) (by omega) (by omega) (by omega)]
    · exact hx i (by omega) (by omega) (by omega)
    · exact hx (i + 1) (by omega) (by omega) (by omega)
  · intro _ _
    simp only [frozen]
    by_cases hr : c.rad = true
    · rw [if_pos hr, if_pos hr]
      apply radLoss_congr c hc.walls _ _ _ _ _ hr
      · simp only [frozPre]; rw [hg j hj (by omega) (by omega)]
      · exact hx j hj (by omega) (by omega)
    · rw [if_neg hr, if_neg hr]
  · intro _ _ hl hf hz hd
    rw [hc.fixed hl hf j hz] at hd
    exact absurd hd (by simp)
  · intro _; rfl
  · intro _; rfl

/-! ## Full evaluations -/

/-- The residual of the stack depends on the work arrays through the residual of the flow at the
row considered, the densities at the ends and the replaced species. -/
theorem sysRes_congr (S : Sys) (h2 : 2 ≤ S.c.pts) (rdt : ℝ) (jg jg' : Option ℕ) (X : Sol)
    (b b' : Buf) (r r' : Sol) (i n : ℕ)
    (hL : i ≤ 1 → bdryActive 0 jg = bdryActive 0 jg')
    (hR : S.c.pts ≤ i → bdryActive (S.c.pts + 1) jg = bdryActive (S.c.pts + 1) jg')
    (hr : 0 < i → i ≤ S.c.pts → ∀ m, r (i - 1) m = r' (i - 1) m)
    (h0 : i = 1 → b.rho 0 = b'.rho 0 ∧ b.kL = b'.kL)
    (h1 : i = S.c.pts → b.rho (S.c.pts - 1) = b'.rho (S.c.pts - 1) ∧ b.kR = b'.kR) :
    sysRes S rdt jg X b r i n = sysRes S rdt jg' X b' r' i n := by
  unfold sysRes
  by_cases e0 : i = 0
  · rw [if_pos e0, if_pos e0, hL (by omega)]
  rw [if_neg e0, if_neg e0]
  by_cases e1 : i = S.c.pts + 1
  · rw [if_pos e1, if_pos e1, hR (by omega)]
  rw [if_neg e1, if_neg e1]
  by_cases e2 : i = 1
  · rw [if_pos e2, if_pos e2, hL (by omega)]
    have hh : r 0 = r' 0 := funext fun m => by
      have := hr (by omega) (by omega) m
      rwa [e2] at this
    have : leftRb S.c S.L b (flowPart X) (r 0) n = leftRb S.c S.L b' (flowPart X) (r' 0) n := by
      obtain ⟨g1, g2⟩ := h0 e2
      rw [hh]
      unfold leftRb leftMdot
      rw [g1, g2]
    rw [this, hh]
  rw [if_neg e2, if_neg e2]
  by_cases e3 : i = S.c.pts
  · rw [if_pos e3, if_pos e3, hR (by omega)]
    have hh : r (S.c.pts - 1) = r' (S.c.pts - 1) := funext fun m => by
      have := hr (by omega) (by omega) m
      rwa [e3] at this
    have : rightRb S.c S.R b (flowPart X) (X (S.c.pts + 1)) (r (S.c.pts - 1)) n
        = rightRb S.c S.R b' (flowPart X) (X (S.c.pts + 1)) (r' (S.c.pts - 1)) n := by
      obtain ⟨g1, g2⟩ := h1 e3
      rw [hh]
      unfold rightRb rightMdot
      rw [g1, g2]
    rw [this, hh]
  rw [if_neg e3, if_neg e3]
  by_cases e4 : i ≤ S.c.pts
  · rw [if_pos e4, if_pos e4, hr (by omega) e4]
  · rw [if_neg e4, if_neg e4]

/-- The work arrays after the full evaluation of `X`, at the points and intervals of the grid. -/
theorem full_buf (S : Sys) (rdt : ℝ) (X : Sol) (b : Buf) :
    (∀ j, j < S.c.pts → (bufAfter S rdt X b).rho j = (gasAt S.c (flowPart X) j).rho ∧
      (bufAfter S rdt X b).wtm j = (gasAt S.c (flowPart X) j).wtm ∧
      (bufAfter S rdt X b).cp j = (gasAt S.c (flowPart X) j).cp ∧
      (bufAfter S rdt X b).hk j = (gasAt S.c (flowPart X) j).hk ∧
      (bufAfter S rdt X b).wdot j = (gasAt S.c (flowPart X) j).wdot) ∧
    (∀ j, j + 1 < S.c.pts →
      (bufAfter S rdt X b).tc j = trCol S.c (flowPart X) j (b.tc j)) ∧
    (S.c.rad = false → (bufAfter S rdt X b).q = b.q) ∧
    (S.c.rad = true → ∀ j, j + 1 < S.c.pts →
      (bufAfter S rdt X b).q j = radLoss S.c (bufAfter S rdt X b) (flowPart X) j) := by
  simp only [bufAfter, evalSys, evalFlow, skipped, Bool.false_eq_true, if_false, evalRange,
    Option.isNone_none, updateProperties, Bool.true_or, if_true]
  refine ⟨fun j hj => ?_, fun j hj => ?_, fun hr => ?_, fun hr j hj => ?_⟩
  · have h1 : max 0 1 - 1 ≤ j ∧ j ≤ min (S.c.pts - 1 + 1) (S.c.pts - 1) := by omega
    cases S.c.rad <;> simp only [computeRadiation, updateDiffFluxes, updateTransport, updateThermo,
      Bool.false_eq_true, if_false, if_true, if_pos h1] <;> simp
  · have h1 : max 0 1 - 1 ≤ j ∧ j < min (S.c.pts - 1 + 1) (S.c.pts - 1) := by omega
    cases S.c.rad <;> simp only [computeRadiation, updateDiffFluxes, updateTransport, updateThermo,
      Bool.false_eq_true, if_false, if_true, if_pos h1]
  · simp [hr, updateDiffFluxes, updateTransport, updateThermo]
  · have h1 : 0 ≤ j ∧ j < S.c.pts - 1 := by omega
    simp only [hr, if_true, computeRadiation, if_pos h1]
    rfl

/-- The work arrays with the properties of the solution agree with `frozen` near every point, for
any transport properties that have the same effect. -/
theorem near_frozen (c : Cfg) (b : Buf) (x : Sol) (tc : ℕ → TCol) (kL kR : ℕ) (q : ℕ → ℝ) (j : ℕ)
    (hg : ∀ i, i < c.pts → i ≤ j + 1 → j ≤ i + 1 → b.rho i = (gasAt c x i).rho ∧
      b.hk i = (gasAt c x i).hk)
    (hg0 : b.cp j = (gasAt c x j).cp ∧ b.wdot j = (gasAt c x j).wdot)
    (ht : ∀ i, i + 1 < c.pts → i ≤ j → j ≤ i + 1 → (b.tc i).visc = (frozTc c x tc i).visc ∧
      (b.tc i).tcon = (frozTc c x tc i).tcon)
    (hf : ∀ i, i + 1 < c.pts → i ≤ j → j ≤ i + 1 →
      b.flux i = fluxCol c (frozPre c tc kL kR q x) x i)
    (hq : 0 < j → j + 1 < c.pts → b.q j = (frozen c tc kL kR q x).q j)
    (h0 : 0 < j → j + 1 < c.pts → c.lam = false → c.free = true → c.z j = c.zfixed →
      c.doE j = false → b.rho 0 = (gasAt c x 0).rho)
    (hkL : j = 0 → b.kL = kL) (hkR : j + 1 = c.pts → b.kR = kR) :
    Near c b (frozen c tc kL kR q x) j :=
  ⟨fun i a1 a2 a3 => (hg i a1 a2 a3).1, fun i a1 a2 a3 => (hg i a1 a2 a3).2, hg0.2, hg0.1,
    fun i a1 a2 a3 => (ht i a1 a2 a3).1, fun i a1 a2 a3 => (ht i a1 a2 a3).2, hf, hq, h0, hkL, hkR⟩

/-- What a full evaluation leaves has, with the transport properties it has stored, the residual it
has returned. -/
theorem full_near (S : Sys) (rdt : ℝ) (X : Sol) (b : Buf) (tc : ℕ → TCol) (q : ℕ → ℝ)
    (htc : ∀ j, j + 1 < S.c.pts → frozTc S.c (flowPart X) tc j = trCol S.c (flowPart X) j (b.tc j))
    (hq : S.c.rad = false → ∀ j, j + 1 < S.c.pts → b.q j = q j) (j : ℕ) (hj : j < S.c.pts) :
    Near S.c (bufAfter S rdt X b)
      (frozen S.c tc (bufAfter S rdt X b).kL (bufAfter S rdt X b).kR q (flowPart X)) j := by
  obtain ⟨h1, h3, h4, h5⟩ := full_buf S rdt X b
  apply near_frozen
  · intro i a1 _ _; exact ⟨(h1 i a1).1, (h1 i a1).2.2.2.1⟩
  · exact ⟨(h1 j hj).2.2.1, (h1 j hj).2.2.2.2⟩
  · intro i a1 _ _; rw [h3 i a1, htc i a1]; exact ⟨rfl, rfl⟩
  · intro i a1 _ _
    rw [buf_flux S rdt X b i a1]
    apply fluxCol_congr
    · rw [h3 i a1]; simp only [frozPre]; rw [htc i a1]
    · rw [(h1 i (by omega)).2.1]; rfl
    · rw [(h1 (i + 1) a1).2.1]; rfl
  · intro a0 a1
    by_cases hr : S.c.rad = true
    · rw [h5 hr j a1]
      simp only [frozen, if_pos hr]
      unfold radLoss Xf
      rw [(h1 j hj).2.1]
      rfl
    · have hr' : S.c.rad = false := by simpa using hr
      rw [h4 hr', hq hr' j a1]
      simp only [frozen, if_neg hr]
  · intro _ _ _ _ _ _; exact (h1 0 (by omega)).1
  · intro _; rfl
  · intro _; rfl

/-- **C55** A full evaluation is the reference residual with the transport properties it
stores. -/
theorem full_eq (S : Sys) (h2 : 2 ≤ S.c.pts) (rdt : ℝ) (X : Sol) (b : Buf) (i n : ℕ) :
    (evalSys S rdt none X b).2 i n =
      frozenRes S rdt (bufAfter S rdt X b).tc (bufAfter S rdt X b).kL (bufAfter S rdt X b).kR b.q X
        i n := by
  obtain ⟨h1, h3, -, -⟩ := full_buf S rdt X b
  have hfz : ∀ j, j + 1 < S.c.pts →
      frozTc S.c (flowPart X) (bufAfter S rdt X b).tc j = trCol S.c (flowPart X) j (b.tc j) := by
    intro j hj
    unfold frozTc
    rw [h3 j hj, trCol_idem]
    simp
  unfold frozenRes
  show sysRes S rdt none X (bufAfter S rdt X b) _ i n = _
  apply sysRes_congr S h2
  · intro _; rfl
  · intro _; rfl
  · intro a0 a1 m
    rw [evalFlow_full _ _ _ _ _ _ _ _ (by omega), if_pos (by omega)]
    exact cell_congr S.c h2 _ _ _ _ _ _ _ (by omega)
      (full_near S rdt X b _ b.q hfz (fun _ _ _ => rfl) (i - 1) (by omega)) (fun _ _ _ _ => rfl)
  · intro _; exact ⟨(h1 0 (by omega)).1, rfl⟩
  · intro _; exact ⟨(h1 _ (by omega)).1, rfl⟩

theorem fluxCol_fresh (c : Cfg) (hs : c.soret = true → c.multi = true) (b b' : Buf) (x : Sol)
    (j : ℕ) (o o' : TCol) (h : b.tc j = trCol c x j o) (h' : b'.tc j = trCol c x j o')
    (hw : b.wtm j = b'.wtm j) (hw' : b.wtm (j + 1) = b'.wtm (j + 1)) :
    fluxCol c b x j = fluxCol c b' x j := by
  have hd : (b.tc j).diff = (b'.tc j).diff := by rw [h, h']; rfl
  have hm : c.multi = true → (b.tc j).multi = (b'.tc j).multi := fun e => by
    rw [h, h']; simp [trCol, e]
  have ht : c.soret = true → (b.tc j).dth = (b'.tc j).dth := fun e => by
    rw [h, h']; simp [trCol, e, hs e]
  funext k
  have hdf : diffFlux c b x j k = diffFlux c b' x j k := by
    unfold diffFlux
    by_cases e : c.multi = true
    · rw [if_pos e, if_pos e, hm e, hd]
      unfold Xf
      rw [hw, hw']
    · rw [if_neg e, if_neg e]
      unfold rawFlux Xf
      rw [hd, hw, hw']
  unfold fluxCol
  by_cases e : c.soret = true
  · rw [if_pos e, if_pos e, hdf, ht e]
  · rw [if_neg e, if_neg e, hdf]

/-- **C55** The residual of a full evaluation does not depend on what was evaluated before, unless
radiation has been switched off since (see `radiation_stale`).  The Soret effect without
multicomponent diffusion is refused by Flow1D.cpp:265. -/
theorem full_history_free_partial (S : Sys) (h2 : 2 ≤ S.c.pts)
    (hs : S.c.soret = true → S.c.multi = true) (rdt : ℝ) (X : Sol) (b b' : Buf)
    (hq : S.c.rad = false → ∀ j, b.q j = b'.q j) (i n : ℕ) :
    (evalSys S rdt none X b).2 i n = (evalSys S rdt none X b').2 i n := by
  obtain ⟨h1, h3, h4, h5⟩ := full_buf S rdt X b
  obtain ⟨k1, k3, k4, k5⟩ := full_buf S rdt X b'
  have hL : (bufAfter S rdt X b).kL = (bufAfter S rdt X b').kL := by rw [buf_kL, buf_kL]
  have hR : (bufAfter S rdt X b).kR = (bufAfter S rdt X b').kR := by rw [buf_kR, buf_kR]
  show sysRes S rdt none X (bufAfter S rdt X b) _ i n
    = sysRes S rdt none X (bufAfter S rdt X b') _ i n
  apply sysRes_congr S h2
  · intro _; rfl
  · intro _; rfl
  · intro a0 a1 m
    rw [evalFlow_full _ _ _ _ _ _ _ _ (by omega), evalFlow_full _ _ _ _ _ _ _ _ (by omega)]
    apply cell_congr S.c h2 _ _ _ _ _ _ _ (by omega) _ (fun _ _ _ _ => rfl)
    have hj : i - 1 < S.c.pts := by omega
    refine ⟨?_, ?_, ?_, ?_, ?_, ?_, ?_, ?_, ?_, ?_, ?_⟩
    · intro l a _ _; exact (h1 l a).1.trans (k1 l a).1.symm
    · intro l a _ _; exact (h1 l a).2.2.2.1.trans (k1 l a).2.2.2.1.symm
    · exact (h1 _ hj).2.2.2.2.trans (k1 _ hj).2.2.2.2.symm
    · exact (h1 _ hj).2.2.1.trans (k1 _ hj).2.2.1.symm
    · intro l a _ _; exact (congrArg TCol.visc (h3 l a)).trans (congrArg TCol.visc (k3 l a)).symm
    · intro l a _ _; exact (congrArg TCol.tcon (h3 l a)).trans (congrArg TCol.tcon (k3 l a)).symm
    · intro l a _ _
      refine (buf_flux S rdt X b l a).trans (Eq.trans ?_ (buf_flux S rdt X b' l a).symm)
      exact fluxCol_fresh _ hs _ _ _ _ _ _ (h3 l a) (k3 l a)
        ((h1 l (by omega)).2.1.trans (k1 l (by omega)).2.1.symm)
        ((h1 _ a).2.1.trans (k1 _ a).2.1.symm)
    · intro a a'
      show (bufAfter S rdt X b).q _ = (bufAfter S rdt X b').q _
      by_cases hr : S.c.rad = true
      · rw [h5 hr _ a', k5 hr _ a']
        unfold radLoss Xf
        rw [(h1 _ hj).2.1, (k1 _ hj).2.1]
      · have hr' : S.c.rad = false := by simpa using hr
        rw [h4 hr', k4 hr', hq hr']
    · intro _ _ _ _ _ _; exact (h1 0 (by omega)).1.trans (k1 0 (by omega)).1.symm
    · intro _; exact hL
    · intro _; exact hR
  · intro _; exact ⟨(h1 0 (by omega)).1.trans (k1 0 (by omega)).1.symm, hL⟩
  · intro _; exact ⟨(h1 _ (by omega)).1.trans (k1 _ (by omega)).1.symm, hR⟩

/-! ## Local evaluations -/

theorem evalRange_some (c : Cfg) (p : ℕ) (hp : p ≤ c.pts + 1) (hw : c.pts + 2 < word) :
    evalRange c 1 (some p) = (p - 2, min (max p 1) (c.pts - 1)) := by
  unfold evalRange
  by_cases h : p = 0
  · subst h
    have : (0 + 1) % word = 1 := Nat.mod_eq_of_lt (by omega)
    simp [this]
  · have e : (p + word - 1) % word = p - 1 := by
      have : p + word - 1 = (p - 1) + word := by omega
      rw [this, Nat.add_mod_right, Nat.mod_eq_of_lt (by omega)]
    have e2 : (p - 1 + 1) % word = p := by
      rw [Nat.mod_eq_of_lt (by omega)]; omega
    simp only [h, if_false, e, e2]
    rw [show max (p - 1) 1 - 1 = p - 2 by omega, show max p 1 = p by omega]

theorem not_skipped (c : Cfg) (p : ℕ) (hp : p ≤ c.pts + 1) :
    skipped c 1 (some p) = false := by
  simp [skipped]; omega

/-- The work arrays after a local evaluation. -/
noncomputable def locBuf (S : Sys) (rdt : ℝ) (p : ℕ) (X : Sol) (b : Buf) : Buf :=
  (evalSys S rdt (some p) X b).1

/-- What a local evaluation does with the work arrays. -/
theorem locBuf_spec (S : Sys) (h2 : 2 ≤ S.c.pts) (hw : S.c.pts + 2 < word) (rdt : ℝ) (p : ℕ)
    (hp : p ≤ S.c.pts + 1) (X : Sol) (b : Buf) :
    (∀ j, j < S.c.pts → p ≤ j + 3 → j ≤ max p 1 + 1 →
      (locBuf S rdt p X b).rho j = (gasAt S.c (flowPart X) j).rho ∧
      (locBuf S rdt p X b).wtm j = (gasAt S.c (flowPart X) j).wtm ∧
      (locBuf S rdt p X b).cp j = (gasAt S.c (flowPart X) j).cp ∧
      (locBuf S rdt p X b).hk j = (gasAt S.c (flowPart X) j).hk ∧
      (locBuf S rdt p X b).wdot j = (gasAt S.c (flowPart X) j).wdot) ∧
    (∀ j, j + 1 < S.c.pts → p ≤ j + 3 → j ≤ max p 1 →
      (locBuf S rdt p X b).tc j = frozTc S.c (flowPart X) b.tc j ∧
      (locBuf S rdt p X b).flux j = fluxCol S.c (locBuf S rdt p X b) (flowPart X) j) ∧
    (∀ x j, frozTc S.c x (locBuf S rdt p X b).tc j = frozTc S.c x b.tc j) ∧
    (locBuf S rdt p X b).kL = b.kL ∧ (locBuf S rdt p X b).kR = b.kR ∧
    (S.c.rad = false → (locBuf S rdt p X b).q = b.q) ∧
    (∀ j, max p 1 ≤ j → (locBuf S rdt p X b).q j = b.q j) ∧
    (S.c.rad = true → ∀ j, j + 1 < S.c.pts → p ≤ j + 2 → j < max p 1 →
      (locBuf S rdt p X b).q j = radLoss S.c (locBuf S rdt p X b) (flowPart X) j) := by
  simp only [locBuf, evalSys, evalFlow, not_skipped S.c p hp, Bool.false_eq_true, if_false,
    evalRange_some S.c p hp hw, Option.isNone_some, updateProperties, Bool.false_or]
  refine ⟨fun j a1 a2 a3 => ?_, fun j a1 a2 a3 => ⟨?_, ?_⟩, fun x j => ?_, ?_, ?_, fun hr => ?_,
    fun j a1 => ?_, fun hr j a1 a2 a3 => ?_⟩
  · have h1 : max (p - 2) 1 - 1 ≤ j ∧ j ≤ min (min (max p 1) (S.c.pts - 1) + 1) (S.c.pts - 1) := by
      omega
    cases S.c.rad <;> cases S.c.force <;> simp only [computeRadiation, updateDiffFluxes,
      updateTransport, updateThermo, Bool.false_eq_true, if_false, if_true, if_pos h1] <;> simp
  · have h1 : max (p - 2) 1 - 1 ≤ j ∧ j < min (min (max p 1) (S.c.pts - 1) + 1) (S.c.pts - 1) := by
      omega
    unfold frozTc
    cases S.c.rad <;> cases S.c.force <;> simp only [computeRadiation, updateDiffFluxes,
      updateTransport, updateThermo, Bool.false_eq_true, if_false, if_true, if_pos h1]
  · have h1 : max (p - 2) 1 - 1 ≤ j ∧ j < min (min (max p 1) (S.c.pts - 1) + 1) (S.c.pts - 1) := by
      omega
    have : ∀ b' : Buf, (updateDiffFluxes S.c (flowPart X) (max (p - 2) 1 - 1)
        (min (min (max p 1) (S.c.pts - 1) + 1) (S.c.pts - 1)) b').flux j
        = fluxCol S.c b' (flowPart X) j := by
      intro b'; simp only [updateDiffFluxes, if_pos h1]
    by_cases hr : S.c.rad = true
    · simp only [hr, if_true]
      exact (this _).trans (fluxCol_congr _ _ _ _ _ rfl rfl rfl)
    · simp only [hr]
      exact (this _).trans (fluxCol_congr _ _ _ _ _ rfl rfl rfl)
  · unfold frozTc
    by_cases hf : S.c.force = true
    · cases S.c.rad <;> simp only [hf, if_true, computeRadiation, updateDiffFluxes,
        updateTransport, updateThermo, Bool.false_eq_true, if_false] <;> split_ifs <;>
        first | rfl | rw [trCol_idem]
    · cases S.c.rad <;> simp only [hf, if_true, computeRadiation, updateDiffFluxes,
        updateThermo, Bool.false_eq_true, if_false]
  · cases S.c.rad <;> cases S.c.force <;> rfl
  · cases S.c.rad <;> cases S.c.force <;> rfl
  · cases S.c.force <;> simp [hr, updateDiffFluxes, updateTransport, updateThermo]
  · have h1 : ¬(p - 2 ≤ j ∧ j < min (max p 1) (S.c.pts - 1)) := by omega
    cases S.c.rad <;> cases S.c.force <;> simp only [computeRadiation, updateDiffFluxes,
      updateTransport, updateThermo, Bool.false_eq_true, if_false, if_true, if_neg h1]
  · have h1 : p - 2 ≤ j ∧ j < min (max p 1) (S.c.pts - 1) := by omega
    simp only [hr, if_true, computeRadiation, if_pos h1]
    rfl

/-- **C55** The local evaluation for the point `p` gives, at `p` and its neighbours, the reference
residual with the stored transport properties (or new ones, with `force_full_update`), whatever
the other work arrays contain.  `tc`, `kL`, `kR`, `q` are those of the last full evaluation. -/
theorem local_eval (S : Sys) (h2 : 2 ≤ S.c.pts) (hw : S.c.pts + 2 < word) (hc : Compact S.c)
    (rdt : ℝ) (X : Sol) (b : Buf) (p : ℕ) (hp : p ≤ S.c.pts + 1) (tc : ℕ → TCol) (kL kR : ℕ)
    (q : ℕ → ℝ) (htc : ∀ x j, frozTc S.c x b.tc j = frozTc S.c x tc j) (hkL : b.kL = kL)
    (hkR : b.kR = kR) (hq0 : S.c.rad = false → ∀ j, b.q j = q j)
    (hq : S.c.rad = true → 0 < p → p + 1 < S.c.pts →
      b.q p = radLoss S.c (frozen S.c tc kL kR q (flowPart X)) (flowPart X) p)
    (i n : ℕ) (hi : i ≤ p + 1) (hi' : p ≤ i + 1) :
    (evalSys S rdt (some p) X b).2 i n = frozenRes S rdt tc kL kR q X i n := by
  obtain ⟨h1, h3, -, h5, h6, h7, h8, h9⟩ := locBuf_spec S h2 hw rdt p hp X b
  unfold frozenRes
  show sysRes S rdt (some p) X (locBuf S rdt p X b) _ i n = _
  apply sysRes_congr S h2
  · intro _; simp [bdryActive]; omega
  · intro _; simp [bdryActive]; omega
  · intro a0 a1 m
    have hr : p - 2 ≤ i - 1 ∧ i - 1 ≤ min (max p 1) (S.c.pts - 1) := by omega
    have : (evalFlow S.c 1 rdt (some p) (flowPart X) b (fun _ _ => 0)).2 (i - 1) m
        = cell S.c (locBuf S rdt p X b) rdt (flowPart X) (i - 1) m := by
      simp only [locBuf, evalSys, evalFlow, not_skipped S.c p hp, Bool.false_eq_true, if_false,
        evalRange_some S.c p hp hw, if_pos hr]
    rw [this, if_pos (by omega)]
    apply cell_congr S.c h2 _ _ _ _ _ _ _ (by omega) _ (fun _ _ _ _ => rfl)
    apply near_frozen
    · intro l b1 b2 b3
      have := h1 l b1 (by omega) (by omega)
      exact ⟨this.1, this.2.2.2.1⟩
    · have := h1 (i - 1) (by omega) (by omega) (by omega)
      exact ⟨this.2.2.1, this.2.2.2.2⟩
    · intro l b1 b2 b3
      rw [(h3 l b1 (by omega) (by omega)).1, htc]
      exact ⟨rfl, rfl⟩
    · intro l b1 b2 b3
      rw [(h3 l b1 (by omega) (by omega)).2]
      apply fluxCol_congr
      · rw [(h3 l b1 (by omega) (by omega)).1, htc]; rfl
      · rw [(h1 l (by omega) (by omega) (by omega)).2.1]; rfl
      · rw [(h1 (l + 1) (by omega) (by omega) (by omega)).2.1]; rfl
    · intro b0 b1
      by_cases hr : S.c.rad = true
      · simp only [frozen, if_pos hr]
        by_cases e : i - 1 = p
        · rw [e, h8 p (by omega), hq hr (by omega) (by omega)]
          unfold radLoss Xf
          rfl
        · rw [h9 hr (i - 1) b1 (by omega) (by omega)]
          unfold radLoss Xf
          rw [(h1 (i - 1) (by omega) (by omega) (by omega)).2.1]
          rfl
      · have hr' : S.c.rad = false := by simpa using hr
        rw [h7 hr', hq0 hr']
        simp only [frozen, if_neg hr]
    · intro _ _ hl hf hz hd
      rw [hc.fixed hl hf _ hz] at hd
      exact absurd hd (by simp)
    · intro _; rw [h5, hkL]
    · intro _; rw [h6, hkR]
  · intro e
    refine ⟨(h1 0 (by omega) (by omega) (by omega)).1, ?_⟩
    rw [h5, hkL]; rfl
  · intro e
    refine ⟨(h1 _ (by omega) (by omega) (by omega)).1, ?_⟩
    rw [h6, hkR]; rfl

/-- **C55** The reference residual at the points that are not `p` or next to it does not change
with the components at `p`. -/
theorem frozenRes_local (S : Sys) (h2 : 2 ≤ S.c.pts) (hc : Compact S.c) (rdt : ℝ)
    (tc : ℕ → TCol) (kL kR : ℕ) (q : ℕ → ℝ) (X X' : Sol) (p : ℕ) (hX : ∀ i, i ≠ p → X i = X' i)
    (i n : ℕ) (hi : p + 1 < i ∨ i + 1 < p) :
    frozenRes S rdt tc kL kR q X i n = frozenRes S rdt tc kL kR q X' i n := by
  have hcell : ∀ j, j + 1 = i → j < S.c.pts → ∀ m,
      cell S.c (frozen S.c tc kL kR q (flowPart X)) rdt (flowPart X) j m =
      cell S.c (frozen S.c tc kL kR q (flowPart X')) rdt (flowPart X') j m := by
    intro j e hj m
    apply frozen_cell_local S.c h2 hc _ _ _ _ _ _ _ _ _ hj
    intro l _ _ _
    exact hX (l + 1) (by omega)
  unfold frozenRes sysRes
  by_cases e0 : i = 0
  · simp only [if_pos e0]
    rw [hX 1 (by omega), hX 0 (by omega)]
  simp only [if_neg e0]
  by_cases e1 : i = S.c.pts + 1
  · simp only [if_pos e1]
    rw [hX S.c.pts (by omega), hX (S.c.pts + 1) (by omega)]
  simp only [if_neg e1]
  by_cases e2 : i = 1
  · simp only [if_pos e2, bdryActive, if_true]
    have f0 : flowPart X 0 = flowPart X' 0 := hX 1 (by omega)
    have f1 : flowPart X 1 = flowPart X' 1 := hX 2 (by omega)
    have hrb : (fun n => if 0 ≤ S.c.pts - 1 then
          cell S.c (frozen S.c tc kL kR q (flowPart X)) rdt (flowPart X) 0 n else 0)
        = fun n => if 0 ≤ S.c.pts - 1 then
          cell S.c (frozen S.c tc kL kR q (flowPart X')) rdt (flowPart X') 0 n else 0 := by
      funext m; rw [hcell 0 (by omega) (by omega) m]
    rw [hrb]
    have hr0 : (frozen S.c tc kL kR q (flowPart X)).rho 0
        = (frozen S.c tc kL kR q (flowPart X')).rho 0 := by
      simp only [frozen, frozPre, gasAt]; unfold Yv; rw [f0]
    unfold leftRb leftMdot
    rw [hr0, f0, f1]
    rfl
  simp only [if_neg e2]
  by_cases e3 : i = S.c.pts
  · simp only [if_pos e3, bdryActive, if_true]
    have f0 : flowPart X (S.c.pts - 1) = flowPart X' (S.c.pts - 1) := hX _ (by omega)
    have f1 : flowPart X (S.c.pts - 1 - 1) = flowPart X' (S.c.pts - 1 - 1) := hX _ (by omega)
    have f2 : X (S.c.pts + 1) = X' (S.c.pts + 1) := hX _ (by omega)
    have hrb : (fun n => if S.c.pts - 1 ≤ S.c.pts - 1 then
          cell S.c (frozen S.c tc kL kR q (flowPart X)) rdt (flowPart X) (S.c.pts - 1) n else 0)
        = fun n => if S.c.pts - 1 ≤ S.c.pts - 1 then
          cell S.c (frozen S.c tc kL kR q (flowPart X')) rdt (flowPart X') (S.c.pts - 1) n
          else 0 := by
      funext m; rw [hcell (S.c.pts - 1) (by omega) (by omega) m]
    rw [hrb]
    have hr0 : (frozen S.c tc kL kR q (flowPart X)).rho (S.c.pts - 1)
        = (frozen S.c tc kL kR q (flowPart X')).rho (S.c.pts - 1) := by
      simp only [frozen, frozPre, gasAt]; unfold Yv; rw [f0]
    unfold rightRb rightMdot Yv
    rw [hr0, f0, f1, f2]
    rfl
  simp only [if_neg e3]
  by_cases e4 : i ≤ S.c.pts
  · simp only [if_pos e4]
    rw [hcell (i - 1) (by omega) (by omega) n]
  · simp only [if_neg e4]

/-! ## The Jacobian -/

/-- Number of components at a global point (`OneDim::nVars`). -/
def Sys.nv (S : Sys) (p : ℕ) : ℕ :=
  if p = 0 then S.L.nv else if p = S.c.pts + 1 then S.R.nv else oY + S.c.nsp

/-- Perturbation settings (OneDim.h:454-458). -/
structure Pert where
  thr : ℝ
  rel : ℝ
  abs : ℝ

open Classical in
/-- The perturbation of a component (OneDim.cpp:305-309). -/
noncomputable def Pert.dx (P : Pert) (v : ℝ) : ℝ :=
  if v < 0 then -(|v| * P.rel + P.abs) else |v| * P.rel + P.abs

/-- The solution with component `n` of point `p` replaced. -/
def setAt (X : Sol) (p n : ℕ) (v : ℝ) : Sol :=
  fun i m => if i = p ∧ m = n then v else X i m

/-- Solution vector, work arrays and matrix entries (row point, row component, column point,
column component) during the evaluation of the Jacobian. -/
structure JState where
  X : Sol
  b : Buf
  J : ℕ → ℕ → ℕ → ℕ → ℝ

open Classical in
/-- One column (OneDim.cpp:303-330); `w1` is the residual of the unperturbed solution.  Entries are
written for the points from `p - 1` to `p + 1` that exist. -/
noncomputable def jacCol (S : Sys) (P : Pert) (w1 : Sol) (p n : ℕ) (s : JState) : JState :=
  let X1 := setAt s.X p n (s.X p n + P.dx (s.X p n))
  let rdx := 1 / (X1 p n - s.X p n)
  let e := evalSys S 0 (some p) X1 s.b
  { X := setAt X1 p n (s.X p n)
    b := e.1
    J := fun i m p' n' =>
      if (p' = p ∧ n' = n) ∧ (i ≤ p + 1 ∧ p ≤ i + 1) ∧ i < S.c.pts + 2 ∧ m < S.nv i
          ∧ (|e.2 i m - w1 i m| > P.thr ∨ (i = p ∧ m = n)) then
        (e.2 i m - w1 i m) * rdx
      else s.J i m p' n' }

/-- The columns of one point (OneDim.cpp:302). -/
noncomputable def jacPoint (S : Sys) (P : Pert) (w1 : Sol) (p : ℕ) : ℕ → JState → JState
  | 0, s => s
  | n + 1, s => jacCol S P w1 p n (jacPoint S P w1 p n s)

/-- The points (OneDim.cpp:300). -/
noncomputable def jacLoop (S : Sys) (P : Pert) (w1 : Sol) : ℕ → JState → JState
  | 0, s => s
  | p + 1, s => jacPoint S P w1 p (S.nv p) (jacLoop S P w1 p s)

/-- `OneDim::evalJacobian` (OneDim.cpp:293-337): the matrix is cleared, the solution is evaluated
completely with the transient terms switched off, then one column after the other.  The storage of
the band matrix is left out: entries between adjacent points are within the band (C31). -/
noncomputable def evalJacobian (S : Sys) (P : Pert) (X : Sol) (b : Buf) : JState :=
  jacLoop S P (evalSys S 0 none X b).2 (S.c.pts + 2)
    { X := X, b := (evalSys S 0 none X b).1, J := fun _ _ _ _ => 0 }

theorem setAt_same (X : Sol) (p n : ℕ) (v : ℝ) : setAt X p n v p n = v := by simp [setAt]

theorem setAt_back (X : Sol) (p n : ℕ) (v : ℝ) : setAt (setAt X p n v) p n (X p n) = X := by
  funext i m
  unfold setAt
  by_cases h : i = p ∧ m = n
  · simp [h]
  · simp [h]

theorem setAt_ne (X : Sol) (p n : ℕ) (v : ℝ) (i : ℕ) (h : i ≠ p) : setAt X p n v i = X i := by
  funext m; simp [setAt, h]

open Classical in
/-- The entry that the Jacobian is to have: the difference quotient of the residual `F`, or zero if
the difference is below the threshold (off the diagonal). -/
noncomputable def quotient (F : Sol → Sol) (P : Pert) (X : Sol) (i m p n : ℕ) : ℝ :=
  if |F (setAt X p n (X p n + P.dx (X p n))) i m - F X i m| > P.thr ∨ (i = p ∧ m = n) then
    (F (setAt X p n (X p n + P.dx (X p n))) i m - F X i m) / P.dx (X p n)
  else 0

/-- The invariant of the loop before the columns of the point `p`: the solution is restored, and
the work arrays have, for what is still to be done, the effect of those after the full
evaluation. -/
structure JInv (S : Sys) (X : Sol) (b1 : Buf) (p : ℕ) (s : JState) : Prop where
  X : s.X = X
  tc : ∀ x j, frozTc S.c x s.b.tc j = frozTc S.c x b1.tc j
  kL : s.b.kL = b1.kL
  kR : s.b.kR = b1.kR
  q0 : S.c.rad = false → s.b.q = b1.q
  q : ∀ j, max p 1 ≤ j → s.b.q j = b1.q j

/-- The columns done so far. -/
def Done (P : Pert) (F : Sol → Sol) (S : Sys) (X : Sol) (s : JState) (before : ℕ → ℕ → Prop) :
    Prop :=
  ∀ i m p n, i < S.c.pts + 2 → m < S.nv i → n < S.nv p →
    (before p n → s.J i m p n = quotient F P X i m p n) ∧ (¬before p n → s.J i m p n = 0)

/-- The reference residual with the properties stored by the full evaluation of `X`. -/
noncomputable def refF (S : Sys) (X : Sol) (b : Buf) : Sol → Sol :=
  frozenRes S 0 (bufAfter S 0 X b).tc (bufAfter S 0 X b).kL (bufAfter S 0 X b).kR b.q

theorem jacCol_step (S : Sys) (h2 : 2 ≤ S.c.pts) (hw : S.c.pts + 2 < word) (hc : Compact S.c)
    (P : Pert) (hthr : 0 ≤ P.thr) (X : Sol) (b : Buf) (p n : ℕ)
    (hp : p ≤ S.c.pts + 1) (before : ℕ → ℕ → Prop) (hb : ¬before p n) (s : JState)
    (hi : JInv S X (bufAfter S 0 X b) p s) (hd : Done P (refF S X b) S X s before) :
    JInv S X (bufAfter S 0 X b) p (jacCol S P (evalSys S 0 none X b).2 p n s) ∧
    Done P (refF S X b) S X (jacCol S P (evalSys S 0 none X b).2 p n s)
      (fun p' n' => before p' n' ∨ (p' = p ∧ n' = n)) := by
  obtain ⟨hX, htc, hkL, hkR, hq0, hq⟩ := hi
  obtain ⟨f1, f3, f4, f5⟩ := full_buf S 0 X b
  obtain ⟨-, -, l3, l4, l5, l6, l7, -⟩ := locBuf_spec S h2 hw 0 p hp
    (setAt s.X p n (s.X p n + P.dx (s.X p n))) s.b
  have hloc : ∀ i m, i ≤ p + 1 → p ≤ i + 1 →
      (evalSys S 0 (some p) (setAt s.X p n (s.X p n + P.dx (s.X p n))) s.b).2 i m
        = refF S X b (setAt X p n (X p n + P.dx (X p n))) i m := by
    intro i m a1 a2
    rw [hX]
    apply local_eval S h2 hw hc 0 _ _ p hp _ _ _ _ htc hkL hkR _ _ i m a1 a2
    · intro hr j
      rw [hq0 hr, f4 hr]
    · intro hr hp0 hp1
      rw [hq p (by omega), f5 hr p hp1]
      apply radLoss_congr S.c hc.walls _ _ _ _ _ hr
      · rw [(f1 p (by omega)).2.1]
        have : setAt X p n (X p n + P.dx (X p n)) (p + 1) = X (p + 1) :=
          setAt_ne _ _ _ _ (p + 1) (by omega)
        show (gasAt S.c (flowPart X) p).wtm = (gasAt S.c (flowPart _) p).wtm
        unfold gasAt Yv flowPart
        rw [this]
      · exact (setAt_ne _ _ _ _ (p + 1) (by omega)).symm
  have hfull : ∀ i m, (evalSys S 0 none X b).2 i m = refF S X b X i m := fun i m =>
    full_eq S h2 0 X b i m
  constructor
  · refine ⟨?_, ?_, ?_, ?_, ?_, ?_⟩
    · show setAt (setAt s.X p n _) p n (s.X p n) = X
      rw [setAt_back, hX]
    · intro x j; exact (l3 x j).trans (htc x j)
    · exact l4.trans hkL
    · exact l5.trans hkR
    · intro hr; exact (l6 hr).trans (hq0 hr)
    · intro j hj; exact (l7 j hj).trans (hq j hj)
  · intro i m p' n' hi hm hn
    obtain ⟨d1, d2⟩ := hd i m p' n' hi hm hn
    simp only [jacCol]
    by_cases e : p' = p ∧ n' = n
    · obtain ⟨rfl, rfl⟩ := e
      refine ⟨fun _ => ?_, fun h => absurd (Or.inr ⟨rfl, rfl⟩) h⟩
      by_cases hr : i ≤ p' + 1 ∧ p' ≤ i + 1
      · rw [hloc i m hr.1 hr.2, hfull]
        unfold quotient
        by_cases ht : |refF S X b (setAt X p' n' (X p' n' + P.dx (X p' n'))) i m
            - refF S X b X i m| > P.thr ∨ (i = p' ∧ m = n')
        · rw [if_pos ⟨⟨rfl, rfl⟩, hr, hi, hm, ht⟩, if_pos ht, setAt_same, hX]
          rw [add_sub_cancel_left]
          ring
        · rw [if_neg (fun h => ht h.2.2.2.2), if_neg ht, d2 hb]
      · rw [if_neg (fun h => hr h.2.1), d2 hb]
        have hz : refF S X b (setAt X p' n' (X p' n' + P.dx (X p' n'))) i m
            = refF S X b X i m :=
          frozenRes_local S h2 hc 0 _ _ _ _ _ _ p' (fun l hl => setAt_ne _ _ _ _ l hl) i m
            (by omega)
        unfold quotient
        rw [hz, sub_self, abs_zero, if_neg]
        rintro (h | h)
        · exact absurd h (not_lt.mpr hthr)
        · omega
    · rw [if_neg (fun h => e h.1)]
      constructor
      · rintro (h | h)
        · exact d1 h
        · exact absurd h e
      · intro h; exact d2 (fun h' => h (Or.inl h'))

theorem jacPoint_step (S : Sys) (h2 : 2 ≤ S.c.pts) (hw : S.c.pts + 2 < word) (hc : Compact S.c)
    (P : Pert) (hthr : 0 ≤ P.thr) (X : Sol) (b : Buf) (p : ℕ)
    (hp : p ≤ S.c.pts + 1) (s : JState) (hi : JInv S X (bufAfter S 0 X b) p s)
    (hd : Done P (refF S X b) S X s (fun p' _ => p' < p)) (n : ℕ) :
    JInv S X (bufAfter S 0 X b) p (jacPoint S P (evalSys S 0 none X b).2 p n s) ∧
    Done P (refF S X b) S X (jacPoint S P (evalSys S 0 none X b).2 p n s)
      (fun p' n' => p' < p ∨ (p' = p ∧ n' < n)) := by
  induction n with
  | zero => exact ⟨hi, by simpa [jacPoint] using hd⟩
  | succ n ih =>
    obtain ⟨g1, g2⟩ := jacCol_step S h2 hw hc P hthr X b p n hp _ (by omega) _ ih.1 ih.2
    refine ⟨g1, ?_⟩
    have : (fun p' n' => p' < p ∨ (p' = p ∧ n' < n + 1)) =
        fun p' n' => (p' < p ∨ (p' = p ∧ n' < n)) ∨ (p' = p ∧ n' = n) := by
      funext p' n'
      apply propext
      omega
    rw [this]
    exact g2

theorem jacLoop_step (S : Sys) (h2 : 2 ≤ S.c.pts) (hw : S.c.pts + 2 < word) (hc : Compact S.c)
    (P : Pert) (hthr : 0 ≤ P.thr) (X : Sol) (b : Buf) (s : JState)
    (hi : JInv S X (bufAfter S 0 X b) 0 s) (hd : Done P (refF S X b) S X s (fun _ _ => False))
    (p : ℕ) (hp : p ≤ S.c.pts + 2) :
    JInv S X (bufAfter S 0 X b) p (jacLoop S P (evalSys S 0 none X b).2 p s) ∧
    Done P (refF S X b) S X (jacLoop S P (evalSys S 0 none X b).2 p s) (fun p' _ => p' < p) := by
  induction p with
  | zero => exact ⟨hi, by simpa [jacLoop] using hd⟩
  | succ p ih =>
    obtain ⟨i1, i2⟩ := ih (by omega)
    obtain ⟨g1, g2⟩ := jacPoint_step S h2 hw hc P hthr X b p (by omega) _ i1 i2 (S.nv p)
    refine ⟨⟨g1.X, g1.tc, g1.kL, g1.kR, g1.q0, fun j hj => g1.q j (by omega)⟩, ?_⟩
    intro i m p' n' a1 a2 a3
    obtain ⟨d1, d2⟩ := g2 i m p' n' a1 a2 a3
    refine ⟨fun h => d1 ?_, fun h => d2 ?_⟩
    · by_cases e : p' = p
      · right; subst e; exact ⟨rfl, a3⟩
      · left; omega
    · omega

/-- **C55** Every entry of the Jacobian is the difference quotient of the residual with the
transport properties of the full evaluation, or zero where the difference is at most the threshold
off the diagonal; the solution vector is the one before. -/
theorem jacobian_spec_partial (S : Sys) (h2 : 2 ≤ S.c.pts) (hw : S.c.pts + 2 < word)
    (hc : Compact S.c) (P : Pert) (hthr : 0 ≤ P.thr) (X : Sol) (b : Buf) :
    (evalJacobian S P X b).X = X ∧
    ∀ i m p n, i < S.c.pts + 2 → m < S.nv i → p < S.c.pts + 2 → n < S.nv p →
      (evalJacobian S P X b).J i m p n = quotient (refF S X b) P X i m p n := by
  obtain ⟨g1, g2⟩ := jacLoop_step S h2 hw hc P hthr X b
    { X := X, b := (evalSys S 0 none X b).1, J := fun _ _ _ _ => 0 }
    ⟨rfl, fun _ _ => rfl, rfl, rfl, fun _ => rfl, fun _ _ => rfl⟩
    (fun _ _ _ _ _ _ _ => ⟨False.elim, fun _ => rfl⟩) (S.c.pts + 2) le_rfl
  exact ⟨g1.X, fun i m p n a1 a2 a3 a4 => (g2 i m p n a1 a2 a4).1 a3⟩

/-- **C55** With the default threshold zero the Jacobian is the difference quotient in all
entries. -/
theorem jacobian_exact_partial (S : Sys) (h2 : 2 ≤ S.c.pts) (hw : S.c.pts + 2 < word)
    (hc : Compact S.c) (P : Pert) (hthr : P.thr = 0) (X : Sol) (b : Buf) (i m p n : ℕ)
    (hi : i < S.c.pts + 2) (hm : m < S.nv i) (hp : p < S.c.pts + 2) (hn : n < S.nv p) :
    (evalJacobian S P X b).J i m p n =
      (refF S X b (setAt X p n (X p n + P.dx (X p n))) i m - refF S X b X i m)
        / P.dx (X p n) := by
  rw [(jacobian_spec_partial S h2 hw hc P hthr.ge X b).2 i m p n hi hm hp hn]
  unfold quotient
  by_cases h : |refF S X b (setAt X p n (X p n + P.dx (X p n))) i m - refF S X b X i m| > P.thr
      ∨ (i = p ∧ m = n)
  · rw [if_pos h]
  · rw [if_neg h]
    have : |refF S X b (setAt X p n (X p n + P.dx (X p n))) i m - refF S X b X i m| ≤ 0 := by
      rw [hthr] at h
      push Not at h
      exact h.1
    rw [abs_nonpos_iff.mp this, zero_div]

/-- The perturbation is never zero and increases the magnitude. -/
theorem dx_ne_zero (P : Pert) (hr : 0 ≤ P.rel) (ha : 0 < P.abs) (v : ℝ) :
    P.dx v ≠ 0 ∧ |v| < |v + P.dx v| := by
  have h : 0 < |v| * P.rel + P.abs := by positivity
  unfold Pert.dx
  by_cases hv : v < 0
  · rw [if_pos hv]
    refine ⟨by linarith, ?_⟩
    rw [abs_of_neg hv] at h ⊢
    rw [abs_of_neg (by linarith)]
    linarith
  · rw [if_neg hv]
    push Not at hv
    refine ⟨by linarith, ?_⟩
    rw [abs_of_nonneg hv] at h ⊢
    rw [abs_of_pos (by linarith)]
    linarith

/-! ## Transient terms -/

/-- The mask of the components with a time derivative, after a full evaluation, for the flow
(Flow1D.cpp:522-767; all entries are zero before, OneDim.cpp:268). -/
noncomputable def flowMask (c : Cfg) (j n : ℕ) : ℝ :=
  if 0 < j ∧ j + 1 < c.pts then
    match n with
    | 1 => if c.lam ∧ ¬c.two then 1 else 0
    | 2 => if c.doE j ∧ energyTransient c j then 1 else 0
    | k + 6 => if k < c.nsp then 1 else 0
    | _ => 0
  else 0

/-- The mask of a boundary (Boundary1D.cpp:708-715). -/
noncomputable def bdryMask : Bdry → ℕ → ℝ
  | .rsurf s, k => if s.enabled ∧ k < s.ns ∧ k ≠ 0 then 1 else 0
  | _, _ => 0

/-- The mask of the stack. -/
noncomputable def mask (S : Sys) (p n : ℕ) : ℝ :=
  if p = 0 then bdryMask S.L n else if p = S.c.pts + 1 then bdryMask S.R n
  else if p ≤ S.c.pts then flowMask S.c (p - 1) n else 0

/-- The previous solution. -/
def bdryPrev : Bdry → ℕ → ℝ
  | .rsurf s, k => s.prev k
  | _, _ => 0

/-- The previous solution of the stack. -/
def prevOf (S : Sys) (p n : ℕ) : ℝ :=
  if p = 0 then bdryPrev S.L n else if p = S.c.pts + 1 then bdryPrev S.R n
  else S.c.prev (p - 1) n

theorem cell_transient (c : Cfg) (b : Buf) (rdt : ℝ) (x : Sol) (j n : ℕ) (hj : j < c.pts) :
    cell c b rdt x j n = cell c b 0 x j n - rdt * flowMask c j n * (x j n - c.prev j n) := by
  have hint : (0 < j ∧ j + 1 < c.pts) ↔ (j ≠ 0 ∧ j ≠ c.pts - 1) := by omega
  unfold flowMask
  rcases n with - | - | - | - | - | - | k
  · simp [cell]
  · show momentum c b rdt x j = momentum c b 0 x j - _
    unfold momentum
    by_cases hl : c.lam = false
    · simp [hl]
    by_cases h : 0 < j ∧ j + 1 < c.pts
    · obtain ⟨e0, e1⟩ := hint.mp h
      cases ht : c.two <;> simp [hl, e0, e1, h, oV]
    · by_cases e0 : j = 0
      · simp [e0]
      · have e1 : j = c.pts - 1 := by omega
        simp [h, ← e1]
  · show energy c b rdt x j = energy c b 0 x j - _
    unfold energy
    by_cases h : 0 < j ∧ j + 1 < c.pts
    · obtain ⟨e0, e1⟩ := hint.mp h
      cases hd : c.doE j <;> cases ht : energyTransient c j <;> simp [e0, e1, h, oT]
    · by_cases e0 : j = 0
      · simp [e0]
      · have e1 : j = c.pts - 1 := by omega
        simp [h, ← e1]
  · simp [cell]
  · simp [cell]
  · simp [cell]
  · show (if k < c.nsp then species c b rdt x j k else 0)
      = (if k < c.nsp then species c b 0 x j k else 0) - _
    unfold species
    have e6 : oY + k = k + 6 := by unfold oY; omega
    by_cases hk : k < c.nsp
    · by_cases h : 0 < j ∧ j + 1 < c.pts
      · obtain ⟨e0, e1⟩ := hint.mp h
        simp [e0, e1, h, hk, e6]
      · by_cases e0 : j = 0
        · simp [e0]
        · have e1 : j = c.pts - 1 := by omega
          simp [h, ← e1, hk]
    · simp [hk]

theorem own_transient (B : Bdry) (rdt : ℝ) (xb cov : ℕ → ℝ) (k : ℕ) :
    ownRes B rdt xb cov k = ownRes B 0 xb cov k - rdt * bdryMask B k * (cov k - bdryPrev B k) := by
  cases B <;> simp only [ownRes, bdryMask, bdryPrev] <;> try ring1
  rename_i s
  unfold rsurfRes
  by_cases h1 : k < s.ns <;> by_cases h2 : k = 0 <;> cases h3 : s.enabled <;> simp [h1, h2]

/-- **C55** The transient residual of the reference is the steady one less the masked time
derivative. -/
theorem frozen_transient (S : Sys) (h2 : 2 ≤ S.c.pts) (rdt : ℝ) (tc : ℕ → TCol) (kL kR : ℕ)
    (q : ℕ → ℝ) (X : Sol) (i n : ℕ) :
    frozenRes S rdt tc kL kR q X i n =
      frozenRes S 0 tc kL kR q X i n - rdt * mask S i n * (X i n - prevOf S i n) := by
  have hend : ∀ j, (j = 0 ∨ j = S.c.pts - 1) → ∀ b, cell S.c b rdt (flowPart X) j
      = cell S.c b 0 (flowPart X) j := by
    intro j hj b
    funext m
    rw [cell_transient _ _ rdt _ _ _ (by omega)]
    unfold flowMask
    rw [if_neg (by omega)]
    ring
  unfold frozenRes sysRes mask prevOf
  simp only [bdryActive, if_true]
  by_cases e0 : i = 0
  · simp only [if_pos e0]; subst e0; exact own_transient _ _ _ _ _
  simp only [if_neg e0]
  by_cases e1 : i = S.c.pts + 1
  · simp only [if_pos e1]; subst e1; exact own_transient _ _ _ _ _
  simp only [if_neg e1]
  by_cases e2 : i = 1
  · simp only [if_pos e2]
    rw [hend 0 (Or.inl rfl), if_pos (by omega)]
    unfold flowMask
    rw [if_neg (by omega)]
    ring
  simp only [if_neg e2]
  by_cases e3 : i = S.c.pts
  · simp only [if_pos e3]
    rw [hend (S.c.pts - 1) (Or.inr rfl), if_pos (by omega)]
    unfold flowMask
    rw [if_neg (by omega)]
    ring
  simp only [if_neg e3]
  by_cases e4 : i ≤ S.c.pts
  · simp only [if_pos e4]
    have h1 : i - 1 ≤ S.c.pts - 1 := by omega
    simp only [if_pos h1]
    rw [cell_transient _ _ rdt _ _ _ (by omega)]
    have : flowPart X (i - 1) = X i := by unfold flowPart; rw [Nat.sub_add_cancel (by omega)]
    rw [this]
  · simp only [if_neg e4]; ring

/-- **C55** The same for the evaluation itself. -/
theorem full_transient (S : Sys) (h2 : 2 ≤ S.c.pts) (rdt : ℝ) (X : Sol) (b : Buf) (i n : ℕ) :
    (evalSys S rdt none X b).2 i n =
      (evalSys S 0 none X b).2 i n - rdt * mask S i n * (X i n - prevOf S i n) := by
  rw [full_eq S h2, full_eq S h2, frozen_transient S h2]
  rfl

/-- `MultiJac::updateTransient` (MultiJac.cpp:48-54); `m_ssdiag` are the diagonal entries set
last (MultiJac.cpp:40-46). -/
noncomputable def updateTransient (S : Sys) (rdt : ℝ) (J : ℕ → ℕ → ℕ → ℕ → ℝ) : ℕ → ℕ → ℕ → ℕ → ℝ :=
  fun i m p n => if i = p ∧ m = n then J i m p n - mask S i m * rdt else J i m p n

/-- **C55** After `updateTransient` the matrix is the difference quotient of the transient
residual. -/
theorem transient_exact_partial (S : Sys) (h2 : 2 ≤ S.c.pts) (hw : S.c.pts + 2 < word)
    (hc : Compact S.c) (P : Pert) (hthr : P.thr = 0) (hr : 0 ≤ P.rel) (ha : 0 < P.abs) (rdt : ℝ)
    (X : Sol) (b : Buf) (i m p n : ℕ) (hi : i < S.c.pts + 2) (hm : m < S.nv i)
    (hp : p < S.c.pts + 2) (hn : n < S.nv p) :
    updateTransient S rdt (evalJacobian S P X b).J i m p n =
      (frozenRes S rdt (bufAfter S 0 X b).tc (bufAfter S 0 X b).kL (bufAfter S 0 X b).kR b.q
          (setAt X p n (X p n + P.dx (X p n))) i m
        - frozenRes S rdt (bufAfter S 0 X b).tc (bufAfter S 0 X b).kL (bufAfter S 0 X b).kR b.q
          X i m) / P.dx (X p n) := by
  have hdx := (dx_ne_zero P hr ha (X p n)).1
  unfold updateTransient
  rw [jacobian_exact_partial S h2 hw hc P hthr X b i m p n hi hm hp hn,
    frozen_transient S h2 rdt, frozen_transient S h2 rdt _ _ _ _ X]
  unfold refF
  by_cases e : i = p ∧ m = n
  · obtain ⟨rfl, rfl⟩ := e
    rw [if_pos ⟨rfl, rfl⟩, setAt_same]
    field_simp
    ring
  · rw [if_neg e]
    have : setAt X p n (X p n + P.dx (X p n)) i m = X i m := by simp [setAt, e]
    rw [this]
    ring

end Verif.OneDim.Flow
