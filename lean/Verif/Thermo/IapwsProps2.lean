import Verif.Thermo.IapwsProps

/-!
# Dimensional water properties: density, saturation, phase and spinodal searches
-/

namespace Verif.Iapws

/-! ## Density -/

/-- The table of initial guesses. -/
theorem guess_table (T p : ℝ) :
    guessRho T p .unset (-1) = some (p / (Rw * T)) ∧
    guessRho T p .gas (-1) = some (p / (Rw * T)) ∧
    guessRho T p .supercrit (-1) = some (p / (Rw * T)) ∧
    (T > Tc → ∀ ph, guessRho T p ph (-1) = some (p / (Rw * T))) ∧
    (T ≤ Tc → guessRho T p .liquid (-1) = some 1000 ∧
      guessRho T p .unstableLiquid (-1) = none ∧ guessRho T p .unstableGas (-1) = none ∧
      guessRho T p .other (-1) = none) ∧
    (∀ ph r, r ≠ -1 → guessRho T p ph r = some r) := by
  refine ⟨by simp [guessRho], by simp [guessRho], by simp [guessRho], fun h ph => ?_, fun h => ?_,
    fun ph r hr => by simp [guessRho, hr]⟩
  · by_cases hp : ph = .unset <;> simp [guessRho, h, hp]
  · simp [guessRho, not_lt.2 h]

/-- At the critical point (relative tolerance `1e-8`) the critical density is returned whatever
the phase and the guess. -/
theorem density_critical (K : Coef) (T p : ℝ) (ph : Ph) (g : ℝ)
    (hp : |p - 22.064e6| < 0.22064) (hT : |T - 647.096| < 6.47096e-6) :
    density K T p ph g = .ok (setTD T 322, 322) := by
  unfold density
  rw [if_pos]
  · rfl
  · constructor
    · rw [div_lt_iff₀ (by norm_num [Pc])]; simp only [Pc]; norm_num at *; linarith
    · rw [div_lt_iff₀ Tc_pos]; simp only [Tc]; norm_num at *; linarith

/-- The call fails with an exception exactly for a subcritical temperature, no guess and a phase
that is none of gas, liquid, supercritical or unspecified. -/
theorem density_throws_iff (K : Coef) (T p : ℝ) (ph : Ph) (g : ℝ)
    (hc : ¬(|p - Pc| / Pc < 1e-8 ∧ |T - Tc| / Tc < 1e-8)) :
    density K T p ph g = .throw ↔ g = -1 ∧ T ≤ Tc ∧
      (ph = .unstableLiquid ∨ ph = .unstableGas ∨ ph = .other) := by
  unfold density
  rw [if_neg hc]
  constructor
  · intro h
    cases hg : guessRho T p ph g with
    | some r =>
      rw [hg] at h
      simp only at h
      split_ifs at h
    | none =>
      unfold guessRho at hg
      split_ifs at hg with h1 h2 h3
      refine ⟨h1, not_lt.1 h3, ?_⟩
      cases ph <;> simp at *
  · rintro ⟨rfl, hT, hph⟩
    have : guessRho T p ph (-1) = none := by
      rcases hph with rfl | rfl | rfl <;> simp [guessRho, not_lt.2 hT]
    rw [this]

/-- With a positive temperature and pressure, and no guess or a positive one, the returned value is
`-1` or a positive density.  In the second case the state is set to it, and at a density within a
relative distance of `1e-14` the equation of state gives a pressure that agrees with the request
up to `1e-14` (absolute part `1e-30` and slope factor included) and increases with density. -/
theorem density_spec (K : Coef) {T p g : ℝ} {ph : Ph} {w : W} {r : ℝ} (hT : 0 < T) (hp : 0 < p)
    (hg : g = -1 ∨ 0 < g)
    (hc : ¬(|p - Pc| / Pc < 1e-8 ∧ |T - Tc| / Tc < 1e-8))
    (h : density K T p ph g = .ok (w, r)) :
    (r = -1 ∧ ∃ g', 0 < g' ∧ w = setTD T g') ∨
    (0 < r ∧ w = setTD T r ∧ ∃ d0 q1 q2, 0 < d0 ∧ phiR_d K (Tc / T) d0 = some q1 ∧
      phiR_dd K (Tc / T) d0 = some q2 ∧ 0 < 1 + 2 * d0 * q1 + d0 * d0 * q2 ∧
      ((r = d0 * Rhoc ∧ |d0 + d0 * d0 * q1 - p / (Rw * T * Rhoc)|
          < 1e-30 + 1e-14 * (p / (Rw * T * Rhoc))) ∨
        (|r / Rhoc - d0| < 1e-14 * (r / Rhoc) ∧ (r / Rhoc ≤ 5e12 →
          |d0 + d0 * d0 * q1 - p / (Rw * T * Rhoc)|
            < 1e-14 * (r / Rhoc) * max (1.1 * (1 + 2 * d0 * q1 + d0 * d0 * q2)) 0.001)))) := by
  have h2 := Rhoc_pos
  have h3 := Rw_pos
  unfold density at h
  rw [if_neg hc] at h
  cases hgr : guessRho T p ph g with
  | none => rw [hgr] at h; cases h
  | some g' =>
  have hg' : 0 < g' := by
    unfold guessRho at hgr
    have hpos : 0 < p / (Rw * T) := by positivity
    split_ifs at hgr with a1 a2 a3
    · simp only [Option.some.injEq] at hgr; rw [← hgr]; exact hpos
    · cases ph <;> simp at hgr <;> first | (rw [← hgr]; first | exact hpos | norm_num)
    · simp only [Option.some.injEq] at hgr; rw [← hgr]; exact hpos
    · simp only [Option.some.injEq] at hgr
      rw [← hgr]; exact hg.resolve_left a1
  rw [hgr] at h
  have eτ : (setTD T g').tau = Tc / T := rfl
  simp only [eτ] at h
  have fin : ∀ d, (∃ g0, 0 < g0 ∧ d = dfind K (p / (Rw * T * Rhoc)) (Tc / T) g0) →
      (if d > 0 then Outcome.ok (setTD T (d * Rhoc), d * Rhoc) else Outcome.ok (setTD T g', -1))
        = Outcome.ok (w, r) →
      ((r = -1 ∧ ∃ g', 0 < g' ∧ w = setTD T g') ∨
    (0 < r ∧ w = setTD T r ∧ ∃ d0 q1 q2, 0 < d0 ∧ phiR_d K (Tc / T) d0 = some q1 ∧
      phiR_dd K (Tc / T) d0 = some q2 ∧ 0 < 1 + 2 * d0 * q1 + d0 * d0 * q2 ∧
      ((r = d0 * Rhoc ∧ |d0 + d0 * d0 * q1 - p / (Rw * T * Rhoc)|
          < 1e-30 + 1e-14 * (p / (Rw * T * Rhoc))) ∨
        (|r / Rhoc - d0| < 1e-14 * (r / Rhoc) ∧ (r / Rhoc ≤ 5e12 →
          |d0 + d0 * d0 * q1 - p / (Rw * T * Rhoc)|
            < 1e-14 * (r / Rhoc) * max (1.1 * (1 + 2 * d0 * q1 + d0 * d0 * q2)) 0.001))))) := by
    intro d hd hh
    obtain ⟨g0, h0, rfl⟩ := hd
    split_ifs at hh with hpos
    · simp only [Outcome.ok.injEq, Prod.mk.injEq] at hh
      obtain ⟨hw, hr⟩ := hh
      refine Or.inr ?_
      obtain ⟨d0, q1, q2, a1, a2, a3, a4, a5⟩ :=
        ((dfind_spec K (p / (Rw * T * Rhoc)) (Tc / T) h0).resolve_left (ne_of_gt hpos)).2
      have er : r / Rhoc = dfind K (p / (Rw * T * Rhoc)) (Tc / T) g0 := by
        rw [← hr]; field_simp
      refine ⟨by rw [← hr]; positivity, by rw [← hw, hr], d0, q1, q2, a1, a2, a3, a4, ?_⟩
      rw [er]
      rcases a5 with ⟨b1, b2⟩ | b
      · exact Or.inl ⟨by rw [← hr, b1], b2⟩
      · exact Or.inr b
    · simp only [Outcome.ok.injEq, Prod.mk.injEq] at hh
      exact Or.inl ⟨hh.2.symm, g', hg', hh.1.symm⟩
  have hgp : 0 < g' / Rhoc := by positivity
  by_cases hd1 : dfind K (p / (Rw * T * Rhoc)) (Tc / T) (g' / Rhoc) ≤ 0
  · rw [if_pos hd1] at h
    exact fin _ ⟨_, by positivity, rfl⟩ h
  · rw [if_neg hd1] at h
    exact fin _ ⟨_, hgp, rfl⟩ h

/-- When the first guess fails the second try starts at 0.9 of it. -/
theorem density_retry (K : Coef) {T p g : ℝ} (ph : Ph) (hg : g ≠ -1)
    (hc : ¬(|p - Pc| / Pc < 1e-8 ∧ |T - Tc| / Tc < 1e-8))
    (h1 : dfind K (p / (Rw * T * Rhoc)) (Tc / T) (g / Rhoc) ≤ 0) {d : ℝ}
    (h2 : dfind K (p / (Rw * T * Rhoc)) (Tc / T) (0.9 * g / Rhoc) = d) (hd : 0 < d) :
    density K T p ph g = .ok (setTD T (322 * d), 322 * d) := by
  unfold density
  rw [if_neg hc, (guess_table T p).2.2.2.2.2 ph g hg]
  simp only
  have e : (setTD T g).tau = Tc / T := rfl
  rw [e, if_pos h1, ← mul_div_assoc, h2, if_pos hd, mul_comm d]
  rfl

/-- `density_const` never changes the state, has no second try, and with the critical density as
guess always reports failure. -/
theorem densityConst_spec {K : Coef} (hK : Good K) (w : W) (p : ℝ) (ph : Ph) (g : ℝ) :
    (∀ w' r, densityConst K w p ph g = .ok (w', r) → w' = w) ∧
    densityConst K w p ph 322 = .ok (w, -1) := by
  constructor
  · intro w' r h
    unfold densityConst at h
    cases hg : guessRho (Tc / w.tau) p ph g with
    | none => rw [hg] at h; cases h
    | some g' =>
      rw [hg] at h
      simp only [Outcome.ok.injEq, Prod.mk.injEq] at h
      exact h.1.symm
  · unfold densityConst
    rw [(guess_table _ p).2.2.2.2.2 ph 322 (by norm_num)]
    have e : (322 : ℝ) / Rhoc = 1 := by norm_num [Rhoc]
    simp only [e, dfind_critical hK]
    simp

theorem densityConst_value (K : Coef) (w : W) (p : ℝ) (ph : Ph) {g : ℝ} (hg : g ≠ -1) {d : ℝ}
    (h : dfind K (p / (Rw * (Tc / w.tau) * Rhoc)) w.tau (g / 322) = d) :
    densityConst K w p ph g = .ok (w, if 0 < d then 322 * d else -1) := by
  unfold densityConst
  rw [(guess_table _ p).2.2.2.2.2 ph g hg]
  have e : g / Rhoc = g / 322 := rfl
  simp only [e, h]
  congr 2
  simp only [Rhoc, gt_iff_lt, mul_comm d]

/-! ## Saturation pressure -/

/-- Above the critical temperature `psat` is the critical pressure. -/
theorem psat_super (O : SatOracle) (est : ℝ) {T : ℝ} (ws : Ph) (h : 647.096 ≤ T) :
    psat O est T ws = .ok (setTD T (O.dens 22.064e6 .supercrit (-1)), 22.064e6) := by
  unfold psat
  rw [if_pos (show T ≥ Tc from h)]
  rfl

/-- One correction: Newton step on the difference of the Gibbs functions of the two phases. -/
theorem corr_spec (O : SatOracle) (p dl dg : ℝ) :
    (corr O p dl dg = none ↔ O.dens p .liquid dl ≤ 0 ∨ O.dens p .gas dg ≤ 0) ∧
    ∀ a b c, corr O p dl dg = some (a, b, c) → 0 < a ∧ 0 < b ∧ a = O.dens p .liquid dl ∧
      b = O.dens p .gas dg ∧ c = O.gRT a - O.gRT b := by
  unfold corr
  split_ifs with h1 h2
  · simp [h1]
  · simp [h2]
  · refine ⟨by simp [h1, h2], fun a b c h => ?_⟩
    simp only [Option.some.injEq, Prod.mk.injEq] at h
    obtain ⟨rfl, rfl, rfl⟩ := h
    exact ⟨not_le.1 h1, not_le.1 h2, rfl, rfl, rfl⟩

/-- Whenever the liquid has the lower Gibbs function at the estimate, by whatever amount, the
loop stops after a single correction. -/
theorem psat_one_step (O : SatOracle) {T est a b : ℝ} (hT : T < Tc)
    (ha : O.dens est .liquid (-1) = a) (hb : O.dens est .gas (-1) = b) (ha0 : 0 < a) (hb0 : 0 < b)
    (hneg : O.gRT a < O.gRT b) :
    psat O est T .liquid = .ok (setTD T a,
      est - (O.gRT a - O.gRT b) * Rw * T / (1 / a - 1 / b)) ∧
    psat O est T .gas = .ok (setTD T b,
      est - (O.gRT a - O.gRT b) * Rw * T / (1 / a - 1 / b)) := by
  have hc : corr O est (-1) (-1) = some (a, b, O.gRT a - O.gRT b) := by
    unfold corr
    rw [ha, hb, if_neg (not_le.2 ha0), if_neg (not_le.2 hb0)]
  have hl : psatLoop O T 30 est (-1) (-1)
      = some (est - (O.gRT a - O.gRT b) * Rw * T / (1 / a - 1 / b), a, b) := by
    unfold psatLoop
    rw [hc]
    simp only
    rw [if_pos (by norm_num; linarith)]
    congr 2
    ring
  unfold psat
  rw [if_neg (not_le.2 hT), if_neg (not_le.2 hT), hl]
  exact ⟨rfl, rfl⟩

/-- So the returned pressure need not be an equilibrium pressure: the two phases can be arbitrarily
far from equilibrium at the result. -/
theorem psat_not_converged (D : ℝ) : ∃ (O : SatOracle) (est T : ℝ) (w : W) (p : ℝ), T < Tc ∧
    psat O est T .liquid = .ok (w, p) ∧ 0 < O.dens p .liquid (-1) ∧ 0 < O.dens p .gas (-1) ∧
    D < |O.gRT (O.dens p .liquid (-1)) - O.gRT (O.dens p .gas (-1))| := by
  let O : SatOracle := ⟨fun _ ph _ => if ph = .liquid then 1000 else 1,
    fun ρ => if ρ = 1 then |D| + 1 else 0⟩
  have h := (psat_one_step O (T := 300) (est := 0) (a := 1000) (b := 1) (by norm_num [Tc]) rfl rfl
    (by norm_num) (by norm_num) (by simp [O]; positivity)).1
  have eG : ∀ p, O.dens p .gas (-1) = 1 := fun _ => rfl
  have eL : ∀ p, O.dens p .liquid (-1) = 1000 := fun _ => rfl
  refine ⟨O, 0, 300, _, _, by norm_num [Tc], h, by rw [eL]; norm_num, by rw [eG]; norm_num, ?_⟩
  rw [eG, eL]
  have g1 : O.gRT 1 = |D| + 1 := by simp [O]
  have g2 : O.gRT 1000 = 0 := by norm_num [O]
  rw [g1, g2, zero_sub, abs_neg, abs_of_nonneg (by positivity)]
  linarith [le_abs_self D]

/-- A loop that ends in the other direction has a pressure step below `1e-9`, or has run thirty
passes: the absence of convergence is never reported. -/
theorem psatLoop_spec (O : SatOracle) (T : ℝ) (n : ℕ) {p dl dg p' a b : ℝ}
    (h : psatLoop O T n p dl dg = some (p', a, b)) (hn : 0 < n) :
    0 < a ∧ 0 < b ∧ ∃ q, p' = q - (O.gRT a - O.gRT b) * Rw * T / (1 / a - 1 / b) := by
  induction n generalizing p dl dg with
  | zero => omega
  | succ n ih =>
    unfold psatLoop at h
    cases hc : corr O p dl dg with
    | none => rw [hc] at h; simp at h
    | some x =>
      obtain ⟨x1, x2, x3⟩ := x
      obtain ⟨h1, h2, -, -, h5⟩ := (corr_spec O p dl dg).2 x1 x2 x3 hc
      rw [hc] at h
      simp only at h
      have last : some (p + -x3 * Rw * T / (1 / x1 - 1 / x2), x1, x2) = some (p', a, b) →
          0 < a ∧ 0 < b ∧ ∃ q, p' = q - (O.gRT a - O.gRT b) * Rw * T / (1 / a - 1 / b) := by
        intro hh
        simp only [Option.some.injEq, Prod.mk.injEq] at hh
        obtain ⟨e1, rfl, rfl⟩ := hh
        exact ⟨h1, h2, p, by rw [← e1, h5]; ring⟩
      split_ifs at h with c1 c2
      · exact last h
      · exact last h
      · rcases n with _ | n
        · unfold psatLoop at h; exact last h
        · exact ih h (by omega)

theorem psat_no_convergence_error (O : SatOracle) (est T : ℝ) {ws : Ph}
    (hw : ws = .liquid ∨ ws = .gas)
    (hd : ∀ p g, 0 < O.dens p .liquid g ∧ 0 < O.dens p .gas g) :
    ∃ x, psat O est T ws = .ok x := by
  have hl : ∀ n p dl dg, ∃ x, psatLoop O T n p dl dg = some x := by
    intro n
    induction n with
    | zero => exact fun p dl dg => ⟨_, rfl⟩
    | succ n ih =>
      intro p dl dg
      unfold psatLoop
      have : corr O p dl dg = some (O.dens p .liquid dl, O.dens p .gas dg,
          O.gRT (O.dens p .liquid dl) - O.gRT (O.dens p .gas dg)) := by
        unfold corr
        rw [if_neg (not_le.2 (hd p dl).1), if_neg (not_le.2 (hd p dg).2)]
      rw [this]
      simp only
      split_ifs
      · exact ⟨_, rfl⟩
      · exact ⟨_, rfl⟩
      · exact ih _ _ _
  unfold psat
  by_cases hT : T ≥ Tc
  · rw [if_pos hT]; exact ⟨_, rfl⟩
  · rw [if_neg hT]
    obtain ⟨⟨p, a, b⟩, h⟩ := hl 30 est (-1) (-1)
    rw [h]
    simp only
    rcases hw with rfl | rfl
    · exact ⟨_, rfl⟩
    · exact ⟨_, rfl⟩

/-- A third of a step is not taken: with `g_liq - g_gas` in `[1e-8, ∞)` and a relative pressure step
of at least `1e-9` the loop goes on from the corrected pressure. -/
theorem psatLoop_continues (O : SatOracle) {T p dl dg a b c : ℝ} (n : ℕ)
    (hc : corr O p dl dg = some (a, b, c)) (h1 : 1e-8 ≤ c)
    (h2 : 1e-9 ≤ |(-c * Rw * T / (1 / a - 1 / b)) / (p - c * Rw * T / (1 / a - 1 / b))|) :
    psatLoop O T (n + 1) p dl dg = psatLoop O T n (p - c * Rw * T / (1 / a - 1 / b)) a b := by
  have e : p + -c * Rw * T / (1 / a - 1 / b) = p - c * Rw * T / (1 / a - 1 / b) := by ring
  conv_lhs => unfold psatLoop
  rw [hc]
  simp only
  rw [e, if_neg (not_lt.2 h1), if_neg (not_lt.2 h2)]

theorem psatLoop_stops (O : SatOracle) {T p dl dg a b c : ℝ} (n : ℕ)
    (hc : corr O p dl dg = some (a, b, c))
    (h2 : |(-c * Rw * T / (1 / a - 1 / b)) / (p - c * Rw * T / (1 / a - 1 / b))| < 1e-9) :
    psatLoop O T (n + 1) p dl dg = some (p - c * Rw * T / (1 / a - 1 / b), a, b) := by
  have e : p + -c * Rw * T / (1 / a - 1 / b) = p - c * Rw * T / (1 / a - 1 / b) := by ring
  unfold psatLoop
  rw [hc]
  simp only
  rw [e, if_pos h2]
  split_ifs <;> rfl

/-- Any other requested end state is an exception, raised after the whole computation. -/
theorem psat_bad_state (O : SatOracle) (est : ℝ) {T : ℝ} (hT : T < Tc) {ws : Ph}
    (h1 : ws ≠ .liquid) (h2 : ws ≠ .gas) : psat O est T ws = .throw := by
  unfold psat
  rw [if_neg (not_le.2 hT)]
  cases psatLoop O T 30 est (-1) (-1) with
  | none => rfl
  | some x => simp [h1, h2]

/-! ## Phase identification -/

/-- At the critical temperature the stored flag and `phaseState` disagree. -/
theorem phase_at_Tc (K : Coef) (ρ : ℝ) :
    phaseState K (setTD 647.096 ρ) = .supercrit ∧ (setTD 647.096 ρ).st ≠ .supercrit := by
  constructor
  · unfold phaseState
    rw [if_pos]
    have : (setTD 647.096 ρ).tau = 1 := by norm_num [setTD, Tc]
    rw [this]
  · rw [setTD_phase]
    norm_num
    split_ifs <;> simp

/-- Below the critical temperature a mechanically stable state is gas or liquid by comparing with the
straight line `rhoMid`. -/
theorem phase_stable {K : Coef} {T ρ s : ℝ} (hT0 : 0 < T) (hT : T < 647.096) (hρ : 0 < ρ)
    (hs : dpdrho K T ρ = some s) (hpos : 0 < s) :
    phaseState K (setTD T ρ) = if ρ < rhoMid T then .gas else .liquid := by
  have h1 := Tc_pos
  have h2 := Rhoc_pos
  have eT : Tc / (setTD T ρ).tau = T := (setTD_roundtrip hT0.ne' ρ).1
  have eρ : (setTD T ρ).delta * Rhoc = ρ := (setTD_roundtrip hT0.ne' ρ).2
  have hi : isoComp K T ρ = some (1 / (ρ * s)) := by
    unfold isoComp
    rw [hs]
    simp only [setTD, Option.map_some]
    congr 2
    field_simp
  unfold phaseState
  rw [if_neg]
  · simp only [eT, eρ, hi]
    rw [if_pos (by positivity)]
  · simp only [setTD]
    rw [not_le, lt_div_iff₀ hT0]
    simp only [Tc]
    linarith

theorem rhoMid_ends : rhoMid 647.096 = 322 ∧
    rhoMid 373.15 = 0.5 * (101325 / (461.51805 * 373.15) + 1000) := by
  constructor
  · norm_num [rhoMid, Tc, Rhoc]
  · unfold rhoMid
    norm_num [Tc, Rhoc, Rw]

/-- In the unstable region the flag says liquid when `∂p/∂ρ` *decreases* with density — the
documentation of the flags (`WaterPropsIAPWS.h:23-27`) says `d2pdrho2 > 0` for the liquid side. -/
theorem unstable_flag {K : Coef} {T ρ s s' : ℝ} (hT0 : 0 < T) (hT : T < 647.096) (hρ : 0 < ρ)
    (hs : dpdrho K T ρ = some s) (hs' : dpdrho K T (ρ * 1.000001) = some s')
    (hneg : s < 0) (hneg' : s' < 0) :
    phaseState K (setTD T ρ) = if s' < s then .unstableLiquid else .unstableGas := by
  have h1 := Tc_pos
  have h2 := Rhoc_pos
  have eT : Tc / (setTD T ρ).tau = T := (setTD_roundtrip hT0.ne' ρ).1
  have eρ : (setTD T ρ).delta * Rhoc = ρ := (setTD_roundtrip hT0.ne' ρ).2
  have hiso : ∀ r x, dpdrho K T r = some x → isoComp K T r = some (1 / (r * x)) := by
    intro r x hx
    unfold isoComp
    rw [hx]
    simp only [setTD, Option.map_some]
    congr 2
    field_simp
  unfold phaseState
  rw [if_neg]
  · simp only [eT, eρ, hiso _ _ hs, hiso _ _ hs']
    have hk : ¬ (1 / (ρ * s) ≥ 0) := by
      rw [ge_iff_le, not_le, one_div]
      exact inv_lt_zero.2 (mul_neg_of_pos_of_neg hρ hneg)
    rw [if_neg hk]
    have hρ' : 0 < ρ * 1.000001 := by positivity
    have e : ρ * 1.000001 * (1 / (ρ * 1.000001 * s')) - ρ * (1 / (ρ * s)) = 1 / s' - 1 / s := by
      have hsn := hneg.ne
      have hsn' := hneg'.ne
      generalize ρ * 1.000001 = x at *
      field_simp
    rw [e]
    have hd : 0 < ρ * 1.000001 - ρ := by norm_num; linarith
    have hiff : (1 / s' - 1 / s) / (ρ * 1.000001 - ρ) > 0 ↔ s' < s := by
      rw [gt_iff_lt, div_pos_iff_of_pos_right hd, sub_pos, one_div_lt_one_div_of_neg hneg hneg']
    simp only [hiff]
  · simp only [setTD]
    rw [not_le, lt_div_iff₀ hT0]
    simp only [Tc]
    linarith

/-! ### A fluid whose unstable states are all on the vapour side -/

/-- Coefficients with the single residual term `-δ τ`: `p = ρ R T (1 - δ τ)`. -/
noncomputable def toy : Coef := water (fun i => if i = 3 then -1 else 0) (fun _ => 0) (fun _ => 1)

theorem toy_dpdrho {T ρ : ℝ} (hT : 0 < T) (hρ : 0 < ρ) (h : ρ ≠ 322) :
    dpdrho toy T ρ = some ((1 - 2 * (ρ / Rhoc) * (Tc / T)) * Rw * T) := by
  have hK : Good toy := water_good _ _ _
  have h1 := Tc_pos
  have h2 := Rhoc_pos
  have hτ : 0 < Tc / T := div_pos h1 hT
  have hδ : ρ / Rhoc ≠ 0 := (div_pos hρ h2).ne'
  have hδ1 : ρ / Rhoc ≠ 1 := by
    intro h'; rw [div_eq_one_iff_eq h2.ne'] at h'; exact h (by rw [h']; rfl)
  have ht : ∀ j < 2, triag toy j (Tc / T) (ρ / Rhoc) ≠ 0 := fun j hj h0 =>
    hδ1 ((triag_eq_zero_iff hK hj _ _).1 h0).1
  have n0 : ∀ i, i ≠ 3 → toy.n i = 0 := fun i hi => by simp [toy, water, hi]
  have n3 : toy.n 3 = -1 := by simp [toy, water]
  have hd : phiR_d toy (Tc / T) (ρ / Rhoc) = some (-(Tc / T)) := by
    unfold phiR_d
    rw [if_pos ⟨hτ, hδ, ht⟩]
    unfold phiR_dV
    rw [Finset.sum_eq_zero, Finset.sum_eq_zero, Finset.sum_eq_zero]
    · simp [poly_d, n3, n0 1, n0 2, n0 4, n0 5, n0 6, n0 7]
    · intro j _; simp [cr_d, n0 (55 + j) (by omega)]
    · intro j _; simp [gs_d, gs, n0 (52 + j) (by omega)]
    · intro j _; simp [ex_d, n0 (j + 8) (by omega)]
  have hdd : phiR_dd toy (Tc / T) (ρ / Rhoc) = some 0 := by
    unfold phiR_dd
    rw [if_pos ⟨hτ, hδ, hδ1, ht⟩]
    unfold phiR_ddV
    rw [Finset.sum_eq_zero, Finset.sum_eq_zero, Finset.sum_eq_zero]
    · simp [poly_dd, n0 4, n0 5, n0 6, n0 7]
    · intro j _; simp [cr_dd, n0 (55 + j) (by omega)]
    · intro j _; simp [gs_dd, n0 (52 + j) (by omega)]
    · intro j _; simp [ex_dd, n0 (j + 8) (by omega)]
  unfold dpdrho dimdpdrho
  simp only [setTD, hd, hdd, Option.map_some]
  congr 1
  have : Tc / (Tc / T) = T := by field_simp
  rw [this]
  ring

/-- Here `∂²p/∂ρ² < 0` everywhere, so by the documentation an unstable state is on the vapour side;
the code says liquid. -/
theorem unstable_flag_reversed :
    (∀ T ρ ρ', 0 < T → 0 < ρ → ρ < ρ' → ρ ≠ 322 → ρ' ≠ 322 →
      ∃ s s', dpdrho toy T ρ = some s ∧ dpdrho toy T ρ' = some s' ∧ s' < s) ∧
    phaseState toy (setTD 500 300) = .unstableLiquid := by
  constructor
  · intro T ρ ρ' hT hρ hlt h h'
    refine ⟨_, _, toy_dpdrho hT hρ h, toy_dpdrho hT (by linarith) h', ?_⟩
    have h1 := Tc_pos
    have h2 := Rhoc_pos
    have h3 := Rw_pos
    have hτ : 0 < Tc / T := div_pos h1 hT
    have : ρ / Rhoc < ρ' / Rhoc := div_lt_div_of_pos_right hlt h2
    have h4 : ρ / Rhoc * (Tc / T) < ρ' / Rhoc * (Tc / T) := mul_lt_mul_of_pos_right this hτ
    have h5 : 0 < Rw * T := by positivity
    nlinarith
  · have a := toy_dpdrho (T := 500) (ρ := 300) (by norm_num) (by norm_num) (by norm_num)
    have b := toy_dpdrho (T := 500) (ρ := 300 * 1.000001) (by norm_num) (by norm_num) (by norm_num)
    rw [unstable_flag (by norm_num) (by norm_num) (by norm_num) a b, if_pos]
    all_goals norm_num [Tc, Rhoc, Rw]

/-- At the critical density below the critical temperature the compressibility is NaN and the flag is
the vapour one, whatever the coefficients. -/
theorem phase_critical_density {K : Coef} (hK : Good K) {T : ℝ} (hT0 : 0 < T) (hT : T < 647.096) :
    phaseState K (setTD T 322) = .unstableGas := by
  have eT : Tc / (setTD T 322).tau = T := (setTD_roundtrip hT0.ne' 322).1
  have eρ : (setTD T 322).delta * Rhoc = 322 := (setTD_roundtrip hT0.ne' 322).2
  have hi := (critical_isochore hK hT0 hT.ne).2.1
  unfold phaseState
  rw [if_neg]
  · simp only [eT, eρ, hi]
  · simp only [setTD]
    rw [not_le, lt_div_iff₀ hT0]
    simp only [Tc]
    linarith

/-! ## Spinodal densities -/

theorem spinLoop_conv {pass : Spin → Spin × Bool} {P : Spin → Prop}
    (hP : ∀ s, (pass s).2 = true → P (pass s).1) (n : ℕ) (s : Spin)
    (h : (spinLoop pass n s).2 = true) : P (spinLoop pass n s).1 := by
  induction n generalizing s with
  | zero => simp [spinLoop] at h
  | succ n ih =>
    unfold spinLoop at h ⊢
    split_ifs at h ⊢ with hc
    · exact hP s hc
    · exact ih _ h

/-- A returned spinodal density is a zero of `∂p/∂ρ` up to `1e-5`, and then the state is restored;
when the search fails the stored density is left at the last trial value. -/
theorem spinodal_spec (f : ℝ → ℝ) (sat : ℝ) (w : W) (hT : Tc / w.tau < Tc - 0.001) :
    (∀ r, (spinodalWater f sat w).2 = some r → |f r| < 1e-5 ∧ (spinodalWater f sat w).1 = w) ∧
    (∀ r, (spinodalSteam f sat w).2 = some r → |f r| < 1e-5 ∧ (spinodalSteam f sat w).1 = w) := by
  have hv : ∀ v : ℝ, (v = 0 ∨ |v| < 1e-5) → |v| < 1e-5 := by
    rintro v (rfl | h)
    · norm_num
    · exact h
  constructor
  · intro r h
    unfold spinodalWater at h ⊢
    rw [if_neg (not_le.2 hT)] at h ⊢
    simp only at h ⊢
    split_ifs at h ⊢ with hc
    · simp only [Option.some.injEq] at h
      rw [← h]
      exact ⟨spinLoop_conv (P := fun s => |f s.new| < 1e-5) (fun s hs => by
        simp only [passW, decide_eq_true_eq] at hs ⊢; exact hv _ hs) 50 _ hc, rfl⟩
  · intro r h
    unfold spinodalSteam at h ⊢
    rw [if_neg (not_le.2 hT)] at h ⊢
    simp only at h ⊢
    split_ifs at h ⊢ with hc
    · simp only [Option.some.injEq] at h
      rw [← h]
      exact ⟨spinLoop_conv (P := fun s => |f s.new| < 1e-5) (fun s hs => by
        simp only [passS, decide_eq_true_eq] at hs ⊢; exact hv _ hs) 50 _ hc, rfl⟩

theorem spinodal_near_critical (f : ℝ → ℝ) (sat : ℝ) (w : W) (hT : Tc - 0.001 ≤ Tc / w.tau) :
    spinodalWater f sat w = (w, some 322) ∧ spinodalSteam f sat w = (w, some 322) := by
  unfold spinodalWater spinodalSteam
  rw [if_pos hT, if_pos hT]
  exact ⟨rfl, rfl⟩

/-- The estimate moves by at most a tenth of the density, and stays in the bracket when the current
density is in it. -/
theorem estimate_spec (slope : ℝ) (s : Spin) (hl : s.low ≤ s.new) (hh : s.new ≤ s.high)
    (hn : 0 < s.new) :
    s.low ≤ estimate slope s ∧ estimate slope s ≤ s.high ∧
    |estimate slope s - s.new| ≤ 0.1 * s.new ∧ 0 < estimate slope s := by
  unfold estimate
  simp only
  generalize hd : (if -s.fnew / slope > 0 then min (-s.fnew / slope) (s.new * 0.1)
    else max (-s.fnew / slope) (-s.new * 0.1)) = d
  have hb : -(0.1 * s.new) ≤ d ∧ d ≤ 0.1 * s.new := by
    rw [← hd]
    split_ifs with h
    · refine ⟨le_min ?_ ?_, ?_⟩
      · have : 0 < 0.1 * s.new := by positivity
        linarith
      · have : 0 < 0.1 * s.new := by positivity
        linarith
      · exact (min_le_right _ _).trans (by linarith)
    · refine ⟨le_trans (by linarith) (le_max_right _ _), max_le ?_ ?_⟩
      · have : 0 < 0.1 * s.new := by positivity
        linarith [not_lt.1 h]
      · have : 0 < 0.1 * s.new := by positivity
        linarith
  generalize s.new = x at *
  generalize s.low = l at *
  generalize s.high = u at *
  norm_num at hb ⊢
  split_ifs with c1 c2 c3
  · refine ⟨by linarith, by linarith, ?_, by linarith⟩
    rw [abs_le]; constructor <;> linarith
  · refine ⟨by linarith, by linarith, ?_, by linarith⟩
    rw [abs_le]; constructor <;> linarith
  · refine ⟨by linarith, by linarith, ?_, by linarith⟩
    rw [abs_le]; constructor <;> linarith
  · refine ⟨by linarith, by linarith, ?_, by linarith⟩
    rw [abs_le]; constructor <;> linarith

/-- The estimate is the secant step when that is short and inside the bracket. -/
theorem estimate_secant (slope : ℝ) (s : Spin) (h1 : |s.fnew / slope| ≤ 0.1 * s.new)
    (h2 : s.low ≤ s.new - s.fnew / slope) (h3 : s.new - s.fnew / slope ≤ s.high) :
    estimate slope s = s.new - s.fnew / slope := by
  unfold estimate
  have e : -s.fnew / slope = -(s.fnew / slope) := neg_div _ _
  simp only [e]
  rw [abs_le] at h1
  have : (if -(s.fnew / slope) > 0 then min (-(s.fnew / slope)) (s.new * 0.1)
      else max (-(s.fnew / slope)) (-s.new * 0.1)) = -(s.fnew / slope) := by
    split_ifs
    · exact min_eq_left (by linarith)
    · exact max_eq_left (by linarith)
  rw [this, ← sub_eq_add_neg, if_neg (not_lt.2 h2), if_neg (not_lt.2 h3)]

/-- Outside the bracket the estimate is the midpoint of the current density and the violated end. -/
theorem estimate_bisect (slope : ℝ) (s : Spin) (h1 : |s.fnew / slope| ≤ 0.1 * s.new)
    (hl : s.low ≤ s.new) (hh : s.new ≤ s.high) :
    (s.new - s.fnew / slope < s.low → estimate slope s = (s.low + s.new) / 2) ∧
    (s.high < s.new - s.fnew / slope → estimate slope s = (s.high + s.new) / 2) := by
  unfold estimate
  have e : -s.fnew / slope = -(s.fnew / slope) := neg_div _ _
  simp only [e]
  rw [abs_le] at h1
  have : (if -(s.fnew / slope) > 0 then min (-(s.fnew / slope)) (s.new * 0.1)
      else max (-(s.fnew / slope)) (-s.new * 0.1)) = -(s.fnew / slope) := by
    split_ifs
    · exact min_eq_left (by linarith)
    · exact max_eq_left (by linarith)
  rw [this, ← sub_eq_add_neg]
  refine ⟨fun h => ?_, fun h => ?_⟩
  · rw [if_pos h, if_neg (by norm_num; linarith)]; norm_num; ring
  · rw [if_neg (c := s.new - s.fnew / slope < s.low) (by linarith), if_pos h]; norm_num; ring

/-- The slopes: secant slope, at least (at most, for steam) `5 f/ρ`; a slope of the wrong sign is
replaced so that the step is one unit towards larger (smaller, for steam) density. -/
theorem slope_spec (s : Spin) :
    (0 ≤ (s.fnew - s.fold) / (s.new - s.old) →
      slopeW s = max ((s.fnew - s.fold) / (s.new - s.old)) (5 * s.fnew / s.new) ∧
      (s.fnew ≠ 0 → -s.fnew / slopeS s = -1)) ∧
    ((s.fnew - s.fold) / (s.new - s.old) < 0 →
      (s.fnew ≠ 0 → -s.fnew / slopeW s = 1) ∧
      slopeS s = min ((s.fnew - s.fold) / (s.new - s.old)) (5 * s.fnew / s.new)) := by
  unfold slopeW slopeS
  constructor
  · intro h
    rw [if_pos h, if_pos h]
    refine ⟨by rw [mul_comm 5], fun h0 => ?_⟩
    rw [neg_div, div_self h0]
  · intro h
    rw [if_neg (not_le.2 h), if_neg (not_le.2 h)]
    refine ⟨fun h0 => ?_, by rw [mul_comm 5]⟩
    rw [neg_div_neg_eq, div_self h0]

/-- The bracket of the liquid search: `∂p/∂ρ ≤ 0` at its lower end and `> 0` at its upper end, unless
these are still the initial 0 and 1000; the remembered values are those of the last two densities. -/
theorem bracketW (f : ℝ → ℝ) :
    (∀ sat, ((startW f sat).low = 0 ∨ f (startW f sat).low ≤ 0) ∧
      ((startW f sat).high = 1000 ∨ 0 < f (startW f sat).high) ∧
      (startW f sat).old = sat ∧ (startW f sat).new = 1.0001 * sat ∧
      (startW f sat).fold = f sat ∧ (startW f sat).fnew = f (1.0001 * sat)) ∧
    (∀ s : Spin, (s.low = 0 ∨ f s.low ≤ 0) → (s.high = 1000 ∨ 0 < f s.high) →
      ((passW f s).1.low = 0 ∨ f (passW f s).1.low ≤ 0) ∧
      ((passW f s).1.high = 1000 ∨ 0 < f (passW f s).1.high) ∧
      (passW f s).1.old = s.new ∧ (passW f s).1.new = estimate (slopeW s) s ∧
      (passW f s).1.fold = s.fnew ∧ (passW f s).1.fnew = f (passW f s).1.new ∧
      s.low ≤ (passW f s).1.low ∧ (passW f s).1.high ≤ s.high ∧
      (0 < (passW f s).1.fnew → (passW f s).1.high ≤ (passW f s).1.new) ∧
      ((passW f s).1.fnew < 0 → (passW f s).1.new ≤ (passW f s).1.low)) := by
  have mx : ∀ a b : ℝ, (a = 0 ∨ f a ≤ 0) → f b ≤ 0 → max a b = 0 ∨ f (max a b) ≤ 0 := by
    intro a b ha hb
    rcases max_choice a b with h | h <;> rw [h]
    · exact ha
    · exact Or.inr hb
  have mn : ∀ a b : ℝ, 0 < f a → (b = 1000 ∨ 0 < f b) → min a b = 1000 ∨ 0 < f (min a b) := by
    intro a b ha hb
    rcases min_choice a b with h | h <;> rw [h]
    · exact Or.inr ha
    · exact hb
  constructor
  · intro sat
    unfold startW
    simp only
    rw [mul_comm sat]
    refine ⟨?_, ?_, trivial, rfl, trivial, rfl⟩
    · have h0 : (if f sat > 0 then (0 : ℝ) else max 0 sat) = 0 ∨
          f (if f sat > 0 then (0 : ℝ) else max 0 sat) ≤ 0 := by
        split_ifs with h
        · exact Or.inl rfl
        · exact mx 0 sat (Or.inl rfl) (not_lt.1 h)
      split_ifs with h1 h2 h2
      · exact Or.inl rfl
      · rw [if_neg h2] at h0; exact h0
      · exact mx _ _ (Or.inl rfl) (not_lt.1 h1)
      · rw [if_neg h2] at h0; exact mx _ _ h0 (not_lt.1 h1)
    · have h0 : (if f sat > 0 then min sat 1000 else (1000 : ℝ)) = 1000 ∨
          0 < f (if f sat > 0 then min sat 1000 else (1000 : ℝ)) := by
        split_ifs with h
        · exact mn sat 1000 h (Or.inl rfl)
        · exact Or.inl rfl
      split_ifs with h1 h2 h2
      · rw [if_pos h2] at h0; exact mn _ _ h1 h0
      · exact mn _ _ h1 (Or.inl rfl)
      · rw [if_pos h2] at h0; exact h0
      · exact Or.inl rfl
  · intro s hl hh
    unfold passW
    simp only
    generalize estimate (slopeW s) s = e
    refine ⟨?_, ?_, trivial, trivial, trivial, trivial, ?_, ?_, ?_, ?_⟩
    · split_ifs with h1 h2
      · exact hl
      · exact mx _ _ hl h2.le
      · exact hl
    · split_ifs with h1
      · exact mn _ _ h1 hh
      · exact hh
    · split_ifs
      · exact le_rfl
      · exact le_max_left _ _
      · exact le_rfl
    · split_ifs
      · exact min_le_right _ _
      · exact le_rfl
    · intro h; rw [if_pos h]; exact min_le_left _ _
    · intro h; rw [if_neg (by linarith), if_pos h]; exact le_max_right _ _

/-- The bracket of the vapour search has the opposite signs. -/
theorem bracketS (f : ℝ → ℝ) :
    (∀ sat, ((startS f sat).low = 0 ∨ 0 ≤ f (startS f sat).low) ∧
      ((startS f sat).high = 1000 ∨ f (startS f sat).high < 0) ∧
      (startS f sat).old = sat ∧ (startS f sat).new = 0.99 * sat ∧
      (startS f sat).fold = f sat ∧ (startS f sat).fnew = f (0.99 * sat)) ∧
    (∀ s : Spin, (s.low = 0 ∨ 0 ≤ f s.low) → (s.high = 1000 ∨ f s.high < 0) →
      ((passS f s).1.low = 0 ∨ 0 ≤ f (passS f s).1.low) ∧
      ((passS f s).1.high = 1000 ∨ f (passS f s).1.high < 0) ∧
      (passS f s).1.old = s.new ∧ (passS f s).1.new = estimate (slopeS s) s ∧
      (passS f s).1.fold = s.fnew ∧ (passS f s).1.fnew = f (passS f s).1.new ∧
      s.low ≤ (passS f s).1.low ∧ (passS f s).1.high ≤ s.high ∧
      ((passS f s).1.fnew < 0 → (passS f s).1.high ≤ (passS f s).1.new) ∧
      (0 < (passS f s).1.fnew → (passS f s).1.new ≤ (passS f s).1.low)) := by
  have mx : ∀ a b : ℝ, (a = 0 ∨ 0 ≤ f a) → 0 ≤ f b → max a b = 0 ∨ 0 ≤ f (max a b) := by
    intro a b ha hb
    rcases max_choice a b with h | h <;> rw [h]
    · exact ha
    · exact Or.inr hb
  have mn : ∀ a b : ℝ, f a < 0 → (b = 1000 ∨ f b < 0) → min a b = 1000 ∨ f (min a b) < 0 := by
    intro a b ha hb
    rcases min_choice a b with h | h <;> rw [h]
    · exact Or.inr ha
    · exact hb
  constructor
  · intro sat
    unfold startS
    simp only
    rw [mul_comm sat]
    refine ⟨?_, ?_, trivial, rfl, trivial, rfl⟩
    · split_ifs with h1 h2 h2
      · exact Or.inl rfl
      · exact mx 0 sat (Or.inl rfl) (not_lt.1 h2)
      · exact mx _ _ (Or.inl rfl) (not_lt.1 h1)
      · exact mx _ _ (mx 0 sat (Or.inl rfl) (not_lt.1 h2)) (not_lt.1 h1)
    · split_ifs with h1 h2 h2
      · exact mn _ _ h1 (mn sat 1000 h2 (Or.inl rfl))
      · exact mn _ _ h1 (Or.inl rfl)
      · exact mn sat 1000 h2 (Or.inl rfl)
      · exact Or.inl rfl
  · intro s hl hh
    unfold passS
    simp only
    generalize estimate (slopeS s) s = e
    refine ⟨?_, ?_, trivial, trivial, trivial, trivial, ?_, ?_, ?_, ?_⟩
    · split_ifs with h1 h2
      · exact hl
      · exact mx _ _ hl h2.le
      · exact hl
    · split_ifs with h1
      · exact mn _ _ h1 hh
      · exact hh
    · split_ifs
      · exact le_rfl
      · exact le_max_left _ _
      · exact le_rfl
    · split_ifs
      · exact min_le_right _ _
      · exact le_rfl
    · intro h; rw [if_pos h]; exact min_le_left _ _
    · intro h; rw [if_neg (by linarith), if_pos h]; exact le_max_right _ _

example : estimate 2 ⟨0, 100, 0, 4, 90, 110⟩ = 98 := by
  rw [estimate_secant] <;> norm_num

/-- A failed search leaves another density in the object: with `∂p/∂ρ` identically one no zero exists. -/
theorem spinodal_failure : ∃ (w : W), (spinodalWater (fun _ => 1) 1 w).2 = none ∧
    (spinodalWater (fun _ => 1) 1 w).1.delta ≠ w.delta := by
  have hno : ∀ n s, (spinLoop (passW fun _ => 1) n s).2 = false := by
    intro n
    induction n with
    | zero => exact fun _ => rfl
    | succ n ih =>
      intro s
      unfold spinLoop
      have : (passW (fun _ => 1) s).2 = false := by
        simp only [passW, decide_eq_false_iff_not]; norm_num
      rw [this]
      exact ih _
  let d := (spinLoop (passW fun _ => 1) 50 (startW (fun _ => 1) 1)).1.new / Rhoc
  let w : W := ⟨2, d + 1, .gas⟩
  have e : spinodalWater (fun _ => 1) 1 w = ({ w with delta := d }, none) := by
    unfold spinodalWater
    rw [if_neg (by norm_num [w, Tc])]
    simp only [hno]
    simp [d]
  refine ⟨w, by rw [e], ?_⟩
  rw [e]
  simp [w]

example (K : Coef) (g : ℝ) : density K 647.096 22.064e6 .liquid g = .ok (setTD 647.096 322, 322) :=
  density_critical K _ _ _ _ (by norm_num) (by norm_num)

example (K : Coef) : density K 300 1e5 .unstableGas (-1) = .throw := by
  refine (density_throws_iff K 300 1e5 .unstableGas (-1) ?_).2 ?_
  · rintro ⟨h, _⟩; norm_num [Pc, abs_lt, abs_div] at h
  · norm_num [Tc]

end Verif.Iapws
