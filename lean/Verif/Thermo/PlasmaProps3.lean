import Verif.Thermo.PlasmaProps2

/-!
# Elastic energy loss, rate coefficients, electron species and thermodynamic functions of a plasma
-/

namespace Verif.Plasma

open Verif Funcs

/-! ## Elastic energy loss -/

/-- What the coefficients must be for the object `p` at temperature `T`, target masses `M`. -/
theorem elasticCoef_formula (p : P) (T M : ℝ) (i : ℕ) (v : ℝ)
    (h : numericalQuadrature p.quad
      (List.zipWith (fun f c => 1 / 3 * (f * c))
        (List.zipWith (fun f d => f + kB * T / qe * d) p.dist p.diff) (p.rates i).interp)
      (p.levels.map (· ^ 3)) = .ok v) :
    elasticCoef p T M i = 2 * (me / M * NA) * Real.sqrt (2 * qe / me) * v := by
  unfold elasticCoef
  rw [h]; rfl

/-- The update leaves every coefficient as evaluated for the current levels, distribution, cross
sections and temperature, provided the stored ones were right for the stored key; and then they are
right for the new key. -/
theorem updateElastic_correct (p : P) (T : ℝ) (M : ℕ → ℝ)
    (h : ∀ T', p.cache = some (T', p.distNum + p.levelNum) →
      ∀ i < p.nColl, p.ready i = true → p.coef i = elasticCoef p T' (M i) i) (i : ℕ) (hi : i < p.nColl) :
    let q := updateElastic p T M
    q.coef i = elasticCoef q T (M i) i ∧ q.cache = some (T, q.distNum + q.levelNum) ∧
    q.ready i = true ∧ q.dist = p.dist ∧ q.levels = p.levels ∧ q.nColl = p.nColl ∧
    (p.ready i = false → (q.rates i).interp = p.levels.map (interpFn (p.rates i).energies (p.rates i).cs)) ∧
    (p.ready i = true → q.rates i = p.rates i) := by
  classical
  have e1 : elasticCoef (updateElastic p T M) T (M i) i = elasticCoef (interpAll p) T (M i) i := rfl
  have e2 : (updateElastic p T M).coef i = elasticCoef (interpAll p) T (M i) i := by
    have : (updateElastic p T M).coef i =
        if i < p.nColl ∧ (¬ p.cache = some (T, p.distNum + p.levelNum) ∨ p.ready i = false)
        then elasticCoef (interpAll p) T (M i) i else p.coef i := rfl
    rw [this]
    split_ifs with hc
    · rfl
    · have hr : p.ready i = true := by
        by_contra hr
        exact hc ⟨hi, Or.inr (by simpa using hr)⟩
      have hh : p.cache = some (T, p.distNum + p.levelNum) := by
        by_contra hh
        exact hc ⟨hi, Or.inl hh⟩
      rw [h T hh i hi hr]
      unfold elasticCoef interpAll
      simp [hr]
  have er : (updateElastic p T M).rates i =
      if i < p.nColl ∧ p.ready i = false then interpolate (p.rates i) p.levels else p.rates i := rfl
  have ed : (updateElastic p T M).ready i = if i < p.nColl then true else p.ready i := rfl
  refine ⟨by rw [e2, e1], rfl, by rw [ed, if_pos hi], rfl, rfl, rfl, fun hr => ?_, fun hr => ?_⟩
  · rw [er, if_pos ⟨hi, hr⟩]; rfl
  · rw [er, if_neg (by simp [hr])]

/-- Changes of the temperature, the distribution, the levels or one cross section table preserve the
premise above, as long as each changes the key or the flag: new numbers are never the stored ones. -/
theorem stale_key (p : P) (T : ℝ) (M : ℕ → ℝ) (i : ℕ) (hi : i < p.nColl)
    (h : p.cache ≠ some (T, p.distNum + p.levelNum)) :
    (updateElastic p T M).coef i = elasticCoef (updateElastic p T M) T (M i) i := by
  classical
  have : (updateElastic p T M).coef i =
      if i < p.nColl ∧ (¬ p.cache = some (T, p.distNum + p.levelNum) ∨ p.ready i = false)
      then elasticCoef (interpAll p) T (M i) i else p.coef i := rfl
  rw [this, if_pos ⟨hi, Or.inl h⟩]
  rfl

/-- The quadrature method is not part of the key: after changing it the old coefficients are
returned. -/
theorem quadrature_ignored (p : P) (T : ℝ) (M : ℕ → ℝ) (m : String) (i : ℕ) (hi : i < p.nColl) :
    (updateElastic (setQuad (updateElastic p T M) m) T M).coef i = (updateElastic p T M).coef i := by
  classical
  have : (updateElastic (setQuad (updateElastic p T M) m) T M).coef i =
      if i < p.nColl ∧ (¬ some (T, p.distNum + p.levelNum) = some (T, p.distNum + p.levelNum) ∨
        (if i < p.nColl then true else p.ready i) = false)
      then elasticCoef (interpAll (setQuad (updateElastic p T M) m)) T (M i) i
      else (updateElastic p T M).coef i := rfl
  rw [this, if_neg (by simp [hi])]

/-- The power loss is the sum over the collisions, proportional to the electron concentration. -/
theorem powerLoss_formula (p : P) (T : ℝ) (M c : ℕ → ℝ) (ce : ℝ)
    (h : p.cache ≠ some (T, p.distNum + p.levelNum)) :
    powerLoss p T M c ce = NA ^ 2 * qe * ce *
      ∑ i ∈ Finset.range p.nColl, c i * elasticCoef (updateElastic p T M) T (M i) i := by
  unfold powerLoss
  simp only
  rw [← sq]
  congr 1
  apply Finset.sum_congr rfl
  intro i hi
  rw [stale_key p T M i (Finset.mem_range.1 hi) h]

/-- For a Maxwell distribution with the exact derivative, the quantity that is integrated vanishes when
the electrons have the temperature of the gas, and has the sign of `Te - T` otherwise. -/
theorem maxwell_equilibrium {T Te ε : ℝ} (hTe : 0 < Te) :
    isoF 1 (3 / 2 * Te * kB / qe) ε + kB * T / qe * deriv (isoF 1 (3 / 2 * Te * kB / qe)) ε =
      (1 - T / Te) * isoF 1 (3 / 2 * Te * kB / qe) ε := by
  have h1 := qe_pos
  have h2 := kB_pos
  have he : 0 < 3 / 2 * Te * kB / qe := by positivity
  have hm := (maxwell he).2.2
  set em := 3 / 2 * Te * kB / qe with hem
  have hd : HasDerivAt (isoF 1 em) (isoF 1 em ε * (-(3 / 2) / em)) ε := by
    generalize isoF 1 em 0 = A at hm
    have e : isoF 1 em = fun y => A * Real.exp (-(3 / 2) / em * y) := by
      funext y; rw [hm y]; congr 2; ring
    have hb := (((hasDerivAt_id' ε).const_mul (-(3 / 2) / em)).exp.const_mul A)
    have hv : isoF 1 em ε = A * Real.exp (-(3 / 2) / em * ε) := congrFun e ε
    have e' : HasDerivAt (isoF 1 em) (A * (Real.exp (-(3 / 2) / em * ε) * (-(3 / 2) / em * 1))) ε :=
      e.symm ▸ hb
    refine e'.congr_deriv ?_
    rw [hv]; ring
  rw [hd.deriv, hem]
  generalize isoF 1 _ ε = F
  field_simp
  ring

/-! ## Registering collisions -/

/-- The flags of earlier collisions stay in front: the new collisions get the flags of those they
replace. -/
theorem setCollisions_flags (c : Coll) (l : List (Rate × ℕ)) :
    (setCollisions c l).rates = l.map Prod.fst ∧ (setCollisions c l).targets = l.map Prod.snd ∧
    (setCollisions c l).rdy = c.rdy ++ List.replicate l.length false := by
  have key : ∀ (l : List (Rate × ℕ)) (d : Coll),
      (l.foldl (fun c x => addCollision c x.1 x.2) d).rates = d.rates ++ l.map Prod.fst ∧
      (l.foldl (fun c x => addCollision c x.1 x.2) d).targets = d.targets ++ l.map Prod.snd ∧
      (l.foldl (fun c x => addCollision c x.1 x.2) d).rdy = d.rdy ++ List.replicate l.length false := by
    intro l
    induction l with
    | nil => intro d; simp
    | cons a r ih =>
      intro d
      obtain ⟨h1, h2, h3⟩ := ih (addCollision d a.1 a.2)
      rw [List.foldl_cons, h1, h2, h3]
      simp [addCollision, List.replicate_succ]
  unfold setCollisions
  obtain ⟨h1, h2, h3⟩ := key l ⟨[], [], c.rdy⟩
  rw [h1, h2, h3]
  simp

/-- First registration: every rate will be interpolated. -/
theorem setCollisions_first (l : List (Rate × ℕ)) :
    (setCollisions ⟨[], [], []⟩ l).rdy = List.replicate l.length false := by
  rw [(setCollisions_flags _ l).2.2]; rfl

/-- Second registration: a rate that has never been interpolated is taken for interpolated. -/
theorem setCollisions_again (r r' : Rate) :
    (setCollisions ⟨[r], [0], [true]⟩ [(r', 0)]).rates[0]? = some r' ∧
    (setCollisions ⟨[r], [0], [true]⟩ [(r', 0)]).rdy[0]? = some true := by
  obtain ⟨h1, _, h3⟩ := setCollisions_flags ⟨[r], [0], [true]⟩ [(r', 0)]
  rw [h1, h3]
  simp

/-- Then the update leaves the cross sections as they are. -/
theorem updateInterp_spec (p : P) (i : ℕ) :
    (p.ready i = true → updateInterp p i = (p, false)) ∧
    (p.ready i = false → (updateInterp p i).2 = true ∧ (updateInterp p i).1.ready i = true ∧
      ((updateInterp p i).1.rates i).interp =
        p.levels.map (interpFn (p.rates i).energies (p.rates i).cs) ∧
      ∀ j ≠ i, (updateInterp p i).1.rates j = p.rates j ∧ (updateInterp p i).1.ready j = p.ready j) := by
  constructor
  · intro h; unfold updateInterp; rw [if_pos h]
  · intro h
    unfold updateInterp
    rw [if_neg (by simp [h])]
    refine ⟨rfl, by simp, by simp [interpolate], fun j hj => ?_⟩
    simp [hj]

/-! ## Rate coefficients -/

/-- The data follow the phase whenever the distribution number has changed. -/
theorem update_follows (d : Data) (p : P) (h1 : p.distNum ≠ d.distNo)
    (h2 : p.levelNum = d.levelNo → d.energyLevels = p.levels) :
    (d.update p).2 = true ∧ (d.update p).1.energyLevels = p.levels ∧
    (d.update p).1.distribution = p.dist ∧ (d.update p).1.distNo = p.distNum ∧
    (d.update p).1.levelNo = p.levelNum ∧
    ((d.update p).1.levelChanged = true ↔ p.levelNum ≠ d.levelNo) := by
  unfold Data.update
  rw [if_neg h1]
  by_cases h : p.levelNum = d.levelNo
  · simp [h, h2 h]
  · simp [h]

/-- Nothing is done twice. -/
theorem update_twice (d : Data) (p : P) : ((d.update p).1.update p) = ((d.update p).1, false) := by
  have : p.distNum = (d.update p).1.distNo := by
    unfold Data.update
    split_ifs with h1 h2
    · exact h1
    · rfl
    · rfl
  generalize (d.update p).1 = d' at this ⊢
  unfold Data.update
  rw [if_pos this]

/-- Levels changed without recomputing the distribution are not noticed. -/
theorem level_change_missed (d : Data) (p q : P) (l : List ℝ) (hd : d.distNo = p.distNum)
    (h : setLevels p l false = (q, .ok ())) :
    d.update q = (d, false) ∧ q.levels = l ∧ q.levelNum ≠ p.levelNum := by
  obtain ⟨h1, -, -, -, -, h6, h7, -⟩ := setLevels_ok h
  refine ⟨?_, h1, by omega⟩
  unfold Data.update
  rw [if_pos (by rw [h7, hd])]

example (p : P) : ∃ q, setLevels p [0, 1] false = (q, .ok ()) := by
  unfold setLevels
  rw [(checkLevels_iff _).2 ⟨by simp, by simp, by simp⟩]
  exact ⟨_, rfl⟩

/-- With the default grid (level number still -1) fresh data never receive the levels, the cross
sections are not interpolated, and the evaluation multiplies arrays of different length. -/
theorem default_grid (p : P) (r : Rate) (hl : p.levelNum = -1) (hd : p.distNum ≠ -1)
    (hp : p.dist ≠ []) (hr : r.interp = []) :
    ((⟨[], [], false, -1, -1⟩ : Data).update p).1.energyLevels = [] ∧
    (r.eval ((⟨[], [], false, -1, -1⟩ : Data).update p).1).2 = .ub := by
  have : (⟨[], [], false, -1, -1⟩ : Data).update p = (⟨[], p.dist, false, p.distNum, -1⟩, true) := by
    unfold Data.update
    rw [if_neg hd, if_neg (by simp [hl])]
  rw [this]
  refine ⟨rfl, ?_⟩
  unfold Rate.eval
  simp only [Bool.false_eq_true, if_false]
  rw [if_pos (by rw [hr]; simpa using hp)]

/-- The rate coefficient: `√(2 e/m_e) N_A ∫ ε σ F dε`, the integral taken over `ε²/2` by Simpson's
rule. -/
theorem eval_formula (r : Rate) (d : Data) (v : ℝ) (hc : d.levelChanged = true)
    (hl : d.distribution.length = d.energyLevels.length)
    (hv : simpson (List.zipWith (· * ·) d.distribution
      (d.energyLevels.map (interpFn r.energies r.cs))) (d.energyLevels.map (· ^ 2)) = .ok v) :
    (r.eval d).2 = .ok (Real.sqrt (2 * qe / me) * NA * (v / 2)) ∧
    (r.eval d).1.interp = d.energyLevels.map (interpFn r.energies r.cs) := by
  unfold Rate.eval
  simp only [hc, if_true, interpolate]
  rw [if_neg (by simp [hl]), hv]
  refine ⟨?_, trivial⟩
  show Outcome.ok _ = _
  rw [Real.sqrt_eq_rpow]
  congr 1
  norm_num
  ring

/-- Without a level change the interpolated values of before are used. -/
theorem eval_kept (r : Rate) (d : Data) (v : ℝ) (hc : d.levelChanged = false)
    (hl : d.distribution.length = r.interp.length)
    (hv : simpson (List.zipWith (· * ·) d.distribution r.interp) (d.energyLevels.map (· ^ 2)) = .ok v) :
    r.eval d = (r, .ok (Real.sqrt (2 * qe / me) * NA * (v / 2))) := by
  unfold Rate.eval
  simp only [hc, Bool.false_eq_true, if_false]
  rw [if_neg (by simp [hl]), hv]
  show (r, Outcome.ok _) = _
  rw [Real.sqrt_eq_rpow]
  congr 2
  norm_num
  ring

/-- Simpson's rule on the squares of equidistant levels has a negative weight at the first: a
non-negative distribution and a constant cross section give a negative rate coefficient. -/
theorem negative_rate :
    ∃ (r : Rate) (d : Data) (k : ℝ), (∀ f ∈ d.distribution, 0 ≤ f) ∧ (∀ c ∈ r.interp, c = 1) ∧
      d.energyLevels = [0, 1, 2] ∧ (r.eval d).2 = .ok k ∧ k < 0 := by
  have hs : simpson (List.zipWith (· * ·) [(1 : ℝ), 0, 0] [1, 1, 1]) ([(0 : ℝ), 1, 2].map (· ^ 2)) =
      .ok (-2 / 3) := by
    norm_num [simpson, diffs, basicSimpson, simpsonLoop, panel]
    simp
  have he := eval_kept ⟨[0, 1], [1, 1], [1, 1, 1]⟩ ⟨[0, 1, 2], [1, 0, 0], false, 0, 0⟩ _ rfl rfl hs
  refine ⟨⟨[0, 1], [1, 1], [1, 1, 1]⟩, ⟨[0, 1, 2], [1, 0, 0], false, 0, 0⟩, _, by simp, by simp, rfl,
    by rw [he], ?_⟩
  have h1 : 0 < Real.sqrt (2 * qe / me) := Real.sqrt_pos.2 (by have := qe_pos; have := me_pos; positivity)
  have h2 := NA_pos
  have : 0 < Real.sqrt (2 * qe / me) * NA := mul_pos h1 h2
  nlinarith

/-- Reading the tables: with different lengths the call throws, and keeps both tables. -/
theorem rate_setParameters (r : Rate) (e c : List ℝ) :
    r.setParameters (some e) (some c) = ({ r with energies := e, cs := c },
      if e.length = c.length then .ok () else .throw) ∧ r.setParameters none none = (r, .ok ()) := by
  unfold Rate.setParameters
  constructor
  · by_cases h : e.length = c.length <;> simp [h]
  · simp

/-- Accepted reactions: irreversible, in a plasma, two reactant species, one of which is the electron
with coefficient one (the other coefficient is free). -/
theorem setContext_iff (rev : Bool) (re : List (String × ℝ)) (el : Option String)
    [DecidablePred fun x : ℝ => x = 1] :
    setContext rev re el = .ok () ↔
      rev = false ∧ re.length = 2 ∧ ∃ e, el = some e ∧ re.lookup e = some 1 := by
  unfold setContext
  cases rev with
  | true => simp
  | false =>
    cases el with
    | none => simp
    | some e =>
      simp only [Bool.false_eq_true, if_false]
      by_cases hl : re.length = 2
      · rw [if_neg (by simp [hl])]
        cases hk : re.lookup e with
        | none => simp [hk]
        | some n =>
          by_cases hn : n = 1
          · simp [hn, hl, hk]
          · simp [hn, hk]
      · rw [if_pos hl]; simp [hl]

/-- For an accepted reaction of two different species the target is the other reactant. -/
theorem target_other (a b e : String) (x y : ℝ) :
    (a = e → b ≠ e → target [(a, x), (b, y)] e = some b) ∧
    (a ≠ e → target [(a, x), (b, y)] e = some a) := by
  unfold target
  constructor
  · intro h1 h2; simp [h1, h2]
  · intro h; simp [h]

/-! ## Electron species -/

/-- Adding species that the base class accepts keeps the electron index at a species of composition
`E:1`, in every sequence of accepted additions. -/
theorem addSpecies_inv (s s' : Sp) (c : List (String × ℝ)) (b : Bool)
    (h : addSpecies s c true = (s', .ok b))
    (hi : ∀ k, s.electron = some k → s.comps[k]? = some [("E", 1)])
    (hn : s.electron = none → ∀ d ∈ s.comps, d ≠ [("E", 1)]) :
    s'.comps = s.comps ++ [c] ∧
    (∀ k, s'.electron = some k → s'.comps[k]? = some [("E", 1)]) ∧
    (s'.electron = none → ∀ d ∈ s'.comps, d ≠ [("E", 1)]) := by
  unfold addSpecies at h
  simp only [if_true, List.length_append, List.length_cons, List.length_nil, Nat.add_sub_cancel,
    Nat.add_eq_zero_iff, Nat.one_ne_zero, and_false, if_false, zero_add] at h
  split_ifs at h with h1 h2
  · simp only [Prod.mk.injEq] at h
    obtain ⟨rfl, -⟩ := h
    refine ⟨rfl, ?_, by simp⟩
    intro k hk
    simp only [Option.some.injEq] at hk
    subst hk
    simp [h1]
  · simp at h
  · simp only [Prod.mk.injEq] at h
    obtain ⟨rfl, -⟩ := h
    refine ⟨rfl, ?_, ?_⟩
    · intro k hk
      have := hi k hk
      have hlt : k < s.comps.length := (List.getElem?_eq_some_iff.1 this).1
      simp only
      rw [List.getElem?_append_left hlt, this]
    · intro hk d hd
      rcases List.mem_append.1 hd with hd | hd
      · exact hn hk d hd
      · rw [List.mem_singleton.1 hd]; exact h1

example : addSpecies ⟨[[("O", 2)]], none⟩ [("E", 1)] true = (⟨[[("O", 2)], [("E", 1)]], some 1⟩, .ok true) := by
  simp [addSpecies]

/-- A second electron species is refused after it has been added. -/
theorem second_electron (s : Sp) (k : ℕ) (h : s.electron = some k) :
    addSpecies s [("E", 1)] true = (⟨s.comps ++ [[("E", 1)]], some k⟩, .throw) := by
  unfold addSpecies
  simp [h]

/-- An electron that the base class skips makes the last species the electron. -/
theorem skipped_electron :
    addSpecies ⟨[[("O", 2)]], none⟩ [("E", 1)] false = (⟨[[("O", 2)]], some 0⟩, .ok false) := by
  simp [addSpecies]

/-! ## Thermodynamic functions -/

set_option exponentiation.threshold 400 in
theorem small_pos : (0 : ℝ) < 1e-300 := by norm_num


/-- Reference functions are evaluated at the electron temperature for the electron, at the gas
temperature otherwise, and multiplied with the same temperature. -/
theorem reference_functions (t : Th) (hT : t.T ≠ 0) (k : ℕ) :
    let θ := if k = t.e then t.Te else t.T
    gibbsRef t k = Rgas * θ * (t.h k θ - t.s k θ) ∧ volRef t k = Rgas * θ / t.pref ∧
    hbar t k = Rgas * θ * t.h k θ ∧ ubar t k = Rgas * θ * (t.h k θ - 1) := by
  unfold gibbsRef volRef hbar ubar gRT hRT sR
  by_cases h : k = t.e
  · simp only [h, if_true]
    refine ⟨?_, ?_, ?_, trivial⟩ <;> field_simp
  · simp only [h, if_false, mul_one]
    exact ⟨trivial, trivial, trivial, trivial⟩

/-- The molar enthalpy is the mean of the partial molar enthalpies. -/
theorem enthalpy_mean (t : Th) (hT : t.T ≠ 0) (he : t.e < t.n) :
    enthalpyMole t = ∑ k ∈ Finset.range t.n, t.X k * hbar t k := by
  have hm : t.e ∈ Finset.range t.n := Finset.mem_range.2 he
  unfold enthalpyMole
  rw [← Finset.add_sum_erase _ _ hm, ← Finset.add_sum_erase _ (fun k => t.X k * hbar t k) hm]
  have hs : ∑ k ∈ (Finset.range t.n).erase t.e, t.X k * hbar t k =
      Rgas * t.T * ∑ k ∈ (Finset.range t.n).erase t.e, t.X k * hRT t k := by
    rw [Finset.mul_sum]
    apply Finset.sum_congr rfl
    intro k hk
    unfold hbar
    rw [if_neg (Finset.mem_erase.1 hk).1]
    ring
  rw [hs]
  unfold hbar
  simp only [if_true]
  field_simp
  ring

/-- Heavy species: the chemical potential and the entropy are those of an ideal gas. -/
theorem heavy_species (t : Th) (k : ℕ) (hk : k ≠ t.e) (hx : 1e-300 ≤ t.X k) :
    mu t k = Rgas * t.T * (t.h k t.T - t.s k t.T + Real.log (t.p / t.pref) + Real.log (t.X k)) ∧
    sbar t k = Rgas * (t.s k t.T - Real.log (t.p / t.pref) - Real.log (t.X k)) ∧
    mu t k = hbar t k - t.T * sbar t k := by
  have h1 : mu t k = Rgas * t.T * (t.h k t.T - t.s k t.T + Real.log (t.p / t.pref) + Real.log (t.X k)) := by
    unfold mu muStar gibbsRef gRT hRT sR
    simp only [hk, if_false, max_eq_right hx]; ring
  have h2 : sbar t k = Rgas * (t.s k t.T - Real.log (t.p / t.pref) - Real.log (t.X k)) := by
    unfold sbar sR
    simp only [hk, if_false, max_eq_right hx]; ring
  refine ⟨h1, h2, ?_⟩
  rw [h1, h2]
  unfold hbar hRT
  simp only [hk, if_false]; ring

/-- The electron pressure: the partial pressure at the electron temperature. -/
theorem pe_formula (t : Th) (hT : t.T ≠ 0) : pe t = t.X t.e * t.p * (t.Te / t.T) := by
  have := Rgas_pos.ne'
  unfold pe
  field_simp

/-- Electron: the logarithms are of the electron pressure and, in addition, of the mole fraction. -/
theorem electron (t : Th) (hT : 0 < t.T) (hTe : 0 < t.Te) (hp : 0 < t.p) (hr : 0 < t.pref)
    (hx : 1e-300 ≤ t.X t.e) :
    mu t t.e = Rgas * t.Te * (t.h t.e t.Te - t.s t.e t.Te + Real.log (pe t / t.pref) + Real.log (t.X t.e)) ∧
    sbar t t.e = Rgas * (t.s t.e t.Te - Real.log (pe t / t.pref) - Real.log (t.X t.e)) ∧
    mu t t.e = hbar t t.e - t.Te * sbar t t.e := by
  have hx0 : 0 < t.X t.e := lt_of_lt_of_le small_pos hx
  have hpe : 0 < pe t := by rw [pe_formula t hT.ne']; positivity
  have h1 : mu t t.e = Rgas * t.Te *
      (t.h t.e t.Te - t.s t.e t.Te + Real.log (pe t / t.pref) + Real.log (t.X t.e)) := by
    unfold mu muStar gibbsRef gRT hRT sR
    simp only [if_true, max_eq_right hx]
    field_simp
    ring
  have h2 : sbar t t.e = Rgas * (t.s t.e t.Te - Real.log (pe t / t.pref) - Real.log (t.X t.e)) := by
    unfold sbar sR
    simp only [if_true, max_eq_right hx]
    rw [Real.log_div hp.ne' hr.ne', Real.log_div hpe.ne' hr.ne']; ring
  refine ⟨h1, h2, ?_⟩
  rw [h1, h2]
  unfold hbar hRT
  simp only [if_true]
  field_simp
  ring

/-- So at equal temperatures the electron is not a component of the ideal gas mixture: its entropy
exceeds that value by `-R ln X`, its chemical potential falls short by `-R T ln X`. -/
theorem electron_equal_temperatures (t : Th) (hT : 0 < t.T) (hTe : t.Te = t.T) (hp : 0 < t.p)
    (hr : 0 < t.pref) (hx : 1e-300 ≤ t.X t.e) (hx1 : t.X t.e < 1) :
    sbar t t.e = Rgas * (t.s t.e t.T - Real.log (t.p / t.pref) - Real.log (t.X t.e))
      - Rgas * Real.log (t.X t.e) ∧
    mu t t.e = Rgas * t.T * (t.h t.e t.T - t.s t.e t.T + Real.log (t.p / t.pref) + Real.log (t.X t.e))
      + Rgas * t.T * Real.log (t.X t.e) ∧
    mu t t.e < Rgas * t.T * (t.h t.e t.T - t.s t.e t.T + Real.log (t.p / t.pref) + Real.log (t.X t.e)) := by
  have hx0 : 0 < t.X t.e := lt_of_lt_of_le small_pos hx
  obtain ⟨h1, h2, -⟩ := electron t hT (by rw [hTe]; exact hT) hp hr hx
  have hpe : Real.log (pe t / t.pref) = Real.log (t.p / t.pref) + Real.log (t.X t.e) := by
    rw [pe_formula t hT.ne', hTe, div_self hT.ne', mul_one, mul_div_assoc,
      Real.log_mul hx0.ne' (by positivity)]
    ring
  have hlog : Real.log (t.X t.e) < 0 := Real.log_neg hx0 hx1
  have hR := Rgas_pos
  have h3 : mu t t.e = Rgas * t.T * (t.h t.e t.T - t.s t.e t.T + Real.log (t.p / t.pref) +
      Real.log (t.X t.e)) + Rgas * t.T * Real.log (t.X t.e) := by
    rw [h1, hpe, hTe]; ring
  refine ⟨by rw [h2, hpe, hTe]; ring, h3, ?_⟩
  rw [h3]
  have : Rgas * t.T * Real.log (t.X t.e) < 0 := mul_neg_of_pos_of_neg (by positivity) hlog
  linarith

/-- The standard functions agree with each other. -/
theorem standard_functions (t : Th) (hT : t.T ≠ 0) (k : ℕ) :
    muStar t k = Rgas * (if k = t.e then t.Te else t.T) * gibbsRT t k ∧
    gibbsRT t k = hRT t k - entropyR t k ∧
    entropyR t k = t.s k (if k = t.e then t.Te else t.T) -
      Real.log ((if k = t.e then pe t else t.p) / t.pref) := by
  unfold muStar gibbsRT entropyR gibbsRef gRT
  by_cases h : k = t.e
  · subst h
    simp only [if_true, ne_eq, not_true_eq_false, if_false]
    refine ⟨?_, by ring, by unfold sR; simp⟩
    field_simp
    ring
  · simp only [h, if_false, ne_eq, not_false_eq_true, if_true]
    refine ⟨by ring, by ring, by unfold sR; simp [h]⟩

/-- Over any sequence of temperatures, starting from empty caches, the stored values are those of the
current temperatures. -/
theorem updateThermo_sequence (l : List (ℝ × ℝ)) (e : ℕ) (a : ℕ → ℝ) (T Te : ℝ) (k : ℕ) :
    ((l ++ [(T, Te)]).foldl (fun c x => updateThermo c x.1 x.2 e) ⟨none, none, a⟩).at_ k =
      if k = e then Te else T := by
  classical
  let Inv : Caches → Prop := fun c => (c.base = none ∧ c.own = none) ∨ ∃ T0 Te0, c.base = some T0 ∧
    c.own = some (T0, Te0) ∧ ∀ k, c.at_ k = if k = e then Te0 else T0
  have step : ∀ c T Te, Inv c → (updateThermo c T Te e).base = some T ∧
      (updateThermo c T Te e).own = some (T, Te) ∧
      ∀ k, (updateThermo c T Te e).at_ k = if k = e then Te else T := by
    intro c T Te hc
    refine ⟨rfl, ?_, fun k => ?_⟩
    · unfold updateThermo; simp only; split_ifs with h
      · exact h
      · rfl
    · unfold updateThermo
      simp only
      rcases hc with ⟨h1, h2⟩ | ⟨T0, Te0, h1, h2, h3⟩
      · rw [h1, h2]
        by_cases hk : k = e <;> simp [hk]
      · rw [h1, h2]
        by_cases hk : k = e
        · by_cases h : (T0, Te0) = (T, Te)
          · simp only [Prod.mk.injEq] at h
            simp [h.1, h.2, h3, hk]
          · simp [h, hk]
        · by_cases h : T0 = T
          · by_cases h' : Te0 = Te
            · simp [h, h', h3, hk]
            · simp [h, h', h3, hk]
          · simp [h, hk]
  have inv : ∀ (l : List (ℝ × ℝ)) (c : Caches), Inv c →
      Inv (l.foldl (fun c x => updateThermo c x.1 x.2 e) c) := by
    intro l
    induction l with
    | nil => exact fun c hc => hc
    | cons x r ih =>
      intro c hc
      exact ih _ (Or.inr ⟨x.1, x.2, step c x.1 x.2 hc⟩)
  rw [List.foldl_append, List.foldl_cons, List.foldl_nil]
  exact (step _ T Te (inv l _ (Or.inl ⟨rfl, rfl⟩))).2.2 k

end Verif.Plasma
