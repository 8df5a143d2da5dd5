import Verif.Thermo.PlasmaProps

/-!
# Setting the distribution, and the difference quotient
-/

namespace Verif.Plasma

open Verif Funcs

theorem andThen_ok {r : Call} {f : P → Call} {q : P} (h : andThen r f = (q, .ok ())) :
    ∃ p, r = (p, .ok ()) ∧ f p = (q, .ok ()) := by
  unfold andThen at h
  obtain ⟨p, o⟩ := r
  cases o with
  | ok u => exact ⟨p, rfl, h⟩
  | throw => simp at h
  | ub => simp at h

/-! ## Quadrature is linear in the function -/

theorem panel_scale (h0 h1 f0 f1 f2 c : ℝ) :
    panel h0 h1 (f0 / c) (f1 / c) (f2 / c) = panel h0 h1 f0 f1 f2 / c := by
  simp only [panel]; ring

theorem simpsonLoop_scale (c : ℝ) (f x : List ℝ) (s : ℝ) :
    simpsonLoop (f.map (· / c)) x (s / c) = simpsonLoop f x s / c := by
  induction f, x, s using simpsonLoop.induct with
  | case1 f0 f1 f2 fs x0 x1 x2 xs s ih =>
    simp only [List.map_cons, simpsonLoop] at ih ⊢
    rw [panel_scale, ← ih]
    congr 1
    ring
  | case2 f x s h =>
    rw [simpsonLoop, simpsonLoop]
    · exact h
    · intro f0 f1 f2 fs x0 x1 x2 xs hf hx
      match f, hf with
      | a :: b :: d :: r, _ => exact h a b d r x0 x1 x2 xs rfl hx

theorem vecGet_map (f : List ℝ) (c : ℝ) (i : ℕ) :
    Outcome.vecGet (f.map (· / c)) i = Outcome.vecGet f i >>= fun v => .ok (v / c) := by
  unfold Outcome.vecGet
  rw [List.getElem?_map]
  cases f[i]? <;> rfl

theorem basicSimpson_scale (c : ℝ) (f x : List ℝ) :
    basicSimpson (f.map (· / c)) x = basicSimpson f x >>= fun v => .ok (v / c) := by
  unfold basicSimpson
  simp only [List.length_map]
  split_ifs
  · rfl
  · rfl
  · rw [Outcome.bind_ok, ← simpsonLoop_scale, zero_div]

theorem simpson_scale (c : ℝ) (f x : List ℝ) :
    simpson (f.map (· / c)) x = simpson f x >>= fun v => .ok (v / c) := by
  unfold simpson
  simp only [List.length_map]
  split_ifs
  · rfl
  · rfl
  · rfl
  · exact basicSimpson_scale c f x
  · simp only [vecGet_map]
    cases Outcome.vecGet (diffs x) 0 <;> try rfl
    cases Outcome.vecGet f 0 <;> try rfl
    cases Outcome.vecGet f 1 <;> try rfl
    simp only [Outcome.bind_ok]
    congr 1; ring
  · simp only [vecGet_map, ← List.map_take, basicSimpson_scale]
    cases basicSimpson (List.take (f.length - 1) f) (List.take (f.length - 1) x) <;> try rfl
    cases Outcome.vecGet (diffs x) (f.length - 1 - 1) <;> try rfl
    cases Outcome.vecGet f (f.length - 1) <;> try rfl
    cases Outcome.vecGet f (f.length - 1 - 1) <;> try rfl
    simp only [Outcome.bind_ok]
    congr 1; ring

theorem dot_scale (c : ℝ) (f x : List ℝ) : dot (sums (f.map (· / c))) (diffs x) = dot (sums f) (diffs x) / c := by
  have hs : ∀ g : List ℝ, sums (g.map (· / c)) = (sums g).map (· / c) := by
    intro g
    induction g with
    | nil => rfl
    | cons a r ih =>
      cases r with
      | nil => rfl
      | cons b r =>
        simp only [List.map_cons, sums] at ih ⊢
        rw [ih]; congr 1; ring
  have hd : ∀ a b : List ℝ, dot (a.map (· / c)) b = dot a b / c := by
    intro a
    induction a with
    | nil => intro b; simp [dot]
    | cons u a ih =>
      intro b
      cases b with
      | nil => simp [dot]
      | cons v b =>
        have := ih b
        simp only [dot, List.map_cons, List.zipWith_cons_cons, List.sum_cons] at this ⊢
        rw [this]; ring
  rw [hs, hd]

theorem trapezoidal_scale (c : ℝ) (f x : List ℝ) :
    trapezoidal (f.map (· / c)) x = trapezoidal f x >>= fun v => .ok (v / c) := by
  unfold trapezoidal
  simp only [List.length_map, List.map_eq_nil_iff]
  split_ifs
  · rfl
  · rfl
  · rfl
  · rw [Outcome.bind_ok, dot_scale]
    congr 1; ring

theorem quad_scale (m : String) (c : ℝ) (f x : List ℝ) :
    numericalQuadrature m (f.map (· / c)) x = numericalQuadrature m f x >>= fun v => .ok (v / c) := by
  unfold numericalQuadrature
  split_ifs
  · exact simpson_scale c f x
  · exact trapezoidal_scale c f x
  · rfl

/-! ## Levels -/

theorem checkLevels_ok {p q : P} (h : checkLevels p = (q, .ok ())) :
    q = p ∧ p.levels ≠ [] ∧ (∀ x ∈ p.levels, 0 ≤ x) ∧ p.levels.Pairwise (· < ·) := by
  unfold checkLevels at h
  rw [Prod.mk.injEq] at h
  obtain ⟨rfl, h2⟩ := h
  refine ⟨rfl, ?_⟩
  cases hl : p.levels with
  | nil => rw [hl] at h2; simp at h2
  | cons a r =>
    rw [hl] at h2
    simp only at h2
    split_ifs at h2 with hc
    push Not at hc
    have hp : (a :: r).Pairwise (· < ·) := by
      by_contra hn
      obtain ⟨d, hd, hd0⟩ := (diffs_pos_iff (a :: r)).2 hn
      exact absurd hd0 (not_le.2 (hc.2 d hd))
    refine ⟨by simp, ?_, hp⟩
    intro x hx
    rcases List.mem_cons.1 hx with rfl | hx
    · exact hc.1
    · exact le_trans hc.1 (List.rel_of_pairwise_cons hp hx).le

/-- Levels are accepted exactly when they are non-negative and strictly increasing. -/
theorem checkLevels_iff (p : P) : checkLevels p = (p, .ok ()) ↔
    p.levels ≠ [] ∧ (∀ x ∈ p.levels, 0 ≤ x) ∧ p.levels.Pairwise (· < ·) := by
  constructor
  · exact fun h => (checkLevels_ok h).2
  · rintro ⟨h1, h2, h3⟩
    unfold checkLevels
    cases hl : p.levels with
    | nil => exact absurd hl h1
    | cons a r =>
      rw [hl] at h2 h3
      have hc : ¬ (a < 0 ∨ ∃ d ∈ diffs (a :: r), d ≤ 0) := by
        rintro (h | h)
        · exact absurd (h2 a (by simp)) (not_le.2 h)
        · exact (diffs_pos_iff _).1 h h3
      simp only [if_neg hc]

/-- What an accepted `setElectronEnergyLevels` leaves (without recomputing the distribution). -/
theorem setLevels_ok {p q : P} {l : List ℝ} (h : setLevels p l false = (q, .ok ())) :
    q.levels = l ∧ q.nPts = l.length ∧ l ≠ [] ∧ (∀ x ∈ l, 0 ≤ x) ∧ l.Pairwise (· < ·) ∧
    q.levelNum = p.levelNum + 1 ∧ q.distNum = p.distNum ∧ q.dist = p.dist ∧ q.Te = p.Te ∧
    q.kind = p.kind ∧ q.quad = p.quad ∧ q.doNorm = p.doNorm ∧ q.shape = p.shape ∧
    ∀ i < p.nColl, q.ready i = true ∧
      (q.rates i).interp = l.map (interpFn (p.rates i).energies (p.rates i).cs) := by
  unfold setLevels at h
  obtain ⟨p1, h1, h2⟩ := andThen_ok h
  obtain ⟨p2, h3, h4⟩ := andThen_ok h2
  obtain ⟨rfl, c1, c2, c3⟩ := checkLevels_ok h1
  simp only [Bool.false_eq_true, if_false, Prod.mk.injEq, and_true] at h3
  subst h3
  simp only [Prod.mk.injEq, and_true] at h4
  subst h4
  refine ⟨rfl, rfl, c1, c2, c3, rfl, rfl, rfl, rfl, rfl, rfl, rfl, rfl, fun i hi => ?_⟩
  simp [hi, interpolate]

/-- A refused grid replaces the levels all the same, without a new level number: afterwards the levels
and the distribution do not belong together. -/
theorem setLevels_refused (p : P) (l : List ℝ) (upd : Bool) (hl : l ≠ [])
    (hbad : ¬ ((∀ x ∈ l, 0 ≤ x) ∧ l.Pairwise (· < ·))) :
    setLevels p l upd = ({ p with nPts := l.length, levels := l }, .throw) := by
  have hc : checkLevels { p with nPts := l.length, levels := l } =
      ({ p with nPts := l.length, levels := l }, .throw) := by
    cases h : checkLevels { p with nPts := l.length, levels := l } with
    | mk q o =>
      have hq : q = { p with nPts := l.length, levels := l } := by
        have := congrArg Prod.fst h; simpa [checkLevels] using this.symm
      subst hq
      cases o with
      | ok u => exact absurd ((checkLevels_ok h).2.2) hbad
      | throw => rfl
      | ub =>
        exfalso
        unfold checkLevels at h
        rw [Prod.mk.injEq] at h
        cases l with
        | nil => exact hl rfl
        | cons a r => simp only at h; have := h.2; split_ifs at this
  unfold setLevels
  rw [hc]
  rfl

example (p : P) : (setLevels p [1, 0] false).2 = .throw ∧ (setLevels p [1, 0] false).1.levels = [1, 0] ∧
    (setLevels p [1, 0] false).1.dist = p.dist := by
  rw [setLevels_refused p [1, 0] false (by simp) (by simp)]
  exact ⟨rfl, rfl, rfl⟩

/-! ## Distribution -/

theorem checkDist_ok {p q : P} (h : checkDist p = (q, .ok ())) :
    q = p ∧ (∀ d ∈ p.dist, 0 ≤ d) ∧ 0 < p.nPts ∧ p.nPts ≤ p.dist.length := by
  unfold checkDist at h
  rw [Prod.mk.injEq] at h
  obtain ⟨rfl, h2⟩ := h
  split_ifs at h2 with h3 h4
  push Not at h3 h4
  exact ⟨rfl, h3, by omega, h4.2⟩

theorem updateDiff_ok {p q : P} (h : updateDiff p = (q, .ok ())) :
    2 ≤ p.nPts ∧ p.nPts ≤ p.dist.length ∧ p.nPts ≤ p.levels.length ∧
    q = { p with
      diff := (List.range p.nPts).map (diffAt (p.dist.getD · 0) (p.levels.getD · 0) p.nPts) } := by
  unfold updateDiff at h
  split_ifs at h with hc
  · simp at h
  · push Not at hc
    simp only [Prod.mk.injEq, and_true] at h
    exact ⟨hc.1, hc.2.1, hc.2.2, h.symm⟩

theorem updateTe_ok {p q : P} (h : updateTe p = (q, .ok ())) :
    ∃ v, 0 ≤ v ∧ q = { p with Te := 2 / 3 * (2 / 5 * v) * qe / kB } ∧
      (numericalQuadrature p.quad p.dist (p.levels.map (· ^ (5 / 2 : ℝ))) = .ok v ∨
       (p.quad = "simpson" ∧
        (∃ w < 0, simpson p.dist (p.levels.map (· ^ (5 / 2 : ℝ))) = .ok w) ∧
        trapezoidal p.dist (p.levels.map (· ^ (5 / 2 : ℝ))) = .ok v)) := by
  unfold updateTe at h
  cases hv : numericalQuadrature p.quad p.dist (p.levels.map (· ^ (5 / 2 : ℝ))) with
  | ok v =>
    rw [hv] at h
    simp only at h
    split_ifs at h with h1 h2
    · have et : ∀ f x, numericalQuadrature "trapezoidal" f x = trapezoidal f x := by
        intro f x; simp [numericalQuadrature]
      rw [et] at h
      cases hw : trapezoidal p.dist (p.levels.map (· ^ (5 / 2 : ℝ))) with
      | ok w =>
        rw [hw] at h
        simp only at h
        split_ifs at h with h3
        · simp at h
        · simp only [Prod.mk.injEq, and_true] at h
          refine ⟨w, by linarith, h.symm, Or.inr ⟨h1.2, ⟨v, by linarith [h1.1], ?_⟩, rfl⟩⟩
          rw [h1.2] at hv; simpa [numericalQuadrature] using hv
      | throw => rw [hw] at h; simp at h
      | ub => rw [hw] at h; simp at h
    · simp at h
    · simp only [Prod.mk.injEq, and_true] at h
      exact ⟨v, by linarith, h.symm, Or.inl rfl⟩
  | throw => rw [hv] at h; simp at h
  | ub => rw [hv] at h; simp at h

/-- Electron temperature and mean electron energy are the same quantity. -/
theorem meanEnergy_of_Te (p : P) (e : ℝ) :
    meanEnergy { p with Te := 2 / 3 * e * qe / kB } = e := by
  have := qe_pos
  have := kB_pos
  unfold meanEnergy
  field_simp

theorem normalize_ok {p q : P} (h : normalize p = (q, .ok ())) (hn : q.nan = false) :
    ∃ v, 0 < v ∧ numericalQuadrature p.quad p.dist (p.levels.map (· ^ (3 / 2 : ℝ))) = .ok v ∧
      q = { p with dist := p.dist.map (· / (2 / 3 * v)) } := by
  unfold normalize at h
  cases hv : numericalQuadrature p.quad p.dist (p.levels.map (· ^ (3 / 2 : ℝ))) with
  | ok v =>
    rw [hv] at h
    simp only at h
    split_ifs at h with h1 h2
    · simp at h
    · simp only [Prod.mk.injEq, and_true] at h
      rw [← h] at hn; simp at hn
    · simp only [Prod.mk.injEq, and_true] at h
      refine ⟨v, ?_, rfl, h.symm⟩
      rcases lt_trichotomy v 0 with h3 | h3 | h3
      · exact absurd (by linarith : 2 / 3 * v < 0) h1
      · exact absurd (by rw [h3]; ring) h2
      · exact h3
  | throw => rw [hv] at h; simp at h
  | ub => rw [hv] at h; simp at h

/-- After a successful call: the levels are accepted ones, the distribution is non-negative, its norm
`∫ √ε F dε = 2/3 ∫ F d(ε^{3/2})` by the chosen quadrature is one if normalisation is enabled, the mean
electron energy is `2/5 ∫ F d(ε^{5/2})` by the chosen quadrature (by the trapezoidal rule if Simpson's
rule is negative), and both counters have moved. -/
theorem setDiscretized_ok {p q : P} {l d : List ℝ} (h : setDiscretized p l d = (q, .ok ()))
    (hn : q.nan = false) :
    q.kind = "discretized" ∧ q.levels = l ∧ 2 ≤ l.length ∧ (∀ x ∈ l, 0 ≤ x) ∧ l.Pairwise (· < ·) ∧
    q.dist.length = l.length ∧ (∀ v ∈ q.dist, 0 ≤ v) ∧
    (p.doNorm = true → ∃ v, numericalQuadrature q.quad q.dist (l.map (· ^ (3 / 2 : ℝ))) = .ok v ∧
      2 / 3 * v = 1) ∧
    (p.doNorm = false → q.dist = d.take l.length) ∧
    (∃ v, meanEnergy q = 2 / 5 * v ∧
      (numericalQuadrature q.quad q.dist (l.map (· ^ (5 / 2 : ℝ))) = .ok v ∨
       trapezoidal q.dist (l.map (· ^ (5 / 2 : ℝ))) = .ok v)) ∧
    q.diff = (List.range l.length).map (diffAt (q.dist.getD · 0) (l.getD · 0) l.length) ∧
    q.levelNum = p.levelNum + 2 ∧ q.distNum = p.distNum + 1 := by
  unfold setDiscretized at h
  obtain ⟨p1, h1, h⟩ := andThen_ok h
  obtain ⟨a1, a2, a3, a4, a5, a6, a7, a8, a9, a10, a11, a12, a13, -⟩ := setLevels_ok h1
  split_ifs at h with hd
  · simp at h
  obtain ⟨p2, h2, h⟩ := andThen_ok h
  obtain ⟨e2, -⟩ := checkLevels_ok h2
  obtain ⟨p3, h3, h⟩ := andThen_ok h
  have key : p3.nan = false → p3.levels = l ∧ p3.nPts = l.length ∧ p3.kind = "discretized" ∧
      p3.levelNum = p.levelNum + 1 ∧ p3.distNum = p.distNum ∧ p3.dist.length = l.length ∧
      (p.doNorm = true → ∃ v, numericalQuadrature p3.quad p3.dist (l.map (· ^ (3 / 2 : ℝ))) = .ok v ∧
        2 / 3 * v = 1) ∧ (p.doNorm = false → p3.dist = d.take l.length) := by
    intro hp3
    have e12 : p2.doNorm = p.doNorm := by rw [e2]; exact a12
    cases hb : p.doNorm with
    | true =>
      rw [e12, hb, if_pos rfl] at h3
      obtain ⟨v, hv0, hv, hq⟩ := normalize_ok h3 hp3
      rw [e2] at hv hq
      simp only at hv hq
      rw [hq]
      refine ⟨a1, a2, a10, a6, a7, ?_, ?_, by simp⟩
      · simp; omega
      · intro _
        refine ⟨v / (2 / 3 * v), ?_, by field_simp⟩
        simp only
        rw [a1] at hv
        rw [quad_scale, hv]
        rfl
    | false =>
      rw [e12, hb] at h3
      simp only [Bool.false_eq_true, if_false, Prod.mk.injEq, and_true] at h3
      rw [← h3, e2]
      refine ⟨a1, a2, a10, a6, a7, ?_, by simp, fun _ => rfl⟩
      simp; omega
  split_ifs at h with hnan
  · simp only [Prod.mk.injEq, and_true] at h
    rw [← h] at hn
    simp only at hn
    rw [hn] at hnan; cases hnan
  · obtain ⟨b1, b2, b3, b4, b5, b6, b7, b8⟩ := key (by simpa using hnan)
    obtain ⟨p4, h4, h⟩ := andThen_ok h
    obtain ⟨e4, c1, -, -⟩ := checkDist_ok h4
    rw [e4] at h
    obtain ⟨p5, h5, h⟩ := andThen_ok h
    obtain ⟨d1, d2, d3, e5⟩ := updateDiff_ok h5
    obtain ⟨p6, h6, h⟩ := andThen_ok h
    obtain ⟨v, hv0, e6, hv⟩ := updateTe_ok h6
    simp only [Prod.mk.injEq, and_true] at h
    rw [e5] at e6 hv
    simp only at hv
    rw [← h, e6]
    refine ⟨b3, b1, by omega, a4, a5, b6, c1, b7, b8, ⟨v, ?_, ?_⟩, ?_, ?_, ?_⟩
    · have := qe_pos
      have := kB_pos
      simp only [meanEnergy]
      field_simp
    · simp only
      rw [b1] at hv
      rcases hv with hv | ⟨_, _, hv⟩
      · exact Or.inl hv
      · exact Or.inr hv
    · simp only [b2, b1]
    · simp only [b4]; ring
    · simp only [b5]

/-- The electron temperature can no longer be set: the call stores it, then throws, leaving the
distribution (and its number) as they were. -/
theorem setTe_discretized (p : P) (T : ℝ) (h : p.kind = "discretized") :
    setTe p T = ({ p with Te := T }, .throw) := by
  unfold setTe updateDist
  rw [if_pos h]

/-- The same for the mean energy and the shape factor, and for new levels with the default flag: the
levels are replaced and counted, the distribution keeps its length. -/
theorem setters_discretized (p : P) (h : p.kind = "discretized") :
    (∀ e, setMean p e = ({ p with Te := 2 / 3 * e * qe / kB }, .throw)) ∧
    (∀ x, setShape p x = ({ p with shape := x }, .throw)) ∧
    (∀ l, l ≠ [] → (∀ x ∈ l, 0 ≤ x) → l.Pairwise (· < ·) →
      setLevels p l true = ({ p with nPts := l.length, levels := l, levelNum := p.levelNum + 1 }, .throw)) := by
  refine ⟨fun e => ?_, fun x => ?_, fun l h1 h2 h3 => ?_⟩
  · unfold setMean updateDist; rw [if_pos h]
  · unfold setShape updateDist; rw [if_pos h]
  · have hc := (checkLevels_iff { p with nPts := l.length, levels := l }).2 ⟨h1, h2, h3⟩
    unfold setLevels
    rw [hc]
    simp only [andThen, if_true, updateDist]
    rw [if_pos h]

/-- With the isotropic form every positive electron temperature is accepted on a grid of at least two
levels; the distribution is that of the form at the new temperature, and its number changes. -/
theorem setTe_isotropic (p : P) {T : ℝ} (hT : 0 < T) (h : p.kind = "isotropic") (hx : 0 < p.shape)
    (h2 : 2 ≤ p.nPts) (hl : p.levels.length = p.nPts) (hs : p.levels.Pairwise (· < ·))
    (hp : ∀ x ∈ p.levels, 0 ≤ x) :
    ∃ q, setTe p T = (q, .ok ()) ∧ q.Te = T ∧ meanEnergy q = 3 / 2 * T * kB / qe ∧
      q.dist = p.levels.map (isoF p.shape (3 / 2 * T * kB / qe)) ∧ (∀ v ∈ q.dist, 0 < v) ∧
      q.dist.Pairwise (· ≥ ·) ∧ q.distNum = p.distNum + 1 ∧
      q.diff = (List.range p.nPts).map (diffAt (q.dist.getD · 0) (p.levels.getD · 0) p.nPts) := by
  have := qe_pos
  have := kB_pos
  have he : 0 < 3 / 2 * T * kB / qe := by positivity
  have hpa := isoF_pos_anti hx he
  have hm : ∀ q : P, q.Te = T → meanEnergy q = 3 / 2 * T * kB / qe := by
    intro q hq; unfold meanEnergy; rw [hq]
  have hpos : ∀ v ∈ p.levels.map (isoF p.shape (3 / 2 * T * kB / qe)), 0 < v := by
    intro v hv
    obtain ⟨ε, _, rfl⟩ := List.mem_map.1 hv
    exact hpa.1 ε
  have hc : setIso { p with Te := T } =
      ({ p with Te := T, dist := p.levels.map (isoF p.shape (3 / 2 * T * kB / qe)), nan := false }, .ok ()) := by
    unfold setIso checkDist
    rw [if_neg, if_neg]
    · simp only [hm { p with Te := T } rfl]
    · simp only [List.length_map]; omega
    · simp only [hm { p with Te := T } rfl]
      rintro ⟨d, hd, hd0⟩
      exact absurd (hpos d hd) (not_lt.2 hd0.le)
  have hdf : ∀ q : P, q.nPts = p.nPts → q.dist.length = p.nPts → q.levels = p.levels →
      updateDiff q = ({ q with
        diff := (List.range p.nPts).map (diffAt (q.dist.getD · 0) (p.levels.getD · 0) p.nPts) }, .ok ()) := by
    intro q q1 q2 q3
    unfold updateDiff
    rw [if_neg (by rw [q1, q2, q3]; omega), q1, q3]
  have hD := hdf { p with
      Te := T
      dist := p.levels.map (isoF p.shape (3 / 2 * T * kB / qe))
      nan := false } rfl (by simp [hl]) rfl
  have hu : setTe p T = ({ p with
      Te := T
      dist := p.levels.map (isoF p.shape (3 / 2 * T * kB / qe))
      nan := false
      diff := (List.range p.nPts).map (diffAt ((p.levels.map (isoF p.shape (3 / 2 * T * kB / qe))).getD · 0)
        (p.levels.getD · 0) p.nPts)
      distNum := p.distNum + 1 }, .ok ()) := by
    unfold setTe updateDist
    rw [if_neg (by simp [h])]
    simp only [h, if_true]
    rw [← h, hc]
    simp only [andThen]
    rw [hD]
  refine ⟨_, hu, rfl, hm _ rfl, rfl, hpos, ?_, rfl, rfl⟩
  rw [List.pairwise_map]
  exact hs.imp_of_mem fun {a b} ha _ hab => (hpa.2 a b (hp a ha) hab).le

/-- Setting the mean electron energy and reading it back. -/
theorem setMean_roundtrip (p : P) (e : ℝ) : meanEnergy (setMean p e).1 = e := by
  have key : ∀ q : P, (updateDist q).1.Te = q.Te := by
    intro q
    unfold updateDist
    split_ifs with h1 h2
    · rfl
    · unfold setIso checkDist andThen
      simp only
      split_ifs <;> try rfl
      unfold updateDiff
      split_ifs <;> rfl
    · unfold andThen updateDiff
      simp only
      split_ifs <;> rfl
  have : meanEnergy (setMean p e).1 = meanEnergy { p with Te := 2 / 3 * e * qe / kB } := by
    unfold meanEnergy setMean
    rw [key]
  rw [this, meanEnergy_of_Te]

/-- A distribution that vanishes is accepted: the division by the norm gives NaN everywhere. -/
theorem zero_distribution (p : P) (h : p.doNorm = true) (hq : p.quad = "simpson") :
    ∃ q, setDiscretized p [0, 1] [0, 0] = (q, .ok ()) ∧ q.nan = true := by
  have hl : setLevels { p with kind := "discretized" } [0, 1] false =
      ((setLevels { p with kind := "discretized" } [0, 1] false).1, .ok ()) := by
    unfold setLevels
    rw [(checkLevels_iff _).2 ⟨by simp, by simp, by simp⟩]
    rfl
  obtain ⟨a1, a2, a3, a4, a5, a6, a7, a8, a9, a10, a11, a12, a13, -⟩ := setLevels_ok hl
  have hz : numericalQuadrature "simpson" (List.take [(0 : ℝ), 1].length [(0 : ℝ), 0])
      ([(0 : ℝ), 1].map (· ^ (3 / 2 : ℝ))) = .ok 0 := by
    simp [numericalQuadrature, simpson, diffs, Outcome.vecGet]
  generalize (setLevels { p with kind := "discretized" } [0, 1] false).1 = p1 at *
  have hn : normalize { p1 with dist := List.take [(0 : ℝ), 1].length [(0 : ℝ), 0], nan := false } =
      ({ p1 with dist := List.take [(0 : ℝ), 1].length [(0 : ℝ), 0], nan := true }, .ok ()) := by
    unfold normalize
    simp only
    rw [a11, a1, hq, hz]
    simp
  refine ⟨{ p1 with
    dist := List.take [(0 : ℝ), 1].length [(0 : ℝ), 0]
    nan := true
    levelNum := p1.levelNum + 1
    distNum := p1.distNum + 1 }, ?_, rfl⟩
  unfold setDiscretized
  rw [hl]
  simp only [andThen]
  rw [if_neg (by simp), (checkLevels_iff _).2 ⟨by simp [a1], by simp [a1], by simp [a1]⟩]
  rw [if_pos (show ({ p1 with dist := List.take [(0 : ℝ), 1].length [(0 : ℝ), 0], nan := false } : P).doNorm = true from a12.trans h)]
  rw [hn]
  simp

/-- A distribution on two levels is accepted and normalised. -/
theorem accepted_distribution (p : P) (h : p.doNorm = true) (hq : p.quad = "simpson") :
    ∃ q, setDiscretized p [0, 1] [1, 0] = (q, .ok ()) ∧ q.nan = false ∧ q.dist = [3, 0] := by
  have hl : setLevels { p with kind := "discretized" } [0, 1] false =
      ((setLevels { p with kind := "discretized" } [0, 1] false).1, .ok ()) := by
    unfold setLevels
    rw [(checkLevels_iff _).2 ⟨by simp, by simp, by simp⟩]
    rfl
  obtain ⟨a1, a2, a3, a4, a5, a6, a7, a8, a9, a10, a11, a12, a13, -⟩ := setLevels_ok hl
  have hz : numericalQuadrature "simpson" [(1 : ℝ), 0] ([(0 : ℝ), 1].map (· ^ (3 / 2 : ℝ))) = .ok (1 / 2) := by
    have : (0 : ℝ) ^ (3 / 2 : ℝ) = 0 := Real.zero_rpow (by norm_num)
    simp [numericalQuadrature, simpson, diffs, Outcome.vecGet]
  have hw : numericalQuadrature "simpson" [(3 : ℝ), 0] ([(0 : ℝ), 1].map (· ^ (5 / 2 : ℝ))) = .ok (3 / 2) := by
    have : (0 : ℝ) ^ (5 / 2 : ℝ) = 0 := Real.zero_rpow (by norm_num)
    simp [numericalQuadrature, simpson, diffs, Outcome.vecGet]
    norm_num
  generalize (setLevels { p with kind := "discretized" } [0, 1] false).1 = p1 at *
  have hn : normalize { p1 with dist := [1, 0], nan := false } =
      ({ p1 with dist := [3, 0], nan := false }, .ok ()) := by
    unfold normalize
    simp only
    rw [a11, a1, hq, hz]
    norm_num
  have hc : checkDist { p1 with dist := [3, 0], nan := false } =
      ({ p1 with dist := [3, 0], nan := false }, .ok ()) := by
    unfold checkDist
    rw [if_neg (by simp), if_neg (by simp [a2])]
  have hd : ∃ D, updateDiff { p1 with dist := [3, 0], nan := false } =
      ({ p1 with dist := [3, 0], nan := false, diff := D }, .ok ()) := by
    unfold updateDiff
    rw [if_neg (by simp [a2, a1])]
    exact ⟨_, rfl⟩
  obtain ⟨D, hd⟩ := hd
  have ht : ∃ t, updateTe { p1 with dist := [3, 0], nan := false, diff := D } =
      ({ p1 with dist := [3, 0], nan := false, diff := D, Te := t }, .ok ()) := by
    unfold updateTe
    simp only
    rw [a11, a1, hq, hw]
    simp only
    rw [if_neg (by norm_num), if_neg (by norm_num)]
    exact ⟨_, rfl⟩
  obtain ⟨t, ht⟩ := ht
  refine ⟨{ p1 with
    dist := [3, 0]
    nan := false
    diff := D
    Te := t
    levelNum := p1.levelNum + 1
    distNum := p1.distNum + 1 }, ?_, rfl, rfl⟩
  unfold setDiscretized
  rw [hl]
  simp only [andThen]
  rw [if_neg (by simp), show List.take [(0 : ℝ), 1].length [(1 : ℝ), 0] = [1, 0] from rfl,
    (checkLevels_iff _).2 ⟨by simp [a1], by simp [a1], by simp [a1]⟩]
  simp only
  rw [if_pos (show ({ p1 with dist := [1, 0], nan := false } : P).doNorm = true from a12.trans h)]
  rw [hn]
  simp only [Bool.false_eq_true, if_false]
  rw [hc]
  simp only
  rw [hd]
  simp only
  rw [ht]

/-! ## The difference quotient -/

/-- In the interior the difference is exact for quadratic functions on any grid, at the ends for linear
ones. -/
theorem diffAt_quadratic (x : ℕ → ℝ) (n i : ℕ) (a b c : ℝ) (h0 : 0 < i) (hi : i + 1 < n)
    (h1 : x (i - 1) < x i) (h2 : x i < x (i + 1)) :
    diffAt (fun k => a + b * x k + c * x k ^ 2) x n i = b + 2 * c * x i := by
  unfold diffAt
  rw [if_neg (by omega), if_neg (by omega)]
  simp only
  have e1 : x (i + 1) - x i ≠ 0 := by linarith
  have e2 : x i - x (i - 1) ≠ 0 := by linarith
  have e3 : x (i + 1) - x i + (x i - x (i - 1)) ≠ 0 := by linarith
  generalize x (i + 1) = u at *
  generalize x i = v at *
  generalize x (i - 1) = w at *
  field_simp
  ring

theorem diffAt_linear (x : ℕ → ℝ) (n i : ℕ) (a b : ℝ) (hn : 2 ≤ n) (hi : i < n)
    (hx : ∀ k, k + 1 < n → x k < x (k + 1)) :
    diffAt (fun k => a + b * x k) x n i = b := by
  by_cases h1 : i = n - 1
  · unfold diffAt
    rw [if_pos h1]
    have := hx (n - 2) (by omega)
    rw [show n - 2 + 1 = n - 1 by omega] at this
    have : x (n - 1) - x (n - 2) ≠ 0 := by linarith
    field_simp; ring
  · by_cases h2 : i = 0
    · unfold diffAt
      rw [if_neg h1, if_pos h2]
      have := hx 0 (by omega)
      have : x 1 - x 0 ≠ 0 := by simp at this; linarith
      field_simp; ring
    · have e := diffAt_quadratic x n i a b 0 (by omega) (by omega)
        (by have := hx (i - 1) (by omega); rwa [show i - 1 + 1 = i by omega] at this)
        (hx i (by omega))
      simpa using e

example : diffAt (fun k => (k : ℝ) ^ 2) (fun k => (k : ℝ)) 5 3 = 6 := by
  have := diffAt_quadratic (fun k => (k : ℝ)) 5 3 0 0 1 (by norm_num) (by norm_num) (by norm_num) (by norm_num)
  norm_num at this
  exact this

/-- One level: elements 1 and -1 are read. -/
theorem one_level (p : P) (h : p.nPts = 1) : (updateDiff p).2 = .ub := by
  unfold updateDiff; rw [if_pos (by omega)]

/-! ## Input -/

/-- Any other type in the input is accepted silently, whereas the setter refuses it. -/
theorem unknown_type (p : P) (i : Input) (h1 : i.kind ≠ "isotropic") (h2 : i.kind ≠ "discretized") :
    setParameters p i = ({ p with kind := i.kind }, .ok ()) ∧ (setKind p i.kind) = (p, .throw) := by
  unfold setParameters setKind
  simp [h1, h2]

/-- The type of the distribution can be changed without recomputing it. -/
theorem setKind_keeps (p : P) :
    setKind p "isotropic" = ({ p with kind := "isotropic" }, .ok ()) ∧
    setKind p "discretized" = ({ p with kind := "discretized" }, .ok ()) := by
  unfold setKind; simp

/-- What `getParameters` writes is accepted again by an object with the same settings and gives the same
mean energy, shape and levels (isotropic form). -/
theorem parameters_isotropic (p p0 : P) (h : p.kind = "isotropic") :
    meanEnergy (setParameters p0 (getParameters p)).1 = meanEnergy p ∨
    ¬ (p.levels ≠ [] ∧ (∀ x ∈ p.levels, 0 ≤ x) ∧ p.levels.Pairwise (· < ·)) := by
  by_cases hl : p.levels ≠ [] ∧ (∀ x ∈ p.levels, 0 ≤ x) ∧ p.levels.Pairwise (· < ·)
  · left
    unfold setParameters getParameters
    simp only [h, if_true]
    have hs : ∀ q : P, ∃ q', setLevels q p.levels false = (q', .ok ()) := by
      intro q
      unfold setLevels
      rw [(checkLevels_iff { q with nPts := p.levels.length, levels := p.levels }).2 hl]
      exact ⟨_, rfl⟩
    obtain ⟨q', hq'⟩ := hs { p0 with kind := "isotropic", shape := p.shape }
    rw [hq']
    simp only [andThen]
    exact setMean_roundtrip q' _
  · exact Or.inr hl

/-- Construction from a file: whatever the file says, the levels become the uniform grid on [0, 1] and
the electron temperature that of the gas, while the distribution stays that of the file. -/
theorem construct_overwrites (p0 p : P) (file : P → Call) (T : ℝ) (h : file p0 = (p, .ok ())) :
    ∃ q, construct p0 file T = (q, .ok ()) ∧ q.Te = T ∧ q.dist = p.dist ∧ q.levelNum = p.levelNum ∧
      q.levels.length = p.nPts ∧ ∀ i < p.nPts, q.levels.getD i 0 = (i : ℝ) / ((p.nPts : ℝ) - 1) := by
  unfold construct andThen
  rw [h]
  refine ⟨_, rfl, rfl, rfl, rfl, by simp, fun i hi => ?_⟩
  simp [List.getD_eq_getElem?_getD, List.getElem?_range hi]

end Verif.Plasma
