import Verif.Phase.Comp

/-!
# C40: surface coverages (SurfPhase.cpp:204-301)

The composition part of the phase is `Verif.Comp.Ph`; `dens` is `m_dens`, assigned whenever the
composition changes.
-/

namespace Verif.Surf

open Verif Verif.Comp
open scoped BigOperators

variable {n : ℕ}

/-- SurfPhase.h:290-320: composition, species sizes, site density, density. -/
structure SPh (n : ℕ) where
  p : Ph n
  size : Fin n → ℝ
  n0 : ℝ
  dens : ℝ

/-- SurfPhase::compositionChanged (SurfPhase.cpp:297-301) with assignDensity (Phase.cpp:597-605); the
flag is "threw". -/
noncomputable def changed (s : SPh n) : SPh n × Bool :=
  if 0 < s.n0 * s.p.mmw then ({ s with dens := s.n0 * s.p.mmw }, false) else (s, true)

/-- SurfPhase::setCoverages (SurfPhase.cpp:215-229) -/
noncomputable def setCov (s : SPh n) (θ : Fin n → ℝ) : SPh n × Bool :=
  if ∑ k, θ k / s.size k ≤ 0 then (s, true)
  else changed { s with p := setX s.p fun k => θ k / ((∑ j, θ j / s.size j) * s.size k) }

/-- SurfPhase::setCoveragesNoNorm (SurfPhase.cpp:231-247) -/
noncomputable def setCovNoNorm (s : SPh n) (θ : Fin n → ℝ) : SPh n × Bool :=
  if ∑ k, θ k / s.size k ≤ 0 then (s, true)
  else changed { s with
    p := setXNoNorm s.p fun k => θ k * (∑ j, θ j) / ((∑ j, θ j / s.size j) * s.size k) }

/-- SurfPhase::getCoverages (SurfPhase.cpp:249-261) -/
noncomputable def getCov (s : SPh n) : Fin n → ℝ := fun k =>
  getX s.p k * (s.size k * (∑ j, getX s.p j) / ∑ j, getX s.p j * s.size j)

/-- SurfPhase::setCoveragesByName (SurfPhase.cpp:268-284); `names` are the species names, `cov` the
composition map. -/
noncomputable def setCovByName (s : SPh n) (names : Fin n → String) (cov : String → Option ℝ) :
    SPh n × Bool :=
  let c := fun k => (cov (names k)).getD 0
  if ∀ k, c k ≤ 0 then (s, true) else setCov s fun k => if 0 < c k then c k else 0

/-- Phase::getConcentrations (Phase.cpp:482-485) with the surface density -/
def conc (s : SPh n) : Fin n → ℝ := fun k => s.dens * s.p.ym k

/-- SurfPhase::setSiteDensity (SurfPhase.cpp:204-213) -/
noncomputable def setSiteDensity (s : SPh n) (n0 : ℝ) : SPh n × Bool :=
  if n0 ≤ 0 then (s, true) else changed { s with n0 := n0 }

/-- Positive weights and sizes and a positive site density, as established by `addSpecies` and
`setSiteDensity`. -/
def Valid (s : SPh n) : Prop := Weights s.p ∧ (∀ k, 0 < s.size k) ∧ 0 < s.n0

theorem clip_div (θ c : Fin n → ℝ) (hc : ∀ k, 0 < c k) (k) :
    clip (fun k => θ k / c k) k = clip θ k / c k := by
  have h := hc k
  simp only [clip]
  rcases le_total (θ k) 0 with h0 | h0
  · rw [max_eq_right h0, max_eq_right (div_nonpos_of_nonpos_of_nonneg h0 h.le), zero_div]
  · rw [max_eq_left h0, max_eq_left (div_nonneg h0 h.le)]

theorem clip_sum_pos {θ : Fin n → ℝ} (h : 0 < ∑ k, θ k) : 0 < ∑ k, clip θ k :=
  lt_of_lt_of_le h (Finset.sum_le_sum fun _ _ => le_max_left _ _)

/-- The mole fractions after `setCoverages`: proportional to the positive part of `θ_k/s_k`. -/
theorem setCov_X (s : SPh n) (hv : Valid s) (θ : Fin n → ℝ) (hs : 0 < ∑ k, θ k / s.size k) :
    (setCov s θ).2 = false ∧ Normalised (setCov s θ).1.p ∧
      (∀ k, getX (setCov s θ).1.p k
        = (clip θ k / s.size k) / ∑ j, clip θ j / s.size j) ∧
      (setCov s θ).1.dens = s.n0 * (setCov s θ).1.p.mmw ∧ (setCov s θ).1.size = s.size ∧
      (setCov s θ).1.n0 = s.n0 ∧ (setCov s θ).1.p.W = s.p.W ∧ (setCov s θ).1.p.rW = s.p.rW := by
  obtain ⟨hW, hz, hn⟩ := hv
  have hpos : ∀ k, 0 < (∑ j, θ j / s.size j) * s.size k := fun k => mul_pos hs (hz k)
  have hc : ∀ k, clip (fun k => θ k / ((∑ j, θ j / s.size j) * s.size k)) k
      = (clip θ k / s.size k) * (1 / ∑ j, θ j / s.size j) := fun k => by
    rw [clip_div _ _ hpos]
    have := hz k
    field_simp
  have hcs : 0 < ∑ k, clip θ k / s.size k := by
    have := clip_sum_pos hs
    simpa only [clip_div θ s.size hz] using this
  have hsum : ∑ k, clip (fun k => θ k / ((∑ j, θ j / s.size j) * s.size k)) k
      = (∑ k, clip θ k / s.size k) * (1 / ∑ j, θ j / s.size j) := by
    rw [Finset.sum_mul]; exact Finset.sum_congr rfl fun k _ => hc k
  have hsp : 0 < ∑ k, clip (fun k => θ k / ((∑ j, θ j / s.size j) * s.size k)) k := by
    rw [hsum]; positivity
  have hmm : 0 < (setX s.p fun k => θ k / ((∑ j, θ j / s.size j) * s.size k)).mmw := by
    simp only [setX]
    rw [wsum_comm]
    exact div_pos (wsum_pos (fun k => (hW k).1) (clip_nonneg _) hsp) hsp
  have hX := setX_getX s.p _ hW hsp
  have hN := setX_normalised s.p _ hW hsp
  simp only [setCov, not_le.2 hs, if_false, changed, mul_pos hn hmm, if_true]
  refine ⟨trivial, hN, fun k => ?_, trivial, trivial, trivial, rfl, rfl⟩
  rw [hX k, hc k, hsum]
  field_simp

/-- C40: `getCoverages` after `setCoverages(θ)` is the positive part of θ divided by its sum. -/
theorem cov_roundtrip (s : SPh n) (hv : Valid s) (θ : Fin n → ℝ) (hs : 0 < ∑ k, θ k / s.size k) (k) :
    getCov (setCov s θ).1 k = clip θ k / ∑ j, clip θ j := by
  obtain ⟨_, hN, hX, _, hz, _⟩ := setCov_X s hv θ hs
  obtain ⟨hW, hzp, hn⟩ := hv
  have hcs : 0 < ∑ k, clip θ k / s.size k := by
    have := clip_sum_pos hs
    simpa only [clip_div θ s.size hzp] using this
  have h1 : ∑ j, getX (setCov s θ).1.p j = 1 := by
    simp only [hX, ← Finset.sum_div]; exact div_self hcs.ne'
  have h2 : ∑ j, getX (setCov s θ).1.p j * (setCov s θ).1.size j
      = (∑ j, clip θ j) / ∑ j, clip θ j / s.size j := by
    rw [Finset.sum_div]
    refine Finset.sum_congr rfl fun j _ => ?_
    have := hzp j
    rw [hX, hz]; field_simp
  have h3 : 0 < ∑ j, clip θ j := by
    have h4 := wsum_pos (W := s.size) (x := fun k => clip θ k / s.size k) hzp
      (fun k => div_nonneg (clip_nonneg θ k) (hzp k).le) hcs
    have h5 : ∑ k, clip θ k / s.size k * s.size k = ∑ k, clip θ k :=
      Finset.sum_congr rfl fun j _ => by have := hzp j; field_simp
    rwa [h5] at h4
  have := hzp k
  simp only [getCov, h1, h2]
  rw [hX, hz]
  field_simp

/-- ... for non-negative coverages with positive sum: θ divided by its sum, never an error. -/
theorem cov_roundtrip_nonneg (s : SPh n) (hv : Valid s) (θ : Fin n → ℝ) (h0 : ∀ k, 0 ≤ θ k)
    (hs : 0 < ∑ k, θ k) :
    (setCov s θ).2 = false ∧ (∀ k, getCov (setCov s θ).1 k = θ k / ∑ j, θ j) ∧
      ∑ k, getCov (setCov s θ).1 k = 1 ∧ ∑ k, getX (setCov s θ).1.p k = 1 := by
  have hs' : 0 < ∑ k, θ k / s.size k := by
    have := wsum_pos (W := fun k => 1 / s.size k) (fun k => one_div_pos.2 (hv.2.1 k)) h0 hs
    simpa only [mul_one_div] using this
  have hc := clip_of_nonneg h0
  have hr : ∀ k, getCov (setCov s θ).1 k = θ k / ∑ j, θ j := fun k => by
    rw [cov_roundtrip s hv θ hs', hc]
  obtain ⟨a, hN, hX, _⟩ := setCov_X s hv θ hs'
  refine ⟨a, hr, ?_, ?_⟩
  · simp only [hr, ← Finset.sum_div]; exact div_self hs.ne'
  · simp only [hX, hc, ← Finset.sum_div]; exact div_self hs'.ne'

/-- An error in `setCoverages` (non-positive sum) changes nothing. -/
theorem setCov_throw (s : SPh n) (hv : Valid s) (θ : Fin n → ℝ) :
    ((setCov s θ).2 = true ↔ ∑ k, θ k / s.size k ≤ 0) ∧
      ((setCov s θ).2 = true → (setCov s θ).1 = s) := by
  by_cases h : ∑ k, θ k / s.size k ≤ 0
  · simp [setCov, h]
  · have := (setCov_X s hv θ (not_le.1 h)).1
    simp [this, h]

/-- Setting coverages without normalisation reports them unchanged. -/
theorem covNoNorm_roundtrip (s : SPh n) (hv : Valid s) (θ : Fin n → ℝ) (h0 : ∀ k, 0 ≤ θ k)
    (hs : 0 < ∑ k, θ k) :
    (setCovNoNorm s θ).2 = false ∧ getCov (setCovNoNorm s θ).1 = θ := by
  obtain ⟨hW, hz, hn⟩ := hv
  have hs' : 0 < ∑ k, θ k / s.size k := by
    have := wsum_pos (W := fun k => 1 / s.size k) (fun k => one_div_pos.2 (hz k)) h0 hs
    simpa only [mul_one_div] using this
  set x : Fin n → ℝ := fun k => θ k * (∑ j, θ j) / ((∑ j, θ j / s.size j) * s.size k) with hx
  have hx0 : ∀ k, 0 ≤ x k := fun k =>
    div_nonneg (mul_nonneg (h0 k) hs.le) (mul_pos hs' (hz k)).le
  have e1 : ∑ k, x k = ∑ k, θ k := by
    have : ∀ k, x k = (θ k / s.size k) * ((∑ j, θ j) / ∑ j, θ j / s.size j) := fun k => by
      have := hz k
      simp only [hx]; field_simp
    rw [Finset.sum_congr rfl fun k _ => this k, ← Finset.sum_mul]; field_simp
  have e2 : ∑ k, x k * s.size k = (∑ k, θ k) * ((∑ j, θ j) / ∑ j, θ j / s.size j) := by
    rw [Finset.sum_mul]
    refine Finset.sum_congr rfl fun k _ => ?_
    have := hz k
    simp only [hx]; field_simp
  have hm : 0 < ∑ k, x k * s.p.W k := wsum_pos (fun k => (hW k).1) hx0 (by rw [e1]; exact hs)
  have hg := (setXNoNorm_spec s.p x hW hm.ne').1
  have hmm : 0 < s.n0 * (setXNoNorm s.p x).mmw := mul_pos hn hm
  have e : setCovNoNorm s θ = changed { s with p := setXNoNorm s.p x } := by
    simp only [setCovNoNorm, not_le.2 hs', if_false, hx]
  rw [e]
  simp only [changed, hmm, if_true]
  refine ⟨trivial, ?_⟩
  funext k
  have := hz k
  simp only [getCov]
  rw [hg, e1, e2]
  simp only [hx]
  field_simp

/-- After `setCoverages` (or any normalised composition change) the total surface concentration is
the site density, and `C_k = n0 X_k`. -/
theorem conc_total (s : SPh n) (hv : Valid s) (θ : Fin n → ℝ) (hs : 0 < ∑ k, θ k / s.size k) :
    (∀ k, conc (setCov s θ).1 k = s.n0 * getX (setCov s θ).1.p k) ∧
      ∑ k, conc (setCov s θ).1 k = s.n0 := by
  obtain ⟨_, hN, hX, hd, _, hn, _⟩ := setCov_X s hv θ hs
  have h : ∀ k, conc (setCov s θ).1 k = s.n0 * getX (setCov s θ).1.p k := fun k => by
    simp only [conc, hd, getX]; ring
  refine ⟨h, ?_⟩
  simp only [h, ← Finset.mul_sum, getX]
  rw [hN.2.2, mul_one]

/-- The site balance `Σ C_k s_k = n0` holds exactly when `Σ θ = Σ θ/s` (θ clipped): it fails as soon
as the sizes are not (on average) one. -/
theorem site_balance_iff (s : SPh n) (hv : Valid s) (θ : Fin n → ℝ) (hs : 0 < ∑ k, θ k / s.size k) :
    ∑ k, conc (setCov s θ).1 k * s.size k = s.n0 ↔
      ∑ k, clip θ k = ∑ k, clip θ k / s.size k := by
  have hc := (conc_total s hv θ hs).1
  obtain ⟨_, hN, hX, _⟩ := setCov_X s hv θ hs
  obtain ⟨hW, hz, hn⟩ := hv
  have hcs : 0 < ∑ k, clip θ k / s.size k := by
    have := clip_sum_pos hs
    simpa only [clip_div θ s.size hz] using this
  have h2 : ∑ k, conc (setCov s θ).1 k * s.size k
      = s.n0 * ((∑ j, clip θ j) / ∑ j, clip θ j / s.size j) := by
    rw [Finset.sum_div, Finset.mul_sum]
    refine Finset.sum_congr rfl fun j _ => ?_
    have := hz j
    rw [hc, hX]; field_simp
  rw [h2]
  constructor
  · intro h
    have : (∑ j, clip θ j) / ∑ j, clip θ j / s.size j = 1 := by
      have := mul_left_cancel₀ hn.ne' (h.trans (mul_one s.n0).symm)
      exact this
    rwa [div_eq_one_iff_eq hcs.ne'] at this
  · intro h
    rw [h, div_self hcs.ne', mul_one]

/-- With all sizes one, the documented relations hold: site balance and `C_k = n0 θ_k / s_k`. -/
theorem site_balance_partial (s : SPh n) (hv : Valid s) (h1 : ∀ k, s.size k = 1) (θ : Fin n → ℝ)
    (hs : 0 < ∑ k, θ k / s.size k) :
    ∑ k, conc (setCov s θ).1 k * s.size k = s.n0 ∧
      ∀ k, conc (setCov s θ).1 k = s.n0 * getCov (setCov s θ).1 k / s.size k := by
  refine ⟨(site_balance_iff s hv θ hs).2 (by simp [h1]), fun k => ?_⟩
  rw [(conc_total s hv θ hs).1, cov_roundtrip s hv θ hs, (setCov_X s hv θ hs).2.2.1]
  simp [h1]

/-- One species of size 2, weight 1, site density 1. -/
noncomputable def ex1 : SPh 1 := ⟨⟨![1], ![1], ![1], ![1], 1, 300, 1, false, .massY⟩, ![2], 1, 1⟩

theorem ex1_valid : Valid ex1 := by
  refine ⟨fun k => ?_, fun k => ?_, ?_⟩
  · fin_cases k; norm_num [ex1]
  · fin_cases k; norm_num [ex1]
  · norm_num [ex1]

/-- The site balance and the documented `C_k = n0 θ_k / s_k` fail for a species of size 2: full
coverage gives twice the site density. -/
theorem site_balance_fails : ∑ k, conc (setCov ex1 ![1]).1 k * ex1.size k = 2 ∧ ex1.n0 = 1 ∧
    getCov (setCov ex1 ![1]).1 0 = 1 ∧ conc (setCov ex1 ![1]).1 0 = 1 ∧
    ex1.n0 * getCov (setCov ex1 ![1]).1 0 / ex1.size 0 = 1 / 2 := by
  have hs : 0 < ∑ k, (![1] : Fin 1 → ℝ) k / ex1.size k := by norm_num [ex1]
  have hc := (conc_total ex1 ex1_valid _ hs).1
  have hX := (setCov_X ex1 ex1_valid _ hs).2.2.1
  have hg := cov_roundtrip ex1 ex1_valid _ hs 0
  have e1 : getX (setCov ex1 ![1]).1.p 0 = 1 := by rw [hX 0]; norm_num [clip, ex1]
  have e2 : conc (setCov ex1 ![1]).1 0 = 1 := by rw [hc, e1]; norm_num [ex1]
  have e3 : getCov (setCov ex1 ![1]).1 0 = 1 := by rw [hg]; norm_num [clip]
  refine ⟨?_, rfl, e3, e2, ?_⟩
  · rw [Fin.sum_univ_one, e2]; norm_num [ex1]
  · rw [e3]; norm_num [ex1]

/-- By name: positive entries of the map for the species of the phase, divided by their sum.  Names
which are not species of the phase are ignored. -/
theorem covByName_roundtrip (s : SPh n) (hv : Valid s) (names : Fin n → String)
    (cov : String → Option ℝ) (h : ∃ k, 0 < (cov (names k)).getD 0) :
    (setCovByName s names cov).2 = false ∧ ∀ k, getCov (setCovByName s names cov).1 k
      = max ((cov (names k)).getD 0) 0 / ∑ j, max ((cov (names j)).getD 0) 0 := by
  have hn : ¬ ∀ k, (cov (names k)).getD 0 ≤ 0 := fun hh => by
    obtain ⟨k, hk⟩ := h; exact absurd hk (not_lt.2 (hh k))
  have e : (fun k => if 0 < (cov (names k)).getD 0 then (cov (names k)).getD 0 else 0)
      = fun k => max ((cov (names k)).getD 0) 0 := by
    funext k
    split_ifs with h'
    · exact (max_eq_left h'.le).symm
    · exact (max_eq_right (not_lt.1 h')).symm
  obtain ⟨k, hk⟩ := h
  have hs : 0 < ∑ k, max ((cov (names k)).getD 0) 0 :=
    Finset.sum_pos' (fun i _ => le_max_right _ _) ⟨k, Finset.mem_univ k, lt_max_of_lt_left hk⟩
  have := cov_roundtrip_nonneg s hv (fun k => max ((cov (names k)).getD 0) 0)
    (fun k => le_max_right _ _) hs
  simp only [setCovByName, hn, if_false, e]
  exact ⟨this.1, this.2.1⟩

/-- No positive entry: error, nothing changed. -/
theorem covByName_throw (s : SPh n) (names : Fin n → String) (cov : String → Option ℝ)
    (h : ∀ k, (cov (names k)).getD 0 ≤ 0) : setCovByName s names cov = (s, true) := by
  simp [setCovByName, h]

/-- `setSiteDensity` of a positive value keeps the composition and rescales the concentrations. -/
theorem siteDensity_conc (s : SPh n) (hN : Normalised s.p) (hm : 0 < s.p.mmw) (n0 : ℝ) (hn : 0 < n0) :
    (setSiteDensity s n0).2 = false ∧ (setSiteDensity s n0).1.p = s.p ∧
      ∑ k, conc (setSiteDensity s n0).1 k = n0 := by
  simp only [setSiteDensity, not_le.2 hn, if_false, changed, mul_pos hn hm, if_true]
  refine ⟨trivial, trivial, ?_⟩
  simp only [conc, ← Finset.mul_sum, mul_assoc]
  rw [hN.2.2, mul_one]

example : ∀ k, getCov (setCov ex1 ![3]).1 k = ![3] k / ∑ j, ![3] j :=
  (cov_roundtrip_nonneg ex1 ex1_valid ![3] (fun k => by fin_cases k; norm_num)
    (by norm_num)).2.1

example : getCov (setCovNoNorm ex1 ![3]).1 = ![3] :=
  (covNoNorm_roundtrip ex1 ex1_valid ![3] (fun k => by fin_cases k; norm_num)
    (by norm_num)).2

example : (setCovByName ex1 ![ "A" ] (fun s => if s = "A" then some 2 else some 7)).2 = false :=
  (covByName_roundtrip ex1 ex1_valid _ _ ⟨0, by norm_num⟩).1

end Verif.Surf
