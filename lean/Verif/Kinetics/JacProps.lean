import Verif.Kinetics.JacLemmas

/-!
# C43: the composition Jacobian of the rates of progress
-/

namespace Verif.Kinetics

open Verif Verif.Stoich Filter Topology

/-- Thermodynamic data at fixed temperature, multipliers and rate laws as functions of the reaction's own
third-body concentration. -/
structure Gas where
  nsp : ℕ
  mu0 : ℕ → ℝ
  RT : ℝ
  c0 : ℝ
  perturb : ℕ → ℝ
  law : ℕ → ℝ → ℝ

/-- Third-body concentration of reaction `i` (zero if it has none). -/
noncomputable def Gas.M (g : Gas) (rs : List Rxn) (i : ℕ) (c : ℕ → ℝ) : ℝ :=
  match (rs[i]?).bind (·.thirdBody) with
  | some b => b.conc g.nsp c
  | none => 0

/-- What `updateROP` reads for an ideal gas with concentrations `c`. -/
noncomputable def Gas.env (g : Gas) (rs : List Rxn) (c : ℕ → ℝ) : Env where
  mu0 := g.mu0
  RT := g.RT
  c0 := g.c0
  actConc := c
  physConc := c
  ctot := ∑ k ∈ Finset.range g.nsp, c k
  kf0 := fun i => g.law i (g.M rs i c)
  perturb := g.perturb

variable (rs : List Rxn) (hv : ∀ r ∈ rs, r.OK) (K : Kin) (hK : Built K rs) (g : Gas)
  (hT : ∀ r ∈ rs, r.TBOK g.nsp) (oldR oldC : ℕ → ℝ) (Rf : (ℕ → ℝ) → Rop)
  (hRf : ∀ c, K.updateROP (g.env rs c) oldR oldC = .ok (Rf c))

include hv hK hT in
/-- Such a family of results exists for every mechanism. -/
theorem rop_family_exists : ∃ Rf : (ℕ → ℝ) → Rop,
    ∀ c, K.updateROP (g.env rs c) oldR oldC = .ok (Rf c) := by
  have h : ∀ c, ∃ R, K.updateROP (g.env rs c) oldR oldC = .ok R := by
    intro c
    obtain ⟨R, hR, _⟩ := rates_of_progress rs hv K hK g.nsp hT (g.env rs c) rfl oldR oldC
    exact ⟨R, hR⟩
  exact ⟨fun c => (h c).choose, fun c => (h c).choose_spec⟩

/-- Forward rates are differentiable rows of the reactant manager. -/
theorem reac_row (i : ℕ) (r : Rxn) (hv : ∀ r ∈ rs, r.OK) (hK : Built K rs) (hr : rs[i]? = some r) :
    ∃ ds, Mgr.empty.addAll ds = .ok K.reac ∧
      ∀ (c R : ℕ → ℝ) (k : ℕ), (∀ x ∈ r.effOrders, 0 < c x.1) →
        HasDerivAt (fun x => R i * K.reac.fac (Function.update c k x) i)
          (K.reac.derivatives c R i k) (c k) := by
  obtain ⟨K', hK', hn, h1, h2, h3, h4, h5, h6, h7, h8⟩ := kin_addAll rs hv Kin.empty
  rw [Built] at hK; rw [hK] at hK'; cases hK'
  simp only [Kin.empty] at h1
  have hro : r.OK := hv r (List.mem_of_getElem? hr)
  have fr := filter_map_decl rs.zipIdx (fun r i => r.reactDecl i) (fun _ _ => rfl) i
  rw [filter_zipIdx_some rs i r hr] at fr
  refine ⟨_, h1, ?_⟩
  intro c R k hpos
  refine row_hasDerivAt _ K.reac h1 i (Or.inr ⟨_, fr, reactDecl_valid r hro i⟩) c R k ?_
  intro d hd hdi
  have : d ∈ (rs.zipIdx.map (fun p => p.1.reactDecl p.2)).filter (fun d => d.rxn = i) :=
    List.mem_filter.2 ⟨hd, by simpa using hdi⟩
  rw [fr] at this
  simp only [List.map_cons, List.map_nil, List.mem_singleton] at this
  subst this
  intro a ha
  simp only [Rxn.reactDecl, rvecs_eq r hro, List.mem_map] at ha
  obtain ⟨x, hx, rfl⟩ := ha
  exact hpos x hx

/-- Reverse rates likewise. -/
theorem rev_row (i : ℕ) (r : Rxn) (hv : ∀ r ∈ rs, r.OK) (hK : Built K rs) (hr : rs[i]? = some r) :
    ∃ ds, Mgr.empty.addAll ds = .ok K.revProd ∧
      ∀ (c R : ℕ → ℝ) (k : ℕ), (∀ x ∈ r.products, 0 < c x.1) →
        HasDerivAt (fun x => R i * K.revProd.fac (Function.update c k x) i)
          (K.revProd.derivatives c R i k) (c k) := by
  obtain ⟨K', hK', hn, h1, h2, h3, h4, h5, h6, h7, h8⟩ := kin_addAll rs hv Kin.empty
  rw [Built] at hK; rw [hK] at hK'; cases hK'
  simp only [Kin.empty] at h3
  have hro : r.OK := hv r (List.mem_of_getElem? hr)
  have fq := filter_map_decl (rs.zipIdx.filter (·.1.reversible)) (fun r i => r.prodDecl i)
    (fun _ _ => rfl) i
  rw [filter_rev rs i r hr] at fq
  refine ⟨_, h3, ?_⟩
  intro c R k hpos
  refine row_hasDerivAt _ K.revProd h3 i ?_ c R k ?_
  · cases hrev : r.reversible with
    | false => left; rw [fq, hrev]; rfl
    | true => right; exact ⟨r.prodDecl i, by rw [fq, hrev]; rfl, prodDecl_valid r hro i⟩
  · intro d hd hdi
    have : d ∈ ((rs.zipIdx.filter (·.1.reversible)).map (fun p => p.1.prodDecl p.2)).filter
        (fun d => d.rxn = i) := List.mem_filter.2 ⟨hd, by simpa using hdi⟩
    rw [fq] at this
    cases hrev : r.reversible with
    | false => simp [hrev] at this
    | true =>
      simp only [hrev, if_true, List.map_cons, List.map_nil, List.mem_singleton] at this
      subst this
      intro a ha
      simp only [Rxn.prodDecl, List.mem_map] at ha
      obtain ⟨x, hx, rfl⟩ := ha
      exact hpos x hx

/-- Derivative of `(rate constant × third-body factor) × mass-action product`. -/
theorem product_row (m : Mgr) (i k : ℕ) (c : ℕ → ℝ) (a : ℝ → ℝ) (a' : ℝ)
    (ha : HasDerivAt a a' (c k))
    (hm : ∀ R : ℕ → ℝ, HasDerivAt (fun x => R i * m.fac (Function.update c k x) i)
      (m.derivatives c R i k) (c k)) :
    HasDerivAt (fun x => a x * m.fac (Function.update c k x) i)
      (m.derivatives c (fun _ => a (c k)) i k + a' * m.fac c i) (c k) := by
  have h1 := hm (fun _ => 1)
  have ha2 := hm (fun _ => a (c k))
  simp only [one_mul] at h1
  have h2 := ha2.unique (h1.const_mul (a (c k)))
  have h3 := ha.mul h1
  rw [Function.update_eq_self] at h3
  refine h3.congr_deriv ?_
  rw [h2]; ring

/-! ### Limits of the difference quotient -/

theorem ddM_limit (f : ℝ → ℝ) (M f' v : ℝ) (hM : 0 < M) (hf : HasDerivAt f f' M)
    (h0 : f M ≠ 0) :
    Tendsto (fun δ => v * (1 / δ * (f (M * (1 + δ)) / f M - 1)) / (M * (1 + δ))) (𝓝[≠] 0)
      (𝓝 (v / f M * f')) := by
  have hg : HasDerivAt (fun δ => f (M * (1 + δ))) (f' * M) 0 := by
    have hi : HasDerivAt (fun δ : ℝ => M * (1 + δ)) M 0 := by
      simpa using ((hasDerivAt_id' (0 : ℝ)).const_add 1).const_mul M
    have hf2 : HasDerivAt f f' (M * (1 + 0)) := by simpa using hf
    exact hf2.comp 0 hi
  have hs := hasDerivAt_iff_tendsto_slope_zero.1 hg
  simp only [zero_add, add_zero, mul_one, smul_eq_mul] at hs
  have hc : Tendsto (fun δ : ℝ => v / f M / (M * (1 + δ))) (𝓝[≠] 0) (𝓝 (v / f M / M)) := by
    have : ContinuousAt (fun δ : ℝ => v / f M / (M * (1 + δ))) 0 := by
      apply ContinuousAt.div continuousAt_const (by fun_prop)
      simpa using hM.ne'
    have h2 := this.tendsto.mono_left (nhdsWithin_le_nhds (s := {0}ᶜ))
    simpa using h2
  have hp := hc.mul hs
  have e : v / f M / M * (f' * M) = v / f M * f' := by field_simp
  rw [e] at hp
  refine hp.congr' ?_
  filter_upwards [self_mem_nhdsWithin] with δ hδ
  have hδ' : δ ≠ 0 := hδ
  field_simp

theorem ddM_diverges (f : ℝ → ℝ) (M f' v p : ℝ) (hM : 0 < M) (hf : HasDerivAt f f' M)
    (h0 : f M ≠ 0) (hp0 : p ≠ 0) (hp1 : p ≠ 1) (hv : v ≠ 0) (A : ℝ) (w : ℝ) (hw : w ≠ 0) :
    Tendsto (fun δ => |A + v * (1 / δ * (f (M * (1 + δ)) / (f M * p) - 1)) / (M * (1 + δ)) * w|)
      (𝓝[≠] 0) atTop := by
  have hcf : ContinuousAt (fun δ : ℝ => f (M * (1 + δ))) 0 := by
    have : ContinuousAt f (M * (1 + 0)) := by simpa using hf.continuousAt
    exact ContinuousAt.comp (f := fun δ : ℝ => M * (1 + δ)) this (by fun_prop)
  have hc : ContinuousAt (fun δ : ℝ => v * (f (M * (1 + δ)) / (f M * p) - 1) / (M * (1 + δ)) * w) 0 := by
    apply ContinuousAt.mul _ continuousAt_const
    apply ContinuousAt.div _ (by fun_prop) (by simpa using hM.ne')
    exact continuousAt_const.mul ((hcf.div_const _).sub continuousAt_const)
  have hlim : v * (f (M * (1 + 0)) / (f M * p) - 1) / (M * (1 + 0)) * w ≠ 0 := by
    have : f (M * (1 + 0)) / (f M * p) - 1 ≠ 0 := by
      rw [add_zero, mul_one]
      intro h
      have h' : f M = f M * p := by
        have := sub_eq_zero.1 h
        rwa [div_eq_one_iff_eq (mul_ne_zero h0 hp0)] at this
      exact hp1 (mul_left_cancel₀ h0 (by rw [mul_one]; exact h'.symm))
    have hM' : M * (1 + 0) ≠ 0 := by simpa using hM.ne'
    exact mul_ne_zero (div_ne_zero (mul_ne_zero hv this) hM') hw
  have ht := (hc.tendsto.mono_left (nhdsWithin_le_nhds (s := {0}ᶜ))).abs
  have hinv : Tendsto (fun δ : ℝ => |δ⁻¹|) (𝓝[≠] 0) atTop := by
    simpa using tendsto_norm_inv_nhdsNE_zero_atTop (α := ℝ)
  have hprod := hinv.atTop_mul_pos (abs_pos.2 hlim) ht
  have hsub := tendsto_atTop_add_const_right _ (-|A|) hprod
  refine tendsto_atTop_mono' _ ?_ hsub
  filter_upwards [self_mem_nhdsWithin] with δ hδ
  have hδ' : δ ≠ 0 := hδ
  have e : v * (1 / δ * (f (M * (1 + δ)) / (f M * p) - 1)) / (M * (1 + δ)) * w =
      δ⁻¹ * (v * (f (M * (1 + δ)) / (f M * p) - 1) / (M * (1 + δ)) * w) := by
    rw [one_div]; ring
  rw [e, ← abs_mul]
  have := abs_sub_abs_le_abs_sub (δ⁻¹ * (v * (f (M * (1 + δ)) / (f M * p) - 1) / (M * (1 + δ)) * w)) (-A)
  rw [abs_neg, sub_neg_eq_add, add_comm _ A] at this
  linarith

/-! ### The Jacobian -/

theorem mFactor_env_hasDerivAt (r : Rxn) (nsp : ℕ) (c : ℕ → ℝ) (k : ℕ) (hk : k < nsp) :
    HasDerivAt (fun x => r.mFactor nsp (Function.update c k x))
      (match r.thirdBody with
        | some b => if b.massAction then b.efficiency k else 0
        | none => 0) (c k) := by
  simp only [Rxn.mFactor]
  cases r.thirdBody with
  | none => exact hasDerivAt_const _ _
  | some b =>
    simp only
    cases b.massAction with
    | true => exact conc_hasDerivAt b nsp c k hk
    | false => exact hasDerivAt_const _ _

section main

variable {rs K g oldR oldC Rf}

include hv hK hT hRf in
/-- The two directions of one reaction as functions of the concentrations. -/
theorem rates_fn (i : ℕ) (r : Rxn) (hr : rs[i]? = some r) (c : ℕ → ℝ) :
    (Rf c).ropf i = g.law i (g.M rs i c) * g.perturb i * r.mFactor g.nsp c * K.reac.fac c i ∧
    (Rf c).ropr i = g.law i (g.M rs i c) * g.perturb i * r.mFactor g.nsp c * (Rf c).rkcn i *
      K.revProd.fac c i ∧
    (Rf c).ropnet i = (Rf c).ropf i - (Rf c).ropr i ∧
    (Rf c).rfn i = g.law i (g.M rs i c) * g.perturb i ∧
    (∀ b, r.thirdBody = some b → (Rf c).concm i = b.conc g.nsp c ∧ g.M rs i c = b.conc g.nsp c) ∧
    (∀ c', (Rf c').rkcn i = (Rf c).rkcn i) := by
  have h := fun c => rop_fields rs hv K hK g.nsp hT (g.env rs c) rfl oldR oldC (Rf c) (hRf c) i r hr
  obtain ⟨h1, h2, h3, h4, h5, h6, _⟩ := h c
  refine ⟨h4, h5, h6, by rw [h1]; rfl, ?_, ?_⟩
  · intro b hb
    exact ⟨h2 b hb, by simp [Gas.M, hr, hb]⟩
  · intro c'
    rw [h3, (h c').2.2.1]; rfl

include hv hK in
theorem lt_n (i : ℕ) (r : Rxn) (hr : rs[i]? = some r) : i < K.n := by
  obtain ⟨K', hK', hn, _⟩ := kin_addAll rs hv Kin.empty
  rw [Built] at hK; rw [hK] at hK'; cases hK'
  rw [hn]; simp only [Kin.empty, zero_add]; exact (List.getElem?_eq_some_iff.1 hr).1

include hv hK hT hRf in
/-- Entries of the forward and reverse Jacobian with respect to concentrations (no legacy rates). -/
theorem jac_entries (c : ℕ → ℝ) (fall : List (ℕ × (ℝ → ℝ))) (s : JacSettings) (i : ℕ) (r : Rxn)
    (hr : rs[i]? = some r) (k : ℕ) :
    let add : ℝ → (ℕ → ℝ) → ℝ := fun q V => if s.skipThird then 0 else
        (if s.skipFalloff then q else processDdM fall (Rf c).rfn (Rf c).concm s.delta V i) * r.collEff k
    (∀ J, K.fwdJac (g.env rs c) (Rf c) false fall s false = .ok J → ∃ V : ℕ → ℝ,
      V i = (Rf c).rfn i * K.reac.fac c i ∧
      J i k = K.reac.derivatives c (fun _ => (Rf c).rfn i * r.mFactor g.nsp c) i k + add (V i) V) ∧
    (∀ J, K.revJac (g.env rs c) (Rf c) false fall s false = .ok J → ∃ V : ℕ → ℝ,
      V i = (Rf c).rfn i * (Rf c).rkcn i * K.revProd.fac c i ∧
      J i k = K.revProd.derivatives c
        (fun _ => (Rf c).rfn i * (Rf c).rkcn i * r.mFactor g.nsp c) i k + add (V i) V) := by
  intro add
  have hlt := lt_n hv hK i r hr
  obtain ⟨ds1, hd1, _⟩ := reac_row rs K i r hv hK hr
  obtain ⟨ds2, hd2, _⟩ := rev_row rs K i r hv hK hr
  refine ⟨?_, ?_⟩
  · intro J hJ
    rw [Kin.fwdJac] at hJ
    simp only [Kin.getFwdRateConstants, Bool.false_eq_true, if_false, Outcome.bind_ok] at hJ
    have h := comp_entry rs hv K hK g.nsp hT (g.env rs c) rfl oldR oldC (Rf c) (hRf c) K.reac ds1 hd1
      (Rf c).rfn fall s false J hJ i r hr k
    simp only [Bool.false_eq_true, if_false, mul_one] at h
    exact h
  · intro J hJ
    rw [Kin.revJac] at hJ
    simp only [Kin.getFwdRateConstants, Bool.false_eq_true, if_false, Outcome.bind_ok] at hJ
    have h := comp_entry rs hv K hK g.nsp hT (g.env rs c) rfl oldR oldC (Rf c) (hRf c) K.revProd ds2 hd2
      _ fall s false J hJ i r hr k
    simp only [Bool.false_eq_true, if_false, mul_one, Kin.applyEquilibriumConstants, if_pos hlt] at h
    exact h

include hv hK hT hRf in
/-- Exact rows: for a reaction whose rate constant does not depend on the composition and which has no
third body, or one entering the law of mass action, the forward and reverse Jacobian entries are the
partial derivatives of the rates of progress computed by `updateROP` (any multiplier, any order). -/
theorem composition_jacobian_exact_partial (c : ℕ → ℝ) (fall : List (ℕ × (ℝ → ℝ))) (s : JacSettings)
    (hs : s.skipThird = false) (i : ℕ) (r : Rxn) (hr : rs[i]? = some r)
    (hlaw : ∀ M, g.law i M = g.law i 0) (htb : ∀ b, r.thirdBody = some b → b.massAction = true)
    (hfall : i ∉ fall.map (·.1)) (k : ℕ) (hk : k < g.nsp) :
    (∀ J, K.fwdJac (g.env rs c) (Rf c) false fall s false = .ok J →
      (∀ x ∈ r.effOrders, 0 < c x.1) →
      HasDerivAt (fun x => (Rf (Function.update c k x)).ropf i) (J i k) (c k)) ∧
    (∀ J, K.revJac (g.env rs c) (Rf c) false fall s false = .ok J →
      (∀ x ∈ r.products, 0 < c x.1) →
      HasDerivAt (fun x => (Rf (Function.update c k x)).ropr i) (J i k) (c k)) := by
  have hrate := rates_fn hv hK hT hRf i r hr
  obtain ⟨ef, er⟩ := jac_entries hv hK hT hRf c fall s i r hr k
  obtain ⟨_, _, hfd⟩ := reac_row rs K i r hv hK hr
  obtain ⟨_, _, hrd⟩ := rev_row rs K i r hv hK hr
  have hmf := mFactor_env_hasDerivAt r g.nsp c k hk
  have heff : (match r.thirdBody with
      | some b => if b.massAction then b.efficiency k else 0
      | none => 0) = r.collEff k := by
    rw [Rxn.collEff]
    cases hb : r.thirdBody with
    | none => rfl
    | some b => simp [htb b hb]
  rw [heff] at hmf
  have hadd : ∀ V : ℕ → ℝ, (if s.skipFalloff then V i else
      processDdM fall (Rf c).rfn (Rf c).concm s.delta V i) = V i := by
    intro V; rw [processDdM_other _ _ _ _ _ _ hfall]; simp
  refine ⟨?_, ?_⟩
  · intro J hJ hpos
    obtain ⟨V, hV, hJi⟩ := ef J hJ
    have hp := product_row K.reac i k c
      (fun x => g.law i 0 * g.perturb i * r.mFactor g.nsp (Function.update c k x)) _
      (hmf.const_mul (g.law i 0 * g.perturb i)) (fun R => hfd c R k hpos)
    simp only [Function.update_eq_self] at hp
    have hfn : (fun x => (Rf (Function.update c k x)).ropf i) = fun x =>
        g.law i 0 * g.perturb i * r.mFactor g.nsp (Function.update c k x) *
          K.reac.fac (Function.update c k x) i := by
      funext x; rw [(hrate _).1, hlaw]
    rw [hfn]
    refine hp.congr_deriv ?_
    rw [hJi]
    simp only [hs, Bool.false_eq_true, if_false, hadd]
    rw [hV, (hrate c).2.2.2.1, hlaw (g.M rs i c)]; ring
  · intro J hJ hpos
    obtain ⟨V, hV, hJi⟩ := er J hJ
    have hp := product_row K.revProd i k c
      (fun x => g.law i 0 * g.perturb i * (Rf c).rkcn i * r.mFactor g.nsp (Function.update c k x)) _
      (hmf.const_mul (g.law i 0 * g.perturb i * (Rf c).rkcn i)) (fun R => hrd c R k hpos)
    simp only [Function.update_eq_self] at hp
    have hfn : (fun x => (Rf (Function.update c k x)).ropr i) = fun x =>
        g.law i 0 * g.perturb i * (Rf c).rkcn i * r.mFactor g.nsp (Function.update c k x) *
          K.revProd.fac (Function.update c k x) i := by
      funext x
      rw [(hrate _).2.1, hlaw, (hrate c).2.2.2.2.2]; ring
    rw [hfn]
    refine hp.congr_deriv ?_
    rw [hJi]
    simp only [hs, Bool.false_eq_true, if_false, hadd]
    rw [hV, (hrate c).2.2.2.1, hlaw (g.M rs i c)]; ring

include hv hK hT hRf in
/-- Entry of a falloff row, for all small perturbations. -/
theorem falloff_entries (c : ℕ → ℝ) (fall : List (ℕ × (ℝ → ℝ))) (hn : (fall.map (·.1)).Nodup)
    (i : ℕ) (r : Rxn) (hr : rs[i]? = some r) (b : ThirdBody) (hb : r.thirdBody = some b)
    (hma : b.massAction = false) (hf : (i, g.law i) ∈ fall) (hM : 0 < b.conc g.nsp c)
    (h0 : g.law i (b.conc g.nsp c) * g.perturb i ≠ 0) (k : ℕ) :
    (∀ J : ℝ → Jac, (∀ δ, K.fwdJac (g.env rs c) (Rf c) false fall ⟨false, false, δ⟩ false = .ok (J δ)) →
      ∀ᶠ δ in 𝓝[≠] (0 : ℝ), J δ i k =
        K.reac.derivatives c (fun _ => g.law i (b.conc g.nsp c) * g.perturb i) i k +
        (Rf c).ropf i * (1 / δ * (g.law i (b.conc g.nsp c * (1 + δ)) /
          (g.law i (b.conc g.nsp c) * g.perturb i) - 1)) / (b.conc g.nsp c * (1 + δ)) * b.efficiency k) ∧
    (∀ J : ℝ → Jac, (∀ δ, K.revJac (g.env rs c) (Rf c) false fall ⟨false, false, δ⟩ false = .ok (J δ)) →
      ∀ᶠ δ in 𝓝[≠] (0 : ℝ), J δ i k =
        K.revProd.derivatives c (fun _ => g.law i (b.conc g.nsp c) * g.perturb i * (Rf c).rkcn i) i k +
        (Rf c).ropr i * (1 / δ * (g.law i (b.conc g.nsp c * (1 + δ)) /
          (g.law i (b.conc g.nsp c) * g.perturb i) - 1)) / (b.conc g.nsp c * (1 + δ)) * b.efficiency k) := by
  obtain ⟨q1, q2, -, q4, q5, -⟩ := rates_fn hv hK hT hRf i r hr c
  obtain ⟨q6, q7⟩ := q5 b hb
  have hmf : r.mFactor g.nsp c = 1 := by simp [Rxn.mFactor, hb, hma]
  have hce : r.collEff k = b.efficiency k := by simp [Rxn.collEff, hb]
  rw [q7] at q1 q2 q4
  rw [hmf, mul_one] at q1 q2
  have hev : ∀ᶠ δ in 𝓝[≠] (0 : ℝ), b.conc g.nsp c * (1 + δ) > 0 := by
    have hc : ContinuousAt (fun δ : ℝ => b.conc g.nsp c * (1 + δ)) 0 := by fun_prop
    exact (hc.eventually_const_lt (by simpa using hM)).filter_mono nhdsWithin_le_nhds
  have hP : ∀ (δ : ℝ) (V : ℕ → ℝ), b.conc g.nsp c * (1 + δ) > 0 →
      processDdM fall (Rf c).rfn (Rf c).concm δ V i = V i * (1 / δ *
        (g.law i (b.conc g.nsp c * (1 + δ)) / (g.law i (b.conc g.nsp c) * g.perturb i) - 1)) /
          (b.conc g.nsp c * (1 + δ)) := by
    intro δ V hδ
    have := processDdM_mem fall (Rf c).rfn (Rf c).concm δ V hn (i, g.law i) hf
    simp only [q6, q4] at this
    rw [this, if_pos ⟨h0, hδ⟩]
  refine ⟨?_, ?_⟩
  · intro J hJ
    filter_upwards [hev] with δ hδ
    obtain ⟨V, hV, e⟩ := (jac_entries hv hK hT hRf c fall ⟨false, false, δ⟩ i r hr k).1 (J δ) (hJ δ)
    simp only [Bool.false_eq_true, if_false, hP δ V hδ, hmf, hce, mul_one, q4] at e hV
    rw [e, hV, q1]
  · intro J hJ
    filter_upwards [hev] with δ hδ
    obtain ⟨V, hV, e⟩ := (jac_entries hv hK hT hRf c fall ⟨false, false, δ⟩ i r hr k).2 (J δ) (hJ δ)
    simp only [Bool.false_eq_true, if_false, hP δ V hδ, hmf, hce, mul_one, q4] at e hV
    rw [e, hV, q2]

include hv hK hT hRf in
/-- Falloff rows (unit multiplier): as the relative perturbation tends to zero the entries tend to
the partial derivatives of the rates of progress. -/
theorem composition_jacobian_falloff_partial (c : ℕ → ℝ) (fall : List (ℕ × (ℝ → ℝ)))
    (hn : (fall.map (·.1)).Nodup) (i : ℕ) (r : Rxn) (hr : rs[i]? = some r) (b : ThirdBody)
    (hb : r.thirdBody = some b) (hma : b.massAction = false) (hf : (i, g.law i) ∈ fall)
    (hM : 0 < b.conc g.nsp c) (h0 : g.law i (b.conc g.nsp c) ≠ 0) (hp : g.perturb i = 1)
    (l' : ℝ) (hl : HasDerivAt (g.law i) l' (b.conc g.nsp c)) (k : ℕ) (hk : k < g.nsp) :
    (∀ J : ℝ → Jac, (∀ δ, K.fwdJac (g.env rs c) (Rf c) false fall ⟨false, false, δ⟩ false = .ok (J δ)) →
      (∀ x ∈ r.effOrders, 0 < c x.1) →
      ∃ D, HasDerivAt (fun x => (Rf (Function.update c k x)).ropf i) D (c k) ∧
        Tendsto (fun δ => J δ i k) (𝓝[≠] 0) (𝓝 D)) ∧
    (∀ J : ℝ → Jac, (∀ δ, K.revJac (g.env rs c) (Rf c) false fall ⟨false, false, δ⟩ false = .ok (J δ)) →
      (∀ x ∈ r.products, 0 < c x.1) →
      ∃ D, HasDerivAt (fun x => (Rf (Function.update c k x)).ropr i) D (c k) ∧
        Tendsto (fun δ => J δ i k) (𝓝[≠] 0) (𝓝 D)) := by
  have hrate := rates_fn hv hK hT hRf i r hr
  have hmf : ∀ c, r.mFactor g.nsp c = 1 := by intro c; simp [Rxn.mFactor, hb, hma]
  obtain ⟨ef, er⟩ := falloff_entries hv hK hT hRf c fall hn i r hr b hb hma hf hM
    (by rw [hp, mul_one]; exact h0) k
  obtain ⟨_, _, hfd⟩ := reac_row rs K i r hv hK hr
  obtain ⟨_, _, hrd⟩ := rev_row rs K i r hv hK hr
  have hlc : HasDerivAt (fun x => g.law i (b.conc g.nsp (Function.update c k x)))
      (l' * b.efficiency k) (c k) := by
    have h1 := conc_hasDerivAt b g.nsp c k hk
    have hl2 : HasDerivAt (g.law i) l' (b.conc g.nsp (Function.update c k (c k))) := by
      rw [Function.update_eq_self]; exact hl
    exact hl2.comp (c k) h1
  have hMi : ∀ c, g.M rs i c = b.conc g.nsp c := fun c => ((hrate c).2.2.2.2.1 b hb).2
  refine ⟨?_, ?_⟩
  · intro J hJ hpos
    have hp2 := product_row K.reac i k c _ _ hlc (fun R => hfd c R k hpos)
    simp only [Function.update_eq_self] at hp2
    refine ⟨_, hp2.congr_of_eventuallyEq (Eventually.of_forall ?_), ?_⟩
    · intro x
      simp only [(hrate _).1, hMi, hmf, hp, mul_one]
    · have hlim := ((ddM_limit (g.law i) _ l' ((Rf c).ropf i) hM hl h0).mul_const
        (b.efficiency k)).const_add
        (K.reac.derivatives c (fun _ => g.law i (b.conc g.nsp c)) i k)
      have e : (Rf c).ropf i / g.law i (b.conc g.nsp c) * l' * b.efficiency k =
          l' * b.efficiency k * K.reac.fac c i := by
        rw [(hrate c).1, hMi, hmf, hp]; field_simp
      rw [e] at hlim
      refine hlim.congr' ?_
      filter_upwards [ef J hJ] with δ hδ
      rw [hδ, hp, mul_one]
  · intro J hJ hpos
    have hp2 := product_row K.revProd i k c _ _ (hlc.mul_const ((Rf c).rkcn i))
      (fun R => hrd c R k hpos)
    simp only [Function.update_eq_self] at hp2
    refine ⟨_, hp2.congr_of_eventuallyEq (Eventually.of_forall ?_), ?_⟩
    · intro x
      simp only [(hrate _).2.1, hMi, hmf, hp, mul_one, (hrate c).2.2.2.2.2]
    · have hlim := ((ddM_limit (g.law i) _ l' ((Rf c).ropr i) hM hl h0).mul_const
        (b.efficiency k)).const_add
        (K.revProd.derivatives c (fun _ => g.law i (b.conc g.nsp c) * (Rf c).rkcn i) i k)
      have e : (Rf c).ropr i / g.law i (b.conc g.nsp c) * l' * b.efficiency k =
          l' * b.efficiency k * (Rf c).rkcn i * K.revProd.fac c i := by
        rw [(hrate c).2.1, hMi, hmf, hp]; field_simp
      rw [e] at hlim
      refine hlim.congr' ?_
      filter_upwards [er J hJ] with δ hδ
      rw [hδ, hp, mul_one]

include hv hK hT hRf in
/-- Finding: with a reaction multiplier different from zero and one the falloff entries diverge as the
perturbation tends to zero, because `k1` (without multiplier) is divided by `m_rfn` (with it). -/
theorem composition_jacobian_multiplier_diverges (c : ℕ → ℝ) (fall : List (ℕ × (ℝ → ℝ)))
    (hn : (fall.map (·.1)).Nodup) (i : ℕ) (r : Rxn) (hr : rs[i]? = some r) (b : ThirdBody)
    (hb : r.thirdBody = some b) (hma : b.massAction = false) (hf : (i, g.law i) ∈ fall)
    (hM : 0 < b.conc g.nsp c) (h0 : g.law i (b.conc g.nsp c) ≠ 0)
    (hp0 : g.perturb i ≠ 0) (hp1 : g.perturb i ≠ 1)
    (l' : ℝ) (hl : HasDerivAt (g.law i) l' (b.conc g.nsp c)) (k : ℕ) (hk : b.efficiency k ≠ 0)
    (hrop : (Rf c).ropf i ≠ 0) (J : ℝ → Jac)
    (hJ : ∀ δ, K.fwdJac (g.env rs c) (Rf c) false fall ⟨false, false, δ⟩ false = .ok (J δ)) :
    Tendsto (fun δ => |J δ i k|) (𝓝[≠] 0) atTop := by
  have ef := (falloff_entries hv hK hT hRf c fall hn i r hr b hb hma hf hM
    (mul_ne_zero h0 hp0) k).1 J hJ
  refine (ddM_diverges (g.law i) _ l' ((Rf c).ropf i) (g.perturb i) hM hl h0 hp0 hp1 hrop
    (K.reac.derivatives c (fun _ => g.law i (b.conc g.nsp c) * g.perturb i) i k)
    (b.efficiency k) hk).congr' ?_
  filter_upwards [ef] with δ hδ
  rw [hδ]

include hv hK hT hRf in
/-- Finding: a third body in `(+M)` notation whose rate type has no `perturbThirdBodies` (for example
linear-Burke), or any falloff reaction with `skip-falloff`, gets the extra term
`ropf · efficiency`, even if the rate constant does not depend on the composition at all. -/
theorem composition_jacobian_spurious (c : ℕ → ℝ) (fall : List (ℕ × (ℝ → ℝ))) (s : JacSettings)
    (hs : s.skipThird = false) (i : ℕ) (r : Rxn) (hr : rs[i]? = some r) (b : ThirdBody)
    (hb : r.thirdBody = some b) (hma : b.massAction = false)
    (hfall : s.skipFalloff = true ∨ i ∉ fall.map (·.1))
    (hlaw : ∀ M, g.law i M = g.law i 0) (k : ℕ)
    (J : Jac) (hJ : K.fwdJac (g.env rs c) (Rf c) false fall s false = .ok J)
    (hpos : ∀ x ∈ r.effOrders, 0 < c x.1) :
    ∃ D, HasDerivAt (fun x => (Rf (Function.update c k x)).ropf i) D (c k) ∧
      J i k = D + (Rf c).ropf i * b.efficiency k := by
  have hrate := rates_fn hv hK hT hRf i r hr
  have hmf : ∀ c, r.mFactor g.nsp c = 1 := by intro c; simp [Rxn.mFactor, hb, hma]
  obtain ⟨V, hV, e⟩ := (jac_entries hv hK hT hRf c fall s i r hr k).1 J hJ
  obtain ⟨_, _, hfd⟩ := reac_row rs K i r hv hK hr
  refine ⟨_, (hfd c (fun _ => g.law i 0 * g.perturb i) k hpos).congr_of_eventuallyEq
    (Eventually.of_forall ?_), ?_⟩
  · intro x
    simp only [(hrate _).1, hlaw (g.M rs i _), hmf, mul_one]
  · have hadd : (if s.skipFalloff then V i else
        processDdM fall (Rf c).rfn (Rf c).concm s.delta V i) = V i := by
      rcases hfall with h | h
      · simp [h]
      · rw [processDdM_other _ _ _ _ _ _ h]; simp
    simp only [hs, Bool.false_eq_true, if_false, hadd] at e
    rw [e, hV, (hrate c).1, (hrate c).2.2.2.1, hlaw (g.M rs i c), hmf, Rxn.collEff, hb]
    simp only [mul_one]

theorem der_const_mul (m : Mgr) (i k : ℕ) (c : ℕ → ℝ)
    (hm : ∀ R : ℕ → ℝ, HasDerivAt (fun x => R i * m.fac (Function.update c k x) i)
      (m.derivatives c R i k) (c k)) (a q : ℝ) :
    m.derivatives c (fun _ => a * q) i k = a * m.derivatives c (fun _ => q) i k := by
  have h1 := hm (fun _ => a * q)
  have h2 := (hm (fun _ => q)).const_mul a
  simp only [← mul_assoc] at h1 h2
  exact h1.unique h2

theorem processDdM_scale (fall : List (ℕ × (ℝ → ℝ))) (hn : (fall.map (·.1)).Nodup) (kf concm : Vec)
    (δ a : ℝ) (V W : Vec) (i : ℕ) (h : W i = a * V i) :
    processDdM fall kf concm δ W i = a * processDdM fall kf concm δ V i := by
  by_cases hi : i ∈ fall.map (·.1)
  · obtain ⟨f, hf, rfl⟩ := List.mem_map.1 hi
    rw [processDdM_mem fall kf concm δ W hn f hf, processDdM_mem fall kf concm δ V hn f hf, h]
    split_ifs <;> ring
  · rw [processDdM_other _ _ _ _ _ _ hi, processDdM_other _ _ _ _ _ _ hi, h]

include hv hK hT hRf in
/-- The Jacobian routines never fail on a mechanism built by `addReaction`, and the net Jacobian is the
difference of the two others. -/
theorem jacobian_total (hrs : rs ≠ []) (c : ℕ → ℝ) (legacy : Bool) (fall : List (ℕ × (ℝ → ℝ)))
    (s : JacSettings) (ddX : Bool) :
    ∃ Jf Jr Jn, K.fwdJac (g.env rs c) (Rf c) legacy fall s ddX = .ok Jf ∧
      K.revJac (g.env rs c) (Rf c) legacy fall s ddX = .ok Jr ∧
      K.netJac (g.env rs c) (Rf c) legacy fall s ddX = .ok Jn ∧
      ∀ i k, Jn i k = Jf i k - Jr i k := by
  obtain ⟨r, rs', rfl⟩ := List.exists_cons_of_ne_nil hrs
  obtain ⟨-, -, -, -, -, -, htb⟩ := rop_fields _ hv K hK g.nsp hT (g.env _ c) rfl oldR oldC (Rf c)
    (hRf c) 0 r rfl
  have hk : ∃ q, K.getFwdRateConstants (Rf c) legacy = .ok q := by
    rw [Kin.getFwdRateConstants]
    cases legacy with
    | false => exact ⟨_, rfl⟩
    | true => obtain ⟨o, ho, _⟩ := htb (Rf c).rfn; exact ⟨o, ho⟩
  have hc : ∀ (m : Mgr) (inp act : ℕ → ℝ) (ct : ℝ),
      ∃ J, K.compositionDerivatives m inp act ct (Rf c) fall s ddX = .ok J := by
    intro m inp act ct
    rw [Kin.compositionDerivatives]
    obtain ⟨o, ho, _⟩ := htb
      (if ddX then (fun i => if i < K.n then inp i * ct else inp i) else inp)
    simp only [ho, Outcome.bind_ok]
    split
    · exact ⟨_, rfl⟩
    · exact ⟨_, rfl⟩
  obtain ⟨q, hq⟩ := hk
  obtain ⟨Jf, hf⟩ := hc K.reac q (g.env (r :: rs') c).actConc (g.env (r :: rs') c).ctot
  obtain ⟨Jr, hr⟩ := hc K.revProd (K.applyEquilibriumConstants (Rf c).rkcn q)
    (g.env (r :: rs') c).actConc (g.env (r :: rs') c).ctot
  refine ⟨Jf, Jr, fun i k => Jf i k - Jr i k, ?_, ?_, ?_, fun _ _ => rfl⟩
  · rw [Kin.fwdJac, hq, Outcome.bind_ok, hf]
  · rw [Kin.revJac, hq, Outcome.bind_ok, hr]
  · rw [Kin.netJac, hq, Outcome.bind_ok, hf, Outcome.bind_ok, hr]; rfl

include hv hK hT hRf in
/-- Mole-fraction derivatives are the concentration derivatives times the molar density. -/
theorem jacobian_ddX (c : ℕ → ℝ) (fall : List (ℕ × (ℝ → ℝ))) (hn : (fall.map (·.1)).Nodup)
    (s : JacSettings) (i : ℕ) (r : Rxn) (hr : rs[i]? = some r) (k : ℕ)
    (hpos : ∀ x ∈ r.effOrders, 0 < c x.1) (JC JX : Jac)
    (hC : K.fwdJac (g.env rs c) (Rf c) false fall s false = .ok JC)
    (hX : K.fwdJac (g.env rs c) (Rf c) false fall s true = .ok JX) :
    JX i k = (∑ j ∈ Finset.range g.nsp, c j) * JC i k := by
  obtain ⟨ds, hd, hfd⟩ := reac_row rs K i r hv hK hr
  rw [Kin.fwdJac] at hC hX
  simp only [Kin.getFwdRateConstants, Bool.false_eq_true, if_false, Outcome.bind_ok] at hC hX
  obtain ⟨V, hV, eC⟩ := comp_entry rs hv K hK g.nsp hT (g.env rs c) rfl oldR oldC (Rf c) (hRf c)
    K.reac ds hd (Rf c).rfn fall s false JC hC i r hr k
  obtain ⟨W, hW, eX⟩ := comp_entry rs hv K hK g.nsp hT (g.env rs c) rfl oldR oldC (Rf c) (hRf c)
    K.reac ds hd (Rf c).rfn fall s true JX hX i r hr k
  simp only [Bool.false_eq_true, if_false, if_true, mul_one] at hV eC hW eX
  have hWV : W i = (g.env rs c).ctot * V i := by rw [hW, hV]; ring
  have e1 : (fun _ : ℕ => (Rf c).rfn i * (g.env rs c).ctot * r.mFactor g.nsp (g.env rs c).physConc) =
      fun _ => (g.env rs c).ctot * ((Rf c).rfn i * r.mFactor g.nsp (g.env rs c).physConc) := by
    funext _; ring
  have hdm := der_const_mul K.reac i k c (fun R => hfd c R k hpos) (g.env rs c).ctot
    ((Rf c).rfn i * r.mFactor g.nsp (g.env rs c).physConc)
  rw [e1] at eX
  change JX i k = (g.env rs c).ctot * JC i k
  rw [eX, eC, mul_add]
  congr 1
  · split_ifs with h1 h2
    · simp
    · rw [hWV]; ring
    · rw [processDdM_scale fall hn _ _ _ _ V W i hWV]; ring

include hv hK hT hRf in
/-- Finding: with legacy rate constants the third-body factor is applied twice, so the row of a
three-body reaction is the true row times its third-body concentration. -/
theorem jacobian_legacy_doubles (c : ℕ → ℝ) (fall : List (ℕ × (ℝ → ℝ))) (s : JacSettings)
    (i : ℕ) (r : Rxn) (hr : rs[i]? = some r) (b : ThirdBody) (hb : r.thirdBody = some b)
    (hma : b.massAction = true) (hfall : i ∉ fall.map (·.1)) (k : ℕ)
    (hpos : ∀ x ∈ r.effOrders, 0 < c x.1) (J JL : Jac)
    (hJ : K.fwdJac (g.env rs c) (Rf c) false fall s false = .ok J)
    (hL : K.fwdJac (g.env rs c) (Rf c) true fall s false = .ok JL) :
    JL i k = b.conc g.nsp c * J i k := by
  obtain ⟨ds, hd, hfd⟩ := reac_row rs K i r hv hK hr
  obtain ⟨-, -, -, -, -, -, htb⟩ := rop_fields _ hv K hK g.nsp hT (g.env _ c) rfl oldR oldC (Rf c)
    (hRf c) i r hr
  obtain ⟨o, ho, hoi⟩ := htb (Rf c).rfn
  have hmf : r.mFactor g.nsp (g.env rs c).physConc = b.conc g.nsp c := by
    simp only [Rxn.mFactor, hb, hma, if_true]; rfl
  rw [Kin.fwdJac] at hJ hL
  simp only [Kin.getFwdRateConstants, Bool.false_eq_true, if_false, if_true, ho, Outcome.bind_ok] at hJ hL
  obtain ⟨V, hV, e⟩ := comp_entry rs hv K hK g.nsp hT (g.env rs c) rfl oldR oldC (Rf c) (hRf c)
    K.reac ds hd (Rf c).rfn fall s false J hJ i r hr k
  obtain ⟨W, hW, eL⟩ := comp_entry rs hv K hK g.nsp hT (g.env rs c) rfl oldR oldC (Rf c) (hRf c)
    K.reac ds hd o fall s false JL hL i r hr k
  simp only [Bool.false_eq_true, if_false, mul_one, hoi i r hr, hmf,
    processDdM_other _ _ _ _ _ _ hfall, ite_self] at hV e hW eL
  have hdm := der_const_mul K.reac i k c (fun R => hfd c R k hpos) (b.conc g.nsp c)
    ((Rf c).rfn i * b.conc g.nsp c)
  have e1 : (fun _ : ℕ => (Rf c).rfn i * b.conc g.nsp c * b.conc g.nsp c) =
      fun _ => b.conc g.nsp c * ((Rf c).rfn i * b.conc g.nsp c) := by funext _; ring
  rw [e1] at eL
  rw [eL, e, mul_add]
  congr 1
  · split_ifs
    · simp
    · rw [hW, hV]; ring

end main

/-! ### Non-vacuity -/

/-- `A + B <=> C` in falloff form with collider efficiencies, and `2A <=> D` with a mass-action third
body. -/
noncomputable def jacRxns : List Rxn :=
  [⟨[(0, 1), (1, 1)], [(2, 1)], [], true, some ⟨[(1, 3)], 1, false⟩⟩,
   ⟨[(0, 2)], [(3, 1)], [], true, some ⟨[(1, 0), (2, 5/2)], 1, true⟩⟩]

/-- A Lindemann-like law `M / (1 + M)` for the first reaction, constants for the others. -/
noncomputable def jacGas (f : ℝ) : Gas :=
  ⟨4, fun _ => 0, 1, 1, fun _ => f, fun i M => if i = 0 then M / (1 + M) else 1⟩

theorem jacRxns_ok : (∀ r ∈ jacRxns, r.OK) ∧ ∀ r ∈ jacRxns, r.TBOK 4 := by
  constructor
  · intro r hr
    simp only [jacRxns, List.mem_cons, List.not_mem_nil, or_false] at hr
    rcases hr with rfl | rfl <;>
      refine ⟨by simp, by simp, by simp, ?_, ?_⟩ <;> intro x hx <;> simp at hx <;>
      (try rcases hx with rfl | rfl) <;> norm_num
  · intro r hr b hb
    simp only [jacRxns, List.mem_cons, List.not_mem_nil, or_false] at hr
    rcases hr with rfl | rfl <;> cases hb <;> simp

/-- All hypotheses of the falloff theorems hold for `jacRxns` at unit concentrations (any multiplier):
the collider concentration is `1 + 3 + 1 + 1 = 6`. -/
example (f : ℝ) : ∃ (K : Kin) (Rf : (ℕ → ℝ) → Rop), Built K jacRxns ∧
    (∀ c, K.updateROP ((jacGas f).env jacRxns c) (fun _ => 0) (fun _ => 0) = .ok (Rf c)) ∧
    ThirdBody.conc ⟨[(1, 3)], 1, false⟩ 4 (fun _ => 1) = 6 ∧ (jacGas f).law 0 6 ≠ 0 ∧
    ∃ l', HasDerivAt ((jacGas f).law 0) l' 6 := by
  obtain ⟨K, hK⟩ := kinetics_build_ok jacRxns jacRxns_ok.1
  obtain ⟨Rf, hRf⟩ := rop_family_exists jacRxns jacRxns_ok.1 K hK (jacGas f) jacRxns_ok.2
    (fun _ => 0) (fun _ => 0)
  refine ⟨K, Rf, hK, hRf, ?_, ?_, ?_⟩
  · simp only [ThirdBody.conc, ThirdBody.efficiency, Finset.sum_range_succ, Finset.sum_range_zero,
      lookup_cons']
    norm_num
  · simp only [jacGas, if_true]; norm_num
  · simp only [jacGas, if_true]
    exact ⟨_, (hasDerivAt_id' (6 : ℝ)).div ((hasDerivAt_id' (6 : ℝ)).const_add 1) (by norm_num)⟩

end Verif.Kinetics
