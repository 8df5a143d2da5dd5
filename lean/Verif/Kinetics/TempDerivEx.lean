import Verif.Kinetics.DensDerivProps

/-!
# C56: a mechanism that satisfies the hypotheses
-/

namespace Verif.Kinetics

open Verif Verif.Stoich Filter Topology

/-- Rate constants `T P M / (1 + M)` (falloff-like) and `T`; all species with reference Gibbs
energy `T`; every reaction has the multiplier `f`. -/
noncomputable def exGas (f : ℝ) : TGas :=
  ⟨4, fun _ T => T, 1, 1, fun _ => f, fun i T P M => if i = 0 then T * P * (M / (1 + M)) else T⟩

/-- Results of `updateROP` exist for every family of states. -/
theorem trop_family {ι : Type} {rs : List Rxn} (hv : ∀ r ∈ rs, r.OK) {K : Kin} (hK : Built K rs) (g : TGas)
    (hTB : ∀ r ∈ rs, r.TBOK g.nsp) (T P : ι → ℝ) (c : ι → ℕ → ℝ) :
    ∃ Rf : ι → Rop, ∀ a, K.updateROP (g.env rs (T a) (P a) (c a)) (fun _ => 0) (fun _ => 0) = .ok (Rf a) := by
  have h : ∀ a, ∃ R, K.updateROP (g.env rs (T a) (P a) (c a)) (fun _ => 0) (fun _ => 0) = .ok R := by
    intro a
    obtain ⟨R, hR, _⟩ := rates_of_progress rs hv K hK g.nsp hTB (g.env rs (T a) (P a) (c a)) rfl
      (fun _ => 0) (fun _ => 0)
    exact ⟨R, hR⟩
  exact ⟨fun a => (h a).choose, fun a => (h a).choose_spec⟩

theorem ex_M (f C : ℝ) : (exGas f).M jacRxns 0 (fun _ => C) = 6 * C := by
  simp only [TGas.M, jacRxns, List.getElem?_cons_zero, Option.bind_some, ThirdBody.conc,
    ThirdBody.efficiency, exGas, Finset.sum_range_succ, Finset.sum_range_zero, lookup_cons']
  norm_num
  ring

theorem ex_law (f T P M : ℝ) : (exGas f).law 0 T P M = T * P * (M / (1 + M)) := by
  simp [exGas]

theorem ex_law_T (f P C T : ℝ) : HasDerivAt (fun t => (exGas f).law 0 t P ((exGas f).M jacRxns 0 (fun _ => C)))
    (P * (6 * C / (1 + 6 * C))) T := by
  simp only [ex_M, ex_law, mul_assoc]
  simpa using (hasDerivAt_id' T).mul_const (P * (6 * C / (1 + 6 * C)))

noncomputable def exR0 : Rxn := ⟨[(0, 1), (1, 1)], [(2, 1)], [], true, some ⟨[(1, 3)], 1, false⟩⟩

theorem ex_r0 : jacRxns[0]? = some exR0 := rfl

theorem ex_delta (G : ℝ) : exR0.delta (fun _ => G) = -G := by
  simp [exR0, Rxn.delta]

/-- Numerical and analytic evaluators, forward, reverse and net rates, at unit temperature, pressure
and concentrations. -/
example : ∃ K, Built K jacRxns ∧ ∃ Rf : ℝ → Rop,
    (∀ t, K.updateROP ((exGas 1).env jacRxns t 1 (fun _ => 1)) (fun _ => 0) (fun _ => 0) = .ok (Rf t)) ∧
    (∀ δ, HasDerivAt (fun t => (Rf t).ropf 0) (Kin.fwdDdT (Rf 1) [(0, .analytic 1)] 1 δ 0) 1) ∧
    (∃ d, HasDerivAt (fun t => (Rf t).ropr 0) d 1 ∧ Tendsto (fun δ => K.revDdT (Rf 1)
      [(1, .analytic 1), (0, .numeric (fun t => t * 1 * (6 / 7)))] 1 ((exGas 1).R * 1) δ
      (K.getRevReactionDelta ((exGas 1).env jacRxns 1 1 (fun _ => 1)).mu0)
      (K.getRevReactionDelta ((exGas 1).env jacRxns (1 * (1 + δ)) 1 (fun _ => 1)).mu0) 0)
      (𝓝[≠] 0) (𝓝 d)) := by
  obtain ⟨K, hK⟩ := kinetics_build_ok jacRxns jacRxns_ok.1
  obtain ⟨Rf, hRf⟩ := trop_family jacRxns_ok.1 hK (exGas 1) jacRxns_ok.2 (fun t : ℝ => t) (fun _ => 1)
    (fun _ _ => 1)
  have hd := ex_law_T 1 1 1 1
  refine ⟨K, hK, Rf, hRf, ?_, ?_⟩
  · intro δ
    refine fwd_ddT_exact jacRxns_ok.1 hK (exGas 1) jacRxns_ok.2 [(0, .analytic 1)] (by simp) 1 1 δ _ Rf hRf 0
      exR0 ex_r0 1 (by simp) (hd.congr_deriv ?_)
    simp only [ex_M, ex_law]; norm_num
  · have hl : (exGas 1).lnRkc exR0 1 = -1 := by
      simp only [TGas.lnRkc, exGas]
      rw [ex_delta]; simp
    refine rev_ddT_limit_partial jacRxns_ok.1 hK (exGas 1) jacRxns_ok.2 _ (by simp) 1 1 one_pos one_pos one_pos
      one_pos _ Rf hRf 0 exR0 ex_r0 (.numeric (fun t => t * 1 * (6 / 7))) (by simp) _ hd ?_ (fun _ => 1)
      (fun k => hasDerivAt_id' 1) ?_
    · refine ⟨?_, ?_, Or.inl rfl⟩
      · funext t
        simp only [ex_M, ex_law]; norm_num
      · simp only [ex_M, ex_law]; norm_num
    · rw [hl, bigNumber]
      have : Real.exp (-1) < 1 := by rw [Real.exp_lt_one_iff]; norm_num
      exact this.trans (one_lt_pow₀ (by norm_num) (by norm_num))

/-- With the multiplier 2 the numerical derivative diverges. -/
example : ∃ K, Built K jacRxns ∧ ∃ R, K.updateROP ((exGas 2).env jacRxns 1 1 (fun _ => 1)) (fun _ => 0)
      (fun _ => 0) = .ok R ∧
    Tendsto (fun δ => |Kin.fwdDdT R [(0, .numeric (fun t => (exGas 2).law 0 t 1
      ((exGas 2).M jacRxns 0 (fun _ => 1))))] 1 δ 0|) (𝓝[≠] 0) atTop := by
  obtain ⟨K, hK⟩ := kinetics_build_ok jacRxns jacRxns_ok.1
  obtain ⟨Rf, hRf⟩ := trop_family jacRxns_ok.1 hK (exGas 2) jacRxns_ok.2 (fun t : ℝ => t) (fun _ => 1)
    (fun _ _ => 1)
  refine ⟨K, hK, Rf 1, hRf 1, ?_⟩
  refine ddT_multiplier_diverges jacRxns_ok.1 hK (exGas 2) jacRxns_ok.2 _ (by simp) 1 1 one_pos _ (Rf 1) (hRf 1)
    0 exR0 ex_r0 _ (ex_law_T 2 1 1 1) (by simp) (by simp [exGas]) (by simp [exGas]) ?_
  rw [(trop_value jacRxns_ok.1 hK (exGas 2) jacRxns_ok.2 1 1 _ (Rf 1) (hRf 1) 0 exR0 ex_r0).2.1,
    reac_fac_value jacRxns_ok.1 hK 0 exR0 ex_r0 _ (fun _ _ => one_pos)]
  simp only [ex_M, ex_law, Rxn.mFactor, exR0, powProd]
  norm_num [exGas]

/-- Stored Gibbs energies of the pressure 2 and the state at pressure 1 (same temperature and density):
the reverse derivative diverges. -/
example : ∃ K, Built K jacRxns ∧ ∃ R, K.updateROP ((exGas 1).env jacRxns 1 1 (fun _ => 1)) (fun _ => 0)
      (fun _ => 0) = .ok R ∧
    Tendsto (fun δ => |K.revDdT R [(0, .analytic 1)] 1 ((exGas 1).R * 1) δ
      (K.updateEq ((exGas 1).env jacRxns 1 1 (fun _ => 1)) 1 1
        (K.updateEq ((exGas 1).env jacRxns 1 2 (fun _ => 1)) 1 1 ⟨none, fun _ => 0, fun _ => 0⟩)).dg0
      (K.getRevReactionDelta ((exGas 1).env jacRxns (1 * (1 + δ)) 1 (fun _ => 1)).mu0) 0|)
      (𝓝[≠] 0) atTop := by
  obtain ⟨K, hK⟩ := kinetics_build_ok jacRxns jacRxns_ok.1
  obtain ⟨Rf, hRf⟩ := trop_family jacRxns_ok.1 hK (exGas 1) jacRxns_ok.2 (fun t : ℝ => t) (fun _ => 1)
    (fun _ _ => 1)
  refine ⟨K, hK, Rf 1, hRf 1, ?_⟩
  refine rev_ddT_stale_diverges jacRxns_ok.1 hK (exGas 1) jacRxns_ok.2 _ (by simp) 1 1 2 1 one_pos two_pos one_pos
    (by norm_num) one_pos one_pos _ _ (Rf 1) (hRf 1) _ (by simp) 0 exR0 ex_r0 rfl ?_ ?_ (.analytic 1) (by simp) _
    (ex_law_T 1 1 1 1) ?_ (fun _ => 1) (fun k => hasDerivAt_id' 1)
  · rw [Rxn.deltaN, ex_delta]; norm_num
  · rw [(trop_value jacRxns_ok.1 hK (exGas 1) jacRxns_ok.2 1 1 _ (Rf 1) (hRf 1) 0 exR0 ex_r0).2.2.1,
      rev_fac_value jacRxns_ok.1 hK 0 exR0 ex_r0 rfl _ (fun _ _ => one_pos),
      rkcn_ideal jacRxns_ok.1 hK (exGas 1) jacRxns_ok.2 1 1 one_pos one_pos one_pos one_pos _ (Rf 1) (hRf 1) 0
        exR0 ex_r0]
    have hmin : min (Real.exp ((exGas 1).lnRkc exR0 1)) bigNumber ≠ 0 :=
      (lt_min (Real.exp_pos _) (by rw [bigNumber]; positivity)).ne'
    have hmf : exR0.mFactor (exGas 1).nsp (fun _ => 1) = 1 := rfl
    have hpp : powProd exR0.products (fun _ => 1) = 1 := by simp [powProd, exR0]
    rw [show exR0.reversible = true from rfl, if_pos rfl, hmf, hpp]
    refine mul_ne_zero ?_ (by simpa using hmin)
    simp only [ex_M, ex_law]; norm_num [exGas]
  · show _ = _ * (1 : ℝ)
    simp only [ex_M, ex_law]; norm_num

/-- Pressure and density derivatives of the falloff-like reaction at mole fractions 1/4. -/
example : ∃ K, Built K jacRxns ∧ ∃ Rf : ℝ → Rop,
    (∀ C, K.updateROP ((exGas 1).env jacRxns 1 1 (fun _ => C * (1 / 4))) (fun _ => 0) (fun _ => 0) =
      .ok (Rf C)) ∧
    ∃ (d : ℝ) (o : ℝ → Vec), HasDerivAt (fun C => (Rf C).ropf 0) d 1 ∧
      (∀ δ, K.processDdC K.reac (Rf 1).ropf (Rf 1).concm (Rf 1).rfn (fun _ => 7)
        (∑ _k ∈ Finset.range 4, 1 * (1 / 4)) [(1, none), (0, some ((exGas 1).law 0 1 1))]
        ⟨false, false, δ⟩ true = .ok (o δ)) ∧
      Tendsto (fun δ => o δ 0) (𝓝[≠] 0) (𝓝 d) := by
  obtain ⟨K, hK⟩ := kinetics_build_ok jacRxns jacRxns_ok.1
  obtain ⟨Rf, hRf⟩ := trop_family jacRxns_ok.1 hK (exGas 1) jacRxns_ok.2 (fun _ : ℝ => 1) (fun _ => 1)
    (fun C _ => C * (1 / 4))
  have hM : (exGas 1).M jacRxns 0 (fun _ => 1 * (1 / 4)) = 3 / 2 := by rw [ex_M]; norm_num
  refine ⟨K, hK, Rf, hRf, ?_⟩
  refine fwd_ddC_limit_partial jacRxns_ok.1 hK (exGas 1) jacRxns_ok.2
    [(1, none), (0, some ((exGas 1).law 0 1 1))] (by simp) 1 1 (fun _ => 1 / 4)
    (by simp [exGas]) 1 one_pos _ Rf hRf 0 exR0 ex_r0 (fun _ _ => by norm_num)
    (some ((exGas 1).law 0 1 1)) (by simp) ((1 + 3 / 2 - 3 / 2) / (1 + 3 / 2) ^ 2) ?_ ?_
  · rw [hM]
    have h := ((hasDerivAt_id' (3 / 2 : ℝ)).div ((hasDerivAt_id' (3 / 2 : ℝ)).const_add 1) (by norm_num)).const_mul
      (1 * 1 : ℝ)
    refine h.congr_deriv ?_
    norm_num
  · rw [hM]
    refine ⟨rfl, ?_, by norm_num, Or.inl rfl⟩
    simp only [ex_law]; norm_num

example : ∃ K, Built K jacRxns ∧ ∃ Rf : ℝ → Rop,
    (∀ p, K.updateROP ((exGas 1).env jacRxns 1 p (fun _ => 1)) (fun _ => 0) (fun _ => 0) = .ok (Rf p)) ∧
    ∃ d, HasDerivAt (fun p => (Rf p).ropnet 0) d 1 ∧
      Tendsto (fun δ => processDdP [(0, some (fun p => (exGas 1).law 0 1 p ((exGas 1).M jacRxns 0 (fun _ => 1))))]
        (Rf 1).rfn 1 δ (Rf 1).ropnet 0) (𝓝[≠] 0) (𝓝 d) := by
  obtain ⟨K, hK⟩ := kinetics_build_ok jacRxns jacRxns_ok.1
  obtain ⟨Rf, hRf⟩ := trop_family jacRxns_ok.1 hK (exGas 1) jacRxns_ok.2 (fun _ : ℝ => 1) (fun p => p)
    (fun _ _ => 1)
  refine ⟨K, hK, Rf, hRf, ?_⟩
  refine (ddP_limit_partial jacRxns_ok.1 hK (exGas 1) jacRxns_ok.2 _ (by simp) 1 1 one_pos one_pos one_pos one_pos
    _ Rf hRf 0 exR0 ex_r0
    (some (fun p => (exGas 1).law 0 1 p ((exGas 1).M jacRxns 0 (fun _ => 1)))) (List.mem_singleton.2 rfl)
    (6 / 7) ?_ ⟨rfl, ?_, Or.inl rfl⟩).2.2.2
  · simp only [ex_M, ex_law]
    have h := ((hasDerivAt_id' (1 : ℝ)).const_mul 1).mul_const (6 * 1 / (1 + 6 * 1) : ℝ)
    refine h.congr_deriv ?_
    norm_num
  · simp only [ex_M, ex_law]; norm_num

end Verif.Kinetics
