import Verif.Kinetics.Jacobian

/-!
# Lemmas for the composition Jacobian
-/

namespace Verif.Kinetics

open Verif Verif.Stoich Filter Topology

/-- Rows of a manager's derivative matrix depend only on the row's own input. -/
theorem der_row (ds : List Decl) (m : Mgr) (hm : Mgr.empty.addAll ds = .ok m) (S R : ℕ → ℝ)
    (i k : ℕ) : m.derivatives S R i k =
      ((ds.filter (fun d => d.rxn = i)).map (fun d => d.der S (R i) k)).sum := by
  rw [Mgr.der_eq, addAll_der ds _ m hm, empty_der, zero_add,
    sum_single_apply ds (fun d => d.der S (R d.rxn)) i]
  have : ∀ l : List Decl, (∀ d ∈ l, d.rxn = i) →
      (l.map (fun d => d.der S (R d.rxn))).sum k = (l.map (fun d => d.der S (R i) k)).sum := by
    intro l
    induction l with
    | nil => intro _; rfl
    | cons d l ih =>
      intro h
      rw [List.map_cons, List.sum_cons, Pi.add_apply, ih (fun d hd => h d (by simp [hd])),
        h d (by simp), List.map_cons, List.sum_cons]
  exact this _ (fun d hd => by simpa using (List.mem_filter.1 hd).2)

theorem fac_row (ds : List Decl) (m : Mgr) (hm : Mgr.empty.addAll ds = .ok m) (S : ℕ → ℝ) (i : ℕ) :
    m.fac S i = ((ds.filter (fun d => d.rxn = i)).map (fun d => d.fac S)).prod := by
  rw [addAll_fac ds _ m hm, empty_fac, one_mul, prod_mulSingle_apply]

/-- Row `i` of a manager with at most one declaration in the slot. -/
theorem row_hasDerivAt (ds : List Decl) (m : Mgr) (hm : Mgr.empty.addAll ds = .ok m) (i : ℕ)
    (hf : ds.filter (fun d => d.rxn = i) = [] ∨
      ∃ d, ds.filter (fun d => d.rxn = i) = [d] ∧ Valid d)
    (c R : ℕ → ℝ) (k : ℕ)
    (hpos : ∀ d ∈ ds, d.rxn = i → ∀ k ∈ d.k, 0 < c k) :
    HasDerivAt (fun x => R i * m.fac (Function.update c k x) i) (m.derivatives c R i k) (c k) := by
  rw [der_row ds m hm]
  simp only [fac_row ds m hm]
  rcases hf with hf | ⟨d, hf, hv⟩
  · rw [hf]; simpa using hasDerivAt_const (c k) (R i)
  · have hd : d ∈ ds ∧ d.rxn = i := by
      have : d ∈ ds.filter (fun d => d.rxn = i) := by rw [hf]; simp
      simpa using List.mem_filter.1 this
    rw [hf]
    simp only [List.map_cons, List.map_nil, List.sum_cons, List.sum_nil, add_zero, List.prod_cons,
      List.prod_nil, mul_one]
    refine decl_hasDerivAt d c (R i) k (parts_nonneg d hv) ?_
    intro p hp
    simp only [Decl.parts, List.mem_map] at hp
    obtain ⟨x, hx, rfl⟩ := hp
    exact hpos d hd.1 hd.2 _ (List.of_mem_zip hx).1

theorem processDdM_other (fall : List (ℕ × (ℝ → ℝ))) (kf concm : Vec) (δ : ℝ) (rop : Vec) (i : ℕ)
    (h : i ∉ fall.map (·.1)) : processDdM fall kf concm δ rop i = rop i := by
  unfold processDdM
  induction fall generalizing rop with
  | nil => rfl
  | cons f l ih =>
    simp only [List.map_cons, List.mem_cons, not_or] at h
    rw [List.foldl_cons, ih _ h.2, ddMStep]
    simp [Function.update_of_ne h.1]

theorem processDdM_mem (fall : List (ℕ × (ℝ → ℝ))) (kf concm : Vec) (δ : ℝ) (rop : Vec)
    (hn : (fall.map (·.1)).Nodup) (f : ℕ × (ℝ → ℝ)) (hf : f ∈ fall) :
    processDdM fall kf concm δ rop f.1 =
      if kf f.1 ≠ 0 ∧ concm f.1 * (1 + δ) > 0 then
        rop f.1 * (1 / δ * (f.2 (concm f.1 * (1 + δ)) / kf f.1 - 1)) / (concm f.1 * (1 + δ)) else 0 := by
  induction fall generalizing rop with
  | nil => simp at hf
  | cons g l ih =>
    rw [List.map_cons, List.nodup_cons] at hn
    rcases List.mem_cons.1 hf with rfl | hf'
    · have := processDdM_other l kf concm δ (ddMStep kf concm δ rop f) f.1 hn.1
      rw [processDdM] at this
      rw [processDdM, List.foldl_cons, this, ddMStep]
      simp
    · have hne : f.1 ≠ g.1 := fun e => hn.1 (e ▸ List.mem_map.2 ⟨f, hf', rfl⟩)
      have := ih (ddMStep kf concm δ rop g) hn.2 hf'
      rw [processDdM] at this
      rw [processDdM, List.foldl_cons, this]
      simp only [ddMStep, Function.update_of_ne hne]

theorem conc_hasDerivAt (b : ThirdBody) (nsp : ℕ) (c : ℕ → ℝ) (k : ℕ) (hk : k < nsp) :
    HasDerivAt (fun x => b.conc nsp (Function.update c k x)) (b.efficiency k) (c k) := by
  have h : ∀ x, b.conc nsp (Function.update c k x) =
      b.efficiency k * x + ∑ j ∈ (Finset.range nsp).erase k, b.efficiency j * c j := by
    intro x
    rw [ThirdBody.conc, ← Finset.add_sum_erase _ _ (Finset.mem_range.2 hk)]
    congr 1
    · simp
    · apply Finset.sum_congr rfl
      intro j hj
      rw [Function.update_of_ne (Finset.ne_of_mem_erase hj)]
  simp only [h]
  simpa using ((hasDerivAt_id' (c k)).const_mul (b.efficiency k)).add_const
    (∑ j ∈ (Finset.range nsp).erase k, b.efficiency j * c j)

/-- What the derivative routine uses of the result of `updateROP`. -/
theorem rop_fields (rs : List Rxn) (hv : ∀ r ∈ rs, r.OK) (K : Kin) (hK : Built K rs) (nsp : ℕ)
    (hT : ∀ r ∈ rs, r.TBOK nsp) (e : Env)
    (hct : e.ctot = ∑ k ∈ Finset.range nsp, e.physConc k) (oldR oldC : ℕ → ℝ) (R : Rop)
    (hR : K.updateROP e oldR oldC = .ok R) (i : ℕ) (r : Rxn) (hr : rs[i]? = some r) :
    R.rfn = (fun i => e.kf0 i * e.perturb i) ∧
    (∀ b, r.thirdBody = some b → R.concm i = b.conc nsp e.physConc) ∧
    R.rkcn i = (if r.reversible then
      min (Real.exp (K.getRevReactionDelta e.mu0 i * (1 / e.RT) - K.dn i * Real.log e.c0)) bigNumber
      else 0) ∧
    R.ropf i = e.kf0 i * e.perturb i * r.mFactor nsp e.physConc * K.reac.fac e.actConc i ∧
    R.ropr i = e.kf0 i * e.perturb i * r.mFactor nsp e.physConc * R.rkcn i *
      K.revProd.fac e.actConc i ∧
    R.ropnet i = R.ropf i - R.ropr i ∧
    (∀ v : ℕ → ℝ, ∃ o, K.processThirdBodies R.concm v = .ok o ∧
      ∀ (i : ℕ) (r : Rxn), rs[i]? = some r → o i = v i * r.mFactor nsp e.physConc) := by
  have h3b := third_body_concentrations rs hv K hK nsp hT e hct oldR oldC R hR
  obtain ⟨K', hK', hn, h1, h2, h3, h4, h5, h6, h7, h8⟩ := kin_addAll rs hv Kin.empty
  have hK2 := hK
  rw [Built] at hK2; rw [hK2] at hK'; cases hK'
  simp only [Kin.empty, List.nil_append, zero_add] at h4 h5 h8 hn
  have htb : ∀ v : ℕ → ℝ, ∃ o, K.processThirdBodies R.concm v = .ok o ∧
      ∀ (i : ℕ) (r : Rxn), rs[i]? = some r → o i = v i * r.mFactor nsp e.physConc := by
    intro v
    have hcm : R.concm = K.tb.update e.physConc e.ctot oldC := by
      obtain ⟨o, ho, _⟩ := tb_spec rs K.tb h8 e.physConc e.ctot oldC (fun i => e.kf0 i * e.perturb i)
      rw [Kin.updateROP] at hR
      simp only [Kin.processThirdBodies, ho, Outcome.bind_ok, Outcome.pure_eq, Outcome.ok.injEq] at hR
      subst hR; rfl
    obtain ⟨o, ho, _⟩ := tb_spec rs K.tb h8 e.physConc e.ctot oldC v
    refine ⟨o, by rw [Kin.processThirdBodies, hcm, ho], ?_⟩
    intro i r hr
    rw [(h3b i r hr).2.2 v o (by rw [Kin.processThirdBodies, hcm, ho]), Rxn.mFactor]
    cases hb : r.thirdBody with
    | none => rfl
    | some b =>
      simp only
      rw [(h3b i r hr).1 b hb]; rfl
  obtain ⟨o, ho, hoi⟩ := htb (fun i => e.kf0 i * e.perturb i)
  have hlt : i < K.n := by rw [hn]; exact (List.getElem?_eq_some_iff.1 hr).1
  have hcm : R.concm = K.tb.update e.physConc e.ctot oldC := by
    obtain ⟨o, ho, _⟩ := tb_spec rs K.tb h8 e.physConc e.ctot oldC (fun i => e.kf0 i * e.perturb i)
    rw [Kin.updateROP] at hR
    simp only [Kin.processThirdBodies, ho, Outcome.bind_ok, Outcome.pure_eq, Outcome.ok.injEq] at hR
    subst hR; rfl
  have h3bi := h3b i r hr
  rw [Kin.updateROP, ← hcm] at hR
  simp only [ho, Outcome.bind_ok, Outcome.pure_eq, Outcome.ok.injEq] at hR
  have e1 : R.rfn = (fun i => e.kf0 i * e.perturb i) := by rw [← hR]
  have e2 : R.rkcn = K.rkcn e oldR := by rw [← hR]
  have e3 : R.ropf = K.reac.multiply e.actConc o := by rw [← hR]
  have e4 : R.ropr = K.revProd.multiply e.actConc (K.applyEquilibriumConstants (K.rkcn e oldR) o) := by
    rw [← hR]
  have e5 : R.ropnet = fun j => R.ropf j - R.ropr j := by rw [← hR]
  refine ⟨e1, ?_, ?_, ?_, ?_, ?_, htb⟩
  · intro b hb; rw [h3bi.1 b hb]; rfl
  · rw [e2]; exact rkcn_value K rs h4 h5 e oldR i r hr
  · rw [e3, Mgr.mul_eq, Pi.mul_apply, hoi i r hr]
  · rw [e4, Mgr.mul_eq, Pi.mul_apply, Kin.applyEquilibriumConstants, if_pos hlt, hoi i r hr, e2]
  · rw [e5]

/-- Efficiency of species `k` as collider of the reaction (zero without third body). -/
noncomputable def Rxn.collEff (r : Rxn) (k : ℕ) : ℝ :=
  match r.thirdBody with
  | some b => b.efficiency k
  | none => 0

/-- Value of one entry of `compositionDerivatives`. -/
theorem comp_entry (rs : List Rxn) (hv : ∀ r ∈ rs, r.OK) (K : Kin) (hK : Built K rs) (nsp : ℕ)
    (hT : ∀ r ∈ rs, r.TBOK nsp) (e : Env)
    (hct : e.ctot = ∑ k ∈ Finset.range nsp, e.physConc k) (oldR oldC : ℕ → ℝ) (R : Rop)
    (hR : K.updateROP e oldR oldC = .ok R) (m : Mgr) (ds : List Decl)
    (hm : Mgr.empty.addAll ds = .ok m) (inp : ℕ → ℝ) (fall : List (ℕ × (ℝ → ℝ))) (s : JacSettings)
    (ddX : Bool) (J : Jac)
    (hJ : K.compositionDerivatives m inp e.actConc e.ctot R fall s ddX = .ok J)
    (i : ℕ) (r : Rxn) (hr : rs[i]? = some r) (k : ℕ) :
    ∃ V : ℕ → ℝ, V i = inp i * (if ddX then e.ctot else 1) * m.fac e.actConc i ∧
    J i k = m.derivatives e.actConc
        (fun _ => inp i * (if ddX then e.ctot else 1) * r.mFactor nsp e.physConc) i k +
      (if s.skipThird then 0 else
        (if s.skipFalloff then V i else processDdM fall R.rfn R.concm s.delta V i) * r.collEff k) := by
  set q := inp i * (if ddX then e.ctot else 1) with hq
  set V : ℕ → ℝ := fun j => (if ddX then (if j < K.n then inp j * e.ctot else inp j) else inp j) *
      m.fac e.actConc j with hVdef
  obtain ⟨-, -, -, -, -, -, htb⟩ := rop_fields rs hv K hK nsp hT e hct oldR oldC R hR i r hr
  have hmult : K.tb.multiplier i k = r.collEff k :=
    third_body_multipliers rs hv K hK nsp hT i r hr k
  have hlt : i < K.n := by
    obtain ⟨K', hK', hn, _⟩ := kin_addAll rs hv Kin.empty
    rw [Built] at hK; rw [hK] at hK'; cases hK'
    rw [hn]; simp only [Kin.empty, zero_add]; exact (List.getElem?_eq_some_iff.1 hr).1
  have hVi : V i = q * m.fac e.actConc i := by
    simp only [V, q]; cases ddX <;> simp [hlt]
  refine ⟨V, hVi, ?_⟩
  set sc : ℕ → ℝ := if ddX then (fun i => if i < K.n then inp i * e.ctot else inp i) else inp with hsc
  obtain ⟨o, ho, hoi⟩ := htb sc
  have hsci : sc i = q := by simp only [hsc, q]; cases ddX <;> simp [hlt]
  have hVm : m.multiply e.actConc sc = V := by
    rw [Mgr.mul_eq]; funext j; simp only [V, hsc, Pi.mul_apply]; cases ddX <;> simp
  have hder : m.derivatives e.actConc o i k =
      m.derivatives e.actConc (fun _ => q * r.mFactor nsp e.physConc) i k := by
    rw [der_row ds m hm, der_row ds m hm, hoi i r hr, hsci]
  rw [Kin.compositionDerivatives] at hJ
  simp only [← hsc, ho, Outcome.bind_ok, hVm] at hJ
  by_cases h0 : s.skipThird = true ∨ K.tb.entries = []
  · rw [if_pos h0, Outcome.pure_eq, Outcome.ok.injEq] at hJ
    rw [← hJ, hder]
    rcases h0 with h0 | h0
    · simp [h0]
    · have : K.tb.multiplier i k = 0 := by rw [TBCalc.multiplier, h0]; rfl
      rw [this] at hmult
      rw [← hmult]; simp
  · rw [if_neg h0, Outcome.pure_eq, Outcome.ok.injEq] at hJ
    have hs : s.skipThird = false := by
      cases h : s.skipThird with
      | false => rfl
      | true => exact absurd (Or.inl h) h0
    rw [← hJ]
    simp only [hder, hmult, hs]
    cases s.skipFalloff <;> rfl

end Verif.Kinetics
