import Verif.Kinetics.Lemmas

/-!
# C02 (mechanism level), C03, C04, C07, C08

Every theorem quantifies over all lists of well-formed reactions added to an empty object.
-/

namespace Verif.Kinetics

open Verif Verif.Stoich

/-! ## Building any mechanism succeeds -/

/-- A mechanism `K` was built from the reactions `rs`. -/
def Built (K : Kin) (rs : List Rxn) : Prop := Kin.empty.addAll rs = .ok K

/-- Adding well-formed reactions never fails in the stoichiometry managers. -/
theorem kinetics_build_ok (rs : List Rxn) (hv : ∀ r ∈ rs, r.OK) : ∃ K, Built K rs := by
  obtain ⟨K, h, _⟩ := kin_addAll rs hv Kin.empty
  exact ⟨K, h⟩

/-- A mechanism with orders overridden, a non-reactant order and a third body. -/
noncomputable def exampleRxns : List Rxn :=
  [⟨[(0, 2), (1, 1)], [(2, 2)], [], true, none⟩,
   ⟨[(0, 1)], [(1, 1)], [(0, 1/2), (3, 2)], false, none⟩,
   ⟨[(0, 2)], [(3, 1)], [], true, some ⟨[(1, 0), (2, 5/2)], 1, true⟩⟩]

theorem exampleRxns_ok : ∀ r ∈ exampleRxns, r.OK := by
  intro r hr
  simp only [exampleRxns, List.mem_cons, List.not_mem_nil, or_false] at hr
  rcases hr with rfl | rfl | rfl <;>
    refine ⟨by simp, by simp, by simp, ?_, ?_⟩ <;> intro x hx <;> simp at hx <;>
    (try rcases hx with rfl | rfl) <;> norm_num

example : ∃ K, Built K exampleRxns := kinetics_build_ok _ exampleRxns_ok

/-! ## C03 -/

/-- The third-body factor equals the efficiency-weighted sum of concentrations when `ctot` is the
total concentration. -/
theorem third_body_sum (b : ThirdBody) (nsp : ℕ) (c : ℕ → ℝ) (hnd : (b.eff.map (·.1)).Nodup)
    (hlt : ∀ x ∈ b.eff, x.1 < nsp) :
    b.dflt * (∑ k ∈ Finset.range nsp, c k) + (b.eff.map (fun x => (x.2 - b.dflt) * c x.1)).sum =
      b.conc nsp c := by
  rw [ThirdBody.conc, Finset.mul_sum]
  have : ∀ (l : List (ℕ × ℝ)), (l.map (·.1)).Nodup → (∀ x ∈ l, x.1 < nsp) →
      (∑ k ∈ Finset.range nsp, ((l.lookup k).getD b.dflt) * c k) =
      ∑ k ∈ Finset.range nsp, b.dflt * c k + (l.map (fun x => (x.2 - b.dflt) * c x.1)).sum := by
    intro l
    induction l with
    | nil => intro _ _; simp
    | cons x l ih =>
      intro hn hl
      rw [List.map_cons, List.nodup_cons] at hn
      rw [List.map_cons, List.sum_cons, ← add_assoc, add_right_comm,
        ← ih hn.2 (fun y hy => hl y (by simp [hy]))]
      have hx : x.1 ∈ Finset.range nsp := Finset.mem_range.2 (hl x (by simp))
      rw [← Finset.add_sum_erase _ _ hx, ← Finset.add_sum_erase _ _ hx]
      simp only [lookup_cons', if_true, Option.getD_some]
      rw [lookup_none_of l x.1 hn.1]
      have hs : ∑ y ∈ (Finset.range nsp).erase x.1,
          ((if y = x.1 then some x.2 else l.lookup y).getD b.dflt) * c y =
          ∑ y ∈ (Finset.range nsp).erase x.1, ((l.lookup y).getD b.dflt) * c y := by
        apply Finset.sum_congr rfl
        intro y hy
        rw [if_neg (Finset.ne_of_mem_erase hy)]
      rw [hs]; simp; ring
  rw [← this b.eff hnd hlt]; rfl

section
variable (rs : List Rxn) (hv : ∀ r ∈ rs, r.OK) (K : Kin) (hK : Built K rs)
include hv hK

/-- Creation rates, destruction rates and net rates as sums over declared coefficients, for rate-of-progress
vectors in which irreversible reactions have zero reverse rate. -/
theorem species_rates (ropf ropr : ℕ → ℝ)
    (hirr : ∀ (i : ℕ) (r : Rxn), rs[i]? = some r → r.reversible = false → ropr i = 0) (k : ℕ) :
    K.getCreationRates ropf ropr k =
      ∑ i : Fin rs.length, (coeff rs[i].products k * ropf i + coeff rs[i].reactants k * ropr i) ∧
    K.getDestructionRates ropf ropr k =
      ∑ i : Fin rs.length, (coeff rs[i].reactants k * ropf i + coeff rs[i].products k * ropr i) ∧
    ∀ ropnet : ℕ → ℝ, K.getNetProductionRates ropnet k =
      ∑ i : Fin rs.length, (coeff rs[i].products k - coeff rs[i].reactants k) * ropnet i := by
  obtain ⟨K', hK', hn, h1, h2, h3, -, -, -, -, -⟩ := kin_addAll rs hv Kin.empty
  rw [Built] at hK; rw [hK] at hK'; cases hK'
  have okz : ∀ p ∈ rs.zipIdx, p.1.OK := by
    intro p hp; exact hv _ (List.fst_mem_of_mem_zipIdx hp)
  have vr : ∀ d ∈ rs.zipIdx.map (fun p => p.1.reactDecl p.2), Valid d := by
    intro d hd; obtain ⟨p, hp, rfl⟩ := List.mem_map.1 hd; exact reactDecl_valid _ (okz p hp) _
  have vp : ∀ d ∈ rs.zipIdx.map (fun p => p.1.prodDecl p.2), Valid d := by
    intro d hd; obtain ⟨p, hp, rfl⟩ := List.mem_map.1 hd; exact prodDecl_valid _ (okz p hp) _
  have vq : ∀ d ∈ (rs.zipIdx.filter (·.1.reversible)).map (fun p => p.1.prodDecl p.2), Valid d := by
    intro d hd; obtain ⟨p, hp, rfl⟩ := List.mem_map.1 hd
    exact prodDecl_valid _ (okz p (List.mem_filter.1 hp).1) _
  obtain ⟨r1, r2, -, -⟩ := mgr_spec _ vr K.reac h1
  obtain ⟨p1, p2, -, -⟩ := mgr_spec _ vp K.prod h2
  obtain ⟨q1, -, -, -⟩ := mgr_spec _ vq K.revProd h3
  have er : ∀ R : ℕ → ℝ, ((rs.zipIdx.map (fun p => p.1.reactDecl p.2)).map
      (fun d => nu d k * R d.rxn)).sum = ∑ i : Fin rs.length, coeff rs[i].reactants k * R i := by
    intro R
    rw [← zipIdx_sum rs (fun r i => coeff r.reactants k * R i), List.map_map]
    congr 1; apply List.map_congr_left; intro p hp
    simp only [Function.comp_apply, reactDecl_nu _ (okz p hp)]; rfl
  have ep : ∀ R : ℕ → ℝ, ((rs.zipIdx.map (fun p => p.1.prodDecl p.2)).map
      (fun d => nu d k * R d.rxn)).sum = ∑ i : Fin rs.length, coeff rs[i].products k * R i := by
    intro R
    rw [← zipIdx_sum rs (fun r i => coeff r.products k * R i), List.map_map]
    congr 1; apply List.map_congr_left; intro p hp
    simp only [Function.comp_apply, prodDecl_nu]; rfl
  have eq : (((rs.zipIdx.filter (·.1.reversible)).map (fun p => p.1.prodDecl p.2)).map
      (fun d => nu d k * ropr d.rxn)).sum = ∑ i : Fin rs.length, coeff rs[i].products k * ropr i := by
    rw [← ep, List.map_map, List.map_map]
    have hz : ∀ p ∈ rs.zipIdx, p.1.reversible = false → ropr p.2 = 0 := by
      intro p hp h; exact hirr p.2 p.1 ((mem_zipIdx0 _ _ _).1 hp) h
    generalize rs.zipIdx = l at hz
    induction l with
    | nil => rfl
    | cons a l ih =>
      have ih' := ih (fun p hp => hz p (by simp [hp]))
      cases ha : a.1.reversible with
      | true =>
        rw [List.filter_cons_of_pos (by simpa using ha), List.map_cons, List.map_cons,
          List.sum_cons, List.sum_cons, ih']
      | false =>
        rw [List.filter_cons_of_neg (by simp [ha]), List.map_cons, List.sum_cons, ih']
        have : ropr a.2 = 0 := hz a (by simp) ha
        simp [Rxn.prodDecl, this]
  refine ⟨?_, ?_, ?_⟩
  · rw [Kin.getCreationRates, r1, p1, er, ep, zero_add, Finset.sum_add_distrib]
  · rw [Kin.getDestructionRates, r1, q1, er, eq, zero_add, Finset.sum_add_distrib, add_comm]
  · intro ropnet
    rw [Kin.getNetProductionRates, r2, p1, er, ep, zero_add, ← Finset.sum_sub_distrib]
    apply Finset.sum_congr rfl; intro i _; ring

/-! ## C07 and C02: the rates of progress -/

/-- `getReactionDelta` and `getRevReactionDelta` as declared sums. -/
theorem reaction_delta (g : ℕ → ℝ) (i : ℕ) (r : Rxn) (hr : rs[i]? = some r) :
    K.getReactionDelta g i = r.delta g ∧
    (r.reversible = true → K.getRevReactionDelta g i = r.delta g) := by
  obtain ⟨K', hK', hn, h1, h2, h3, -, -, -, -, -⟩ := kin_addAll rs hv Kin.empty
  rw [Built] at hK; rw [hK] at hK'; cases hK'
  have okz : ∀ p ∈ rs.zipIdx, p.1.OK := by
    intro p hp; exact hv _ (List.fst_mem_of_mem_zipIdx hp)
  have vr : ∀ d ∈ rs.zipIdx.map (fun p => p.1.reactDecl p.2), Valid d := by
    intro d hd; obtain ⟨p, hp, rfl⟩ := List.mem_map.1 hd; exact reactDecl_valid _ (okz p hp) _
  have vp : ∀ d ∈ rs.zipIdx.map (fun p => p.1.prodDecl p.2), Valid d := by
    intro d hd; obtain ⟨p, hp, rfl⟩ := List.mem_map.1 hd; exact prodDecl_valid _ (okz p hp) _
  have vq : ∀ d ∈ (rs.zipIdx.filter (·.1.reversible)).map (fun p => p.1.prodDecl p.2), Valid d := by
    intro d hd; obtain ⟨p, hp, rfl⟩ := List.mem_map.1 hd
    exact prodDecl_valid _ (okz p (List.mem_filter.1 hp).1) _
  obtain ⟨-, -, -, r4⟩ := mgr_spec _ vr K.reac h1
  obtain ⟨-, -, p3, -⟩ := mgr_spec _ vp K.prod h2
  obtain ⟨-, -, q3, -⟩ := mgr_spec _ vq K.revProd h3
  have hrv : r.OK := hv r (List.mem_of_getElem? hr)
  have fr := filter_map_decl rs.zipIdx (fun r i => r.reactDecl i) (fun _ _ => rfl) i
  have fp := filter_map_decl rs.zipIdx (fun r i => r.prodDecl i) (fun _ _ => rfl) i
  have fq := filter_map_decl (rs.zipIdx.filter (·.1.reversible)) (fun r i => r.prodDecl i)
    (fun _ _ => rfl) i
  rw [filter_zipIdx_some rs i r hr] at fr fp
  rw [filter_rev rs i r hr] at fq
  have pz := (prodDecl_zip r i).1
  refine ⟨?_, ?_⟩
  · rw [Kin.getReactionDelta, r4, p3]
    simp only [fr, fp, List.map_cons, List.map_nil, List.sum_cons, List.sum_nil,
      reactDecl_sum r hrv, pz, Rxn.delta, add_zero, zero_add]
  · intro hrev
    rw [Kin.getRevReactionDelta, r4, q3]
    simp only [fr, fq, hrev, if_true, List.map_cons, List.map_nil, List.sum_cons, List.sum_nil,
      reactDecl_sum r hrv, pz, Rxn.delta, add_zero, zero_add]

/-- All rates of progress for admissible concentrations. -/
theorem rates_of_progress (nsp : ℕ) (hT : ∀ r ∈ rs, r.TBOK nsp) (e : Env)
    (hct : e.ctot = ∑ k ∈ Finset.range nsp, e.physConc k) (oldR oldC : ℕ → ℝ) :
    ∃ R, K.updateROP e oldR oldC = .ok R ∧
      (∀ (i : ℕ) (r : Rxn), rs[i]? = some r →
        R.ropnet i = R.ropf i - R.ropr i ∧
        (r.reversible = false → R.ropr i = 0) ∧
        (r.ConcOK e.actConc →
          R.ropf i = e.kf0 i * e.perturb i * r.mFactor nsp e.physConc * powProd r.effOrders e.actConc ∧
          (r.reversible = true →
            R.ropr i = e.kf0 i * e.perturb i * r.mFactor nsp e.physConc *
              min (Real.exp (r.delta e.mu0 / e.RT - r.deltaN * Real.log e.c0)) bigNumber *
              powProd r.products e.actConc))) := by
  have hdelta := reaction_delta rs hv K hK
  obtain ⟨K', hK', hn, h1, h2, h3, h4, h5, h6, h7, h8⟩ := kin_addAll rs hv Kin.empty
  rw [Built] at hK; rw [hK] at hK'; cases hK'
  simp only [Kin.empty, List.nil_append, zero_add] at h4 h5 h6 h8 hn
  obtain ⟨o, ho, hoi⟩ := tb_spec rs K.tb h8 e.physConc e.ctot oldC (fun i => e.kf0 i * e.perturb i)
  refine ⟨⟨K.rkcn e oldR, K.tb.update e.physConc e.ctot oldC, fun i => e.kf0 i * e.perturb i,
    K.reac.multiply e.actConc o,
    K.revProd.multiply e.actConc (K.applyEquilibriumConstants (K.rkcn e oldR) o),
    fun j => K.reac.multiply e.actConc o j -
      K.revProd.multiply e.actConc (K.applyEquilibriumConstants (K.rkcn e oldR) o) j⟩, ?_, ?_⟩
  · rw [Kin.updateROP]; simp only [Kin.processThirdBodies, ho, Outcome.bind_ok, Outcome.pure_eq]
  intro i r hr
  have hrv : r.OK := hv r (List.mem_of_getElem? hr)
  have okz : ∀ p ∈ rs.zipIdx, p.1.OK := by
    intro p hp; exact hv _ (List.fst_mem_of_mem_zipIdx hp)
  have vr : ∀ d ∈ rs.zipIdx.map (fun p => p.1.reactDecl p.2), Valid d := by
    intro d hd; obtain ⟨p, hp, rfl⟩ := List.mem_map.1 hd; exact reactDecl_valid _ (okz p hp) _
  have vq : ∀ d ∈ (rs.zipIdx.filter (·.1.reversible)).map (fun p => p.1.prodDecl p.2), Valid d := by
    intro d hd; obtain ⟨p, hp, rfl⟩ := List.mem_map.1 hd
    exact prodDecl_valid _ (okz p (List.mem_filter.1 hp).1) _
  have fr := filter_map_decl rs.zipIdx (fun r i => r.reactDecl i) (fun _ _ => rfl) i
  have fq := filter_map_decl (rs.zipIdx.filter (·.1.reversible)) (fun r i => r.prodDecl i)
    (fun _ _ => rfl) i
  rw [filter_zipIdx_some rs i r hr] at fr
  rw [filter_rev rs i r hr] at fq
  have hlt : i < K.n := by
    rw [hn]; exact (List.getElem?_eq_some_iff.1 hr).1
  have hrk := rkcn_value K rs h4 h5 e oldR i r hr
  refine ⟨rfl, ?_, ?_⟩
  · intro hrev
    have hm : ∀ R : ℕ → ℝ, K.revProd.multiply e.actConc R i = R i := by
      intro R
      rw [stoich_mass_action _ vq K.revProd h3 e.actConc R i]
      · rw [fq]; simp [hrev]
      · intro d hd hdi
        exfalso
        have : d ∈ ((rs.zipIdx.filter (·.1.reversible)).map (fun p => p.1.prodDecl p.2)).filter
            (fun d => d.rxn = i) := List.mem_filter.2 ⟨hd, by simpa using hdi⟩
        rw [fq] at this; simp [hrev] at this
    simp only [hm, Kin.applyEquilibriumConstants, if_pos hlt, hrk, hrev]
    simp
  · intro hc
    have hmf : o i = e.kf0 i * e.perturb i * r.mFactor nsp e.physConc := by
      rw [(hoi i r hr).2.2]
      congr 1
      rw [Rxn.mFactor]
      cases hb : r.thirdBody with
      | none => rfl
      | some b =>
        simp only
        have htb := hT r (List.mem_of_getElem? hr) b hb
        rw [hct, third_body_sum b nsp e.physConc htb.1 htb.2]
    refine ⟨?_, ?_⟩
    · simp only
      rw [stoich_mass_action _ vr K.reac h1 e.actConc o i]
      · rw [fr, hmf]
        simp only [List.map_cons, List.map_nil, List.prod_cons, List.prod_nil, mul_one,
          massAction, reactDecl_order_zip r hrv]
        rfl
      · intro d hd hdi
        have : d ∈ (rs.zipIdx.map (fun p => p.1.reactDecl p.2)).filter (fun d => d.rxn = i) :=
          List.mem_filter.2 ⟨hd, by simpa using hdi⟩
        rw [fr] at this
        simp only [List.map_cons, List.map_nil, List.mem_singleton] at this
        subst this
        intro x hx
        rw [reactDecl_order_zip r hrv] at hx
        exact hc.1 x hx
    · intro hrev
      simp only
      rw [stoich_mass_action _ vq K.revProd h3 e.actConc _ i]
      · rw [fq]
        simp only [hrev, if_true, List.map_cons, List.map_nil, List.prod_cons, List.prod_nil, mul_one,
          massAction, (prodDecl_zip r i).2, Kin.applyEquilibriumConstants, if_pos hlt, hrk, hmf]
        rw [(hdelta e.mu0 i r hr).2 hrev]
        have hdn : K.dn i = r.deltaN := by
          have := h6 (r, i) ((mem_zipIdx0 _ _ _).2 hr)
          simp only at this
          rw [this, Rxn.deltaN, Rxn.delta]; simp
        rw [hdn, mul_one_div]; rfl
      · intro d hd hdi
        have : d ∈ ((rs.zipIdx.filter (·.1.reversible)).map (fun p => p.1.prodDecl p.2)).filter
          (fun d => d.rxn = i) := List.mem_filter.2 ⟨hd, by simpa using hdi⟩
        rw [fq] at this
        simp only [hrev, if_true, List.map_cons, List.map_nil, List.mem_singleton] at this
        subst this
        intro x hx
        rw [(prodDecl_zip r i).2] at hx
        rcases lt_or_eq_of_le (hc.2 x hx) with h | h
        · exact Or.inl h
        · exact Or.inr ⟨h.symm, hrv.pnonneg x hx⟩

/-- C03: for the rates of progress that the object itself computes, net production is creation minus
destruction, for every species, state and mechanism. -/
theorem net_eq_creation_sub_destruction (e : Env) (oldR oldC : ℕ → ℝ) (R : Rop)
    (hR : K.updateROP e oldR oldC = .ok R) (k : ℕ) :
    K.getNetProductionRates R.ropnet k =
      K.getCreationRates R.ropf R.ropr k - K.getDestructionRates R.ropf R.ropr k := by
  obtain ⟨K', hK', hn, h1, h2, h3, h4, h5, h6, h7, h8⟩ := kin_addAll rs hv Kin.empty
  have hK2 := hK
  rw [Built] at hK2; rw [hK2] at hK'; cases hK'
  simp only [Kin.empty, List.nil_append, zero_add] at h4 h5 h6 h8 hn
  obtain ⟨o, ho, hoi⟩ := tb_spec rs K.tb h8 e.physConc e.ctot oldC (fun i => e.kf0 i * e.perturb i)
  have hRf := hR
  rw [Kin.updateROP] at hRf
  simp only [Kin.processThirdBodies, ho, Outcome.bind_ok, Outcome.pure_eq, Outcome.ok.injEq] at hRf
  have hnet : ∀ i, R.ropnet i = R.ropf i - R.ropr i := by intro i; subst hRf; rfl
  have hirr : ∀ (i : ℕ) (r : Rxn), rs[i]? = some r → r.reversible = false → R.ropr i = 0 := by
    intro i r hr hrev
    have okz : ∀ p ∈ rs.zipIdx, p.1.OK := by
      intro p hp; exact hv _ (List.fst_mem_of_mem_zipIdx hp)
    have vq : ∀ d ∈ (rs.zipIdx.filter (·.1.reversible)).map (fun p => p.1.prodDecl p.2), Valid d := by
      intro d hd; obtain ⟨p, hp, rfl⟩ := List.mem_map.1 hd
      exact prodDecl_valid _ (okz p (List.mem_filter.1 hp).1) _
    have fq := filter_map_decl (rs.zipIdx.filter (·.1.reversible)) (fun r i => r.prodDecl i)
      (fun _ _ => rfl) i
    rw [filter_rev rs i r hr] at fq
    have hm : ∀ R : ℕ → ℝ, K.revProd.multiply e.actConc R i = R i := by
      intro R
      rw [stoich_mass_action _ vq K.revProd h3 e.actConc R i]
      · rw [fq]; simp [hrev]
      · intro d hd hdi
        exfalso
        have : d ∈ ((rs.zipIdx.filter (·.1.reversible)).map (fun p => p.1.prodDecl p.2)).filter
            (fun d => d.rxn = i) := List.mem_filter.2 ⟨hd, by simpa using hdi⟩
        rw [fq] at this; simp [hrev] at this
    have hlt : i < K.n := by
      rw [hn]; exact (List.getElem?_eq_some_iff.1 hr).1
    have hrk := rkcn_value K rs h4 h5 e oldR i r hr
    subst hRf
    simp only [hm, Kin.applyEquilibriumConstants, if_pos hlt, hrk, hrev]
    simp
  obtain ⟨s1, s2, s3⟩ := species_rates rs hv K hK R.ropf R.ropr hirr k
  rw [s1, s2, s3, ← Finset.sum_sub_distrib]
  apply Finset.sum_congr rfl
  intro i _
  rw [hnet]; ring

/-! ## C04 -/

/-- Weighted sum of net production = Σ_i (imbalance of reaction i) × (net rate of i), hence zero when every
reaction conserves the weight (number of atoms of an element, charge, mass, sites, ...). -/
theorem net_production_weighted (nsp : ℕ)
    (hsp : ∀ r ∈ rs, (∀ x ∈ r.reactants, x.1 < nsp) ∧ (∀ x ∈ r.products, x.1 < nsp))
    (w ropnet : ℕ → ℝ) :
    ∑ k ∈ Finset.range nsp, w k * K.getNetProductionRates ropnet k =
      ∑ i : Fin rs.length, rs[i].delta w * ropnet i := by
  have hcoef : ∀ l : List (ℕ × ℝ), (∀ x ∈ l, x.1 < nsp) →
      ∑ k ∈ Finset.range nsp, w k * coeff l k = (l.map (fun x => x.2 * w x.1)).sum := by
    intro l
    induction l with
    | nil => intro _; simp [coeff]
    | cons x l ih =>
      intro hl
      have h1 := ih (fun y hy => hl y (by simp [hy]))
      rw [List.map_cons, List.sum_cons, ← h1]
      have : ∀ k, coeff (x :: l) k = (if x.1 = k then x.2 else 0) + coeff l k := by
        intro k; simp [coeff]
      simp only [this, mul_add, Finset.sum_add_distrib]
      congr 1
      rw [Finset.sum_eq_single x.1]
      · simp; ring
      · intro b _ hb; simp [hb.symm]
      · intro h; exact absurd (Finset.mem_range.2 (hl x (by simp))) h
  have hs := fun k => (species_rates rs hv K hK 0 0 (fun _ _ _ _ => rfl) k).2.2 ropnet
  simp only [hs, Finset.mul_sum]
  rw [Finset.sum_comm]
  apply Finset.sum_congr rfl
  intro i _
  have hi := hsp rs[i] (List.getElem_mem _)
  rw [Rxn.delta, ← hcoef _ hi.1, ← hcoef _ hi.2, ← Finset.sum_sub_distrib, Finset.sum_mul]
  apply Finset.sum_congr rfl
  intro k _
  ring

/-- Element, charge and mass conservation. -/
theorem balanced_conserves (nsp : ℕ)
    (hsp : ∀ r ∈ rs, (∀ x ∈ r.reactants, x.1 < nsp) ∧ (∀ x ∈ r.products, x.1 < nsp))
    (w ropnet : ℕ → ℝ) (hbal : ∀ r ∈ rs, r.delta w = 0) :
    ∑ k ∈ Finset.range nsp, w k * K.getNetProductionRates ropnet k = 0 := by
  rw [net_production_weighted rs hv K hK nsp hsp w ropnet]
  apply Finset.sum_eq_zero
  intro i _
  have := hbal rs[i] (List.getElem_mem _)
  rw [this, zero_mul]

/-- If all elements are conserved and molecular weights are the weighted atom counts then mass is
conserved. -/
theorem balanced_conserves_mass (nsp nel : ℕ)
    (hsp : ∀ r ∈ rs, (∀ x ∈ r.reactants, x.1 < nsp) ∧ (∀ x ∈ r.products, x.1 < nsp))
    (natoms : ℕ → ℕ → ℝ) (aw mw ropnet : ℕ → ℝ)
    (hmw : ∀ k, mw k = ∑ m ∈ Finset.range nel, natoms k m * aw m)
    (hbal : ∀ r ∈ rs, ∀ m < nel, r.delta (fun k => natoms k m) = 0) :
    ∑ k ∈ Finset.range nsp, mw k * K.getNetProductionRates ropnet k = 0 := by
  simp only [hmw, Finset.sum_mul]
  rw [Finset.sum_comm]
  apply Finset.sum_eq_zero
  intro m hm
  have := balanced_conserves rs hv K hK nsp hsp (fun k => natoms k m) ropnet
    (fun r hr => hbal r hr m (Finset.mem_range.1 hm))
  calc ∑ k ∈ Finset.range nsp, natoms k m * aw m * K.getNetProductionRates ropnet k
      = aw m * ∑ k ∈ Finset.range nsp, natoms k m * K.getNetProductionRates ropnet k := by
        rw [Finset.mul_sum]; apply Finset.sum_congr rfl; intro k _; ring
    _ = 0 := by rw [this, mul_zero]

/-! ## C07 -/

/-- Detailed balance: for a reversible reaction, ideal-activity relation `c_k = c0 a_k` and
`μ_k = μ°_k + RT ln a_k`, forward over reverse rate is `exp(-ΔG/RT)`, as long as the cap `BigNumber`
on the reciprocal equilibrium constant is not reached (the cap is what is missing for the
unrestricted claim, see `detailed_balance_cap`). -/
theorem detailed_balance_partial (nsp : ℕ) (hT : ∀ r ∈ rs, r.TBOK nsp) (e : Env)
    (hct : e.ctot = ∑ k ∈ Finset.range nsp, e.physConc k) (oldR oldC : ℕ → ℝ) (R : Rop)
    (hR : K.updateROP e oldR oldC = .ok R) (i : ℕ) (r : Rxn) (hr : rs[i]? = some r)
    (hrev : r.reversible = true) (hord : r.orders = [])
    (a mu : ℕ → ℝ) (hRT : 0 < e.RT) (hc0 : 0 < e.c0) (ha : ∀ k, 0 < a k)
    (hact : ∀ k, e.actConc k = e.c0 * a k) (hmu : ∀ k, mu k = e.mu0 k + e.RT * Real.log (a k))
    (hcap : Real.exp (r.delta e.mu0 / e.RT - r.deltaN * Real.log e.c0) ≤ bigNumber) :
    R.ropf i = Real.exp (-(r.delta mu) / e.RT) * R.ropr i := by
  obtain ⟨R', hR', h⟩ := rates_of_progress rs hv K hK nsp hT e hct oldR oldC
  rw [hR] at hR'; cases hR'
  have hpos : ∀ k, 0 < e.actConc k := fun k => by rw [hact]; exact mul_pos hc0 (ha k)
  obtain ⟨-, -, h3⟩ := h i r hr
  have hcok : r.ConcOK e.actConc := ⟨fun x _ => Or.inl (hpos _), fun x _ => (hpos _).le⟩
  obtain ⟨hf, hb⟩ := h3 hcok
  have heff : r.effOrders = r.reactants := by
    rw [Rxn.effOrders, hord]
    simp
  have hpp : ∀ l : List (ℕ × ℝ), powProd l e.actConc =
      Real.exp (Real.log e.c0 * (l.map (·.2)).sum +
        ((l.map (fun x => x.2 * mu x.1)).sum - (l.map (fun x => x.2 * e.mu0 x.1)).sum) / e.RT) := by
    intro l
    induction l with
    | nil => simp [powProd]
    | cons x l ih =>
      rw [powProd, List.map_cons, List.prod_cons, ← powProd, ih, Real.rpow_def_of_pos (hpos _),
        ← Real.exp_add, hact, Real.log_mul hc0.ne' (ha _).ne']
      congr 1
      simp only [List.map_cons, List.sum_cons, hmu]
      field_simp
      ring
  rw [hf, hb hrev, heff, min_eq_left hcap, hpp, hpp]
  have hexp : Real.exp (-(r.delta mu) / e.RT) *
      (Real.exp (r.delta e.mu0 / e.RT - r.deltaN * Real.log e.c0) *
      Real.exp (Real.log e.c0 * (r.products.map (·.2)).sum +
        ((r.products.map (fun x => x.2 * mu x.1)).sum -
          (r.products.map (fun x => x.2 * e.mu0 x.1)).sum) / e.RT)) =
      Real.exp (Real.log e.c0 * (r.reactants.map (·.2)).sum +
        ((r.reactants.map (fun x => x.2 * mu x.1)).sum -
          (r.reactants.map (fun x => x.2 * e.mu0 x.1)).sum) / e.RT) := by
    rw [← Real.exp_add, ← Real.exp_add]
    congr 1
    simp only [Rxn.delta, Rxn.deltaN, mul_one]
    field_simp
    ring
  rw [← hexp]; ring

/-- Consequence: the net rate vanishes at equilibrium, and away from it has the sign of the affinity
(for a positive rate coefficient). -/
theorem detailed_balance_sign_partial (nsp : ℕ) (hT : ∀ r ∈ rs, r.TBOK nsp) (e : Env)
    (hct : e.ctot = ∑ k ∈ Finset.range nsp, e.physConc k) (oldR oldC : ℕ → ℝ) (R : Rop)
    (hR : K.updateROP e oldR oldC = .ok R) (i : ℕ) (r : Rxn) (hr : rs[i]? = some r)
    (hrev : r.reversible = true) (hord : r.orders = [])
    (a mu : ℕ → ℝ) (hRT : 0 < e.RT) (hc0 : 0 < e.c0) (ha : ∀ k, 0 < a k)
    (hact : ∀ k, e.actConc k = e.c0 * a k) (hmu : ∀ k, mu k = e.mu0 k + e.RT * Real.log (a k))
    (hcap : Real.exp (r.delta e.mu0 / e.RT - r.deltaN * Real.log e.c0) ≤ bigNumber) :
    (r.delta mu = 0 → R.ropnet i = 0) ∧
    (0 < R.ropr i → r.delta mu < 0 → 0 < R.ropnet i) ∧
    (0 < R.ropr i → 0 < r.delta mu → R.ropnet i < 0) := by
  have hb := detailed_balance_partial rs hv K hK nsp hT e hct oldR oldC R hR i r hr hrev hord a mu
    hRT hc0 ha hact hmu hcap
  obtain ⟨R', hR', h⟩ := rates_of_progress rs hv K hK nsp hT e hct oldR oldC
  rw [hR] at hR'; cases hR'
  have hnet := (h i r hr).1
  refine ⟨?_, ?_, ?_⟩
  · intro h0; rw [hnet, hb, h0]; simp
  · intro hp hlt
    have : 1 < Real.exp (-(r.delta mu) / e.RT) := Real.one_lt_exp_iff.2 (div_pos (by linarith) hRT)
    rw [hnet, hb]; nlinarith
  · intro hp hlt
    have : Real.exp (-(r.delta mu) / e.RT) < 1 := by
      rw [Real.exp_lt_one_iff]; exact div_neg_of_neg_of_pos (by linarith) hRT
    rw [hnet, hb]; nlinarith

end

/-- The hypotheses of the detailed-balance theorems hold e.g. for 2A + B ⇌ 2C with zero standard
potentials, unit activities. -/
example : ∃ (e : Env) (a mu : ℕ → ℝ), 0 < e.RT ∧ 0 < e.c0 ∧ (∀ k, 0 < a k) ∧
    (∀ k, e.actConc k = e.c0 * a k) ∧ (∀ k, mu k = e.mu0 k + e.RT * Real.log (a k)) ∧
    (e.ctot = ∑ k ∈ Finset.range 4, e.physConc k) ∧ (∀ r ∈ exampleRxns, r.TBOK 4) ∧
    Real.exp ((exampleRxns[0]).delta e.mu0 / e.RT - (exampleRxns[0]).deltaN * Real.log e.c0)
      ≤ bigNumber := by
  refine ⟨⟨fun _ => 0, 1, 1, fun k => k + 1, fun _ => 1, 4, fun _ => 1, fun _ => 1⟩,
    fun k => k + 1, fun k => Real.log (k + 1), by norm_num, by norm_num, fun k => by positivity,
    by simp, by simp, by simp, ?_, ?_⟩
  · intro r hr b hb
    simp only [exampleRxns, List.mem_cons, List.not_mem_nil, or_false] at hr
    rcases hr with rfl | rfl | rfl <;> simp at hb
    subst hb; simp
  · simp only [Rxn.delta, bigNumber, Rxn.deltaN, Real.log_one]
    simp only [mul_zero, List.map_const', List.sum_replicate, smul_zero, sub_self, zero_div, Real.exp_zero]
    exact one_le_pow₀ (by norm_num)

/-- Finding: when the reciprocal equilibrium constant exceeds the cap `BigNumber`, detailed balance is
lost: `A ⇌ B` with `μ°_B - μ°_A = RT·1000·ln 10`, at the exact equilibrium composition
(`a_A = 1`, `a_B = 10^-1000`) the net rate is positive. -/
theorem detailed_balance_cap :
    ∃ (rs : List Rxn) (K : Kin) (e : Env) (a mu : ℕ → ℝ) (R : Rop) (r : Rxn),
      (∀ r ∈ rs, r.OK) ∧ Built K rs ∧ rs[0]? = some r ∧ r.reversible = true ∧
      0 < e.RT ∧ 0 < e.c0 ∧ (∀ k, 0 < a k) ∧
      (∀ k, e.actConc k = e.c0 * a k) ∧ (∀ k, mu k = e.mu0 k + e.RT * Real.log (a k)) ∧
      K.updateROP e 0 0 = .ok R ∧ r.delta mu = 0 ∧ 0 < R.ropnet 0 := by
  let r : Rxn := ⟨[(0, 1)], [(1, 1)], [], true, none⟩
  have hv : ∀ x ∈ [r], x.OK := by
    intro x hx; simp only [List.mem_singleton] at hx; subst hx
    exact ⟨by simp [r], by simp [r], by simp [r], by simp [r], by simp [r]⟩
  obtain ⟨K, hK⟩ := kinetics_build_ok [r] hv
  let a : ℕ → ℝ := fun k => if k = 1 then (10 ^ 1000)⁻¹ else 1
  let mu0 : ℕ → ℝ := fun k => if k = 1 then Real.log (10 ^ 1000) else 0
  let e : Env := ⟨mu0, 1, 1, a, a, 1 + (10 ^ 1000)⁻¹, fun _ => 1, fun _ => 1⟩
  have ha : ∀ k, 0 < a k := by intro k; simp only [a]; split_ifs <;> positivity
  obtain ⟨R, hR, h⟩ := rates_of_progress [r] hv K hK 2
    (by intro x hx b hb; simp only [List.mem_singleton] at hx; subst hx; simp [r] at hb)
    e (by simp [e, a, Finset.sum_range_succ]) 0 0
  refine ⟨[r], K, e, a, fun k => mu0 k + 1 * Real.log (a k), R, r, hv, hK, rfl, rfl, by norm_num [e],
    by norm_num [e], ha, by simp [e], by simp [e], hR, ?_, ?_⟩
  · simp only [Rxn.delta, r, mu0, a]
    simp [Real.log_inv, -Real.log_pow]
  · obtain ⟨h1, -, h3⟩ := h 0 r rfl
    obtain ⟨hf, hb⟩ := h3 ⟨fun x _ => Or.inl (ha _), fun x _ => (ha _).le⟩
    rw [h1, hf, hb rfl]
    have e1 : powProd r.effOrders e.actConc = 1 := by simp [powProd, Rxn.effOrders, r, e, a]
    have e2 : powProd r.products e.actConc = (10 ^ 1000)⁻¹ := by simp [powProd, r, e, a]
    have e3 : r.mFactor 2 e.physConc = 1 := rfl
    rw [e1, e2, e3]
    have h4 : min (Real.exp (r.delta e.mu0 / e.RT - r.deltaN * Real.log e.c0)) bigNumber ≤ 10 ^ 300 :=
      min_le_right _ _
    have h5 : min (Real.exp (r.delta e.mu0 / e.RT - r.deltaN * Real.log e.c0)) bigNumber *
        ((10 : ℝ) ^ 1000)⁻¹ < 1 := by
      rw [← div_eq_mul_inv, div_lt_one (by positivity)]
      refine lt_of_le_of_lt h4 ?_
      exact pow_lt_pow_right₀ (by norm_num) (by norm_num)
    simp only [e, mul_one, one_mul] at h5 ⊢
    linarith

/-! ## C08 -/

/-- For each reaction with a third body the effective concentration is the efficiency-weighted sum over all
species (declared efficiency where given, default otherwise); slots of other reactions keep
their previous content; and rates of reactions without a mass-action third body are not touched. -/
theorem third_body_concentrations (rs : List Rxn) (hv : ∀ r ∈ rs, r.OK) (K : Kin) (hK : Built K rs)
    (nsp : ℕ) (hT : ∀ r ∈ rs, r.TBOK nsp) (e : Env)
    (hct : e.ctot = ∑ k ∈ Finset.range nsp, e.physConc k) (oldR oldC : ℕ → ℝ) (R : Rop)
    (hR : K.updateROP e oldR oldC = .ok R) (i : ℕ) (r : Rxn) (hr : rs[i]? = some r) :
    (∀ b, r.thirdBody = some b →
      R.concm i = ∑ k ∈ Finset.range nsp, ((b.eff.lookup k).getD b.dflt) * e.physConc k) ∧
    (r.thirdBody = none → R.concm i = oldC i) ∧
    (∀ rop rop' : ℕ → ℝ, K.processThirdBodies R.concm rop = .ok rop' →
      rop' i = rop i * match r.thirdBody with
        | some b => if b.massAction then R.concm i else 1
        | none => 1) := by
  obtain ⟨K', hK', hn, h1, h2, h3, h4, h5, h6, h7, h8⟩ := kin_addAll rs hv Kin.empty
  have hK2 := hK
  rw [Built] at hK2; rw [hK2] at hK'; cases hK'
  simp only [Kin.empty] at h8
  obtain ⟨o, ho, hoi⟩ := tb_spec rs K.tb h8 e.physConc e.ctot oldC (fun i => e.kf0 i * e.perturb i)
  rw [Kin.updateROP] at hR
  simp only [Kin.processThirdBodies, ho, Outcome.bind_ok, Outcome.pure_eq, Outcome.ok.injEq] at hR
  have hcm : R.concm = K.tb.update e.physConc e.ctot oldC := by subst hR; rfl
  have hval : ∀ b, r.thirdBody = some b →
      b.dflt * e.ctot + (b.eff.map (fun x => (x.2 - b.dflt) * e.physConc x.1)).sum =
      ∑ k ∈ Finset.range nsp, ((b.eff.lookup k).getD b.dflt) * e.physConc k := by
    intro b hb
    have htb := hT r (List.mem_of_getElem? hr) b hb
    rw [hct, third_body_sum b nsp e.physConc htb.1 htb.2]; rfl
  refine ⟨?_, ?_, ?_⟩
  · intro b hb
    rw [hcm, (hoi i r hr).1 b hb, hval b hb]
  · intro hb; rw [hcm, (hoi i r hr).2.1 hb]
  · intro rop rop' hrop
    obtain ⟨o', ho', hoi'⟩ := tb_spec rs K.tb h8 e.physConc e.ctot oldC rop
    rw [Kin.processThirdBodies, hcm, ho'] at hrop
    cases hrop
    rw [(hoi' i r hr).2.2]
    cases hb : r.thirdBody with
    | none => rfl
    | some b =>
      simp only
      rw [hcm, (hoi i r hr).1 b hb]

/-- Row `i` of the derivative multipliers of the third-body calculator: the efficiency of each species
for a reaction with a third body, zero otherwise. -/
theorem third_body_multipliers (rs : List Rxn) (hv : ∀ r ∈ rs, r.OK) (K : Kin) (hK : Built K rs)
    (nsp : ℕ) (hT : ∀ r ∈ rs, r.TBOK nsp) (i : ℕ) (r : Rxn) (hr : rs[i]? = some r) (k : ℕ) :
    K.tb.multiplier i k = match r.thirdBody with
      | some b => (b.eff.lookup k).getD b.dflt
      | none => 0 := by
  obtain ⟨K', hK', hn, h1, h2, h3, h4, h5, h6, h7, h8⟩ := kin_addAll rs hv Kin.empty
  have hK2 := hK
  rw [Built] at hK2; rw [hK2] at hK'; cases hK'
  simp only [Kin.empty] at h8
  have hent := (installAll_spec (tbList rs 0) ⟨[], [], []⟩ [] (by simp)).1
  rw [← h8, List.nil_append] at hent
  have heff : ∀ (l : List (ℕ × ℝ)) (d : ℝ), (l.map (·.1)).Nodup →
      ((l.map (fun e => (e.1, e.2 - d))).map (fun x => if x.1 = k then x.2 else 0)).sum + d =
        (l.lookup k).getD d := by
    intro l d hl
    induction l with
    | nil => simp
    | cons a l ih =>
      rw [List.map_cons, List.nodup_cons] at hl
      have ih' := ih hl.2
      rw [lookup_cons']
      simp only [List.map_cons, List.sum_cons]
      by_cases e : k = a.1
      · rw [if_pos e, if_pos e.symm]
        rw [lookup_none_of l k (by rw [e]; exact hl.1)] at ih'
        simp only [Option.getD_none, Option.getD_some] at ih' ⊢
        linarith
      · rw [if_neg e, if_neg (fun h => e h.symm), zero_add]; exact ih'
  have gen : ∀ (rs : List Rxn) (n i : ℕ), (∀ r ∈ rs, r.TBOK nsp) →
      (((tbList rs n).map (fun p => (⟨p.1, p.2.dflt, p.2.eff.map (fun e => (e.1, e.2 - p.2.dflt))⟩ : TBEntry))).map
        (fun e => if e.rxn = n + i then
          (e.eff.map (fun x => if x.1 = k then x.2 else 0)).sum + e.dflt else 0)).sum =
      match (rs[i]?).bind (·.thirdBody) with
        | some b => (b.eff.lookup k).getD b.dflt
        | none => 0 := by
    intro rs
    induction rs with
    | nil => intro n i _; simp [tbList]
    | cons a rs ih =>
      intro n i hT
      have hz : ∀ (l : List Rxn) (n m : ℕ), m < n →
          (((tbList l n).map (fun p => (⟨p.1, p.2.dflt, p.2.eff.map (fun e => (e.1, e.2 - p.2.dflt))⟩ : TBEntry))).map
          (fun e => if e.rxn = m then
            (e.eff.map (fun x => if x.1 = k then x.2 else 0)).sum + e.dflt else 0)).sum = 0 := by
        intro l
        induction l with
        | nil => intro n m _; simp [tbList]
        | cons b l ihl =>
          intro n m hm
          have := ihl (n + 1) m (by omega)
          simp only [tbList, List.zipIdx_cons, List.filterMap_cons] at this ⊢
          cases b.thirdBody with
          | none => exact this
          | some b =>
            simp only [Option.map_some, List.map_cons, List.sum_cons]
            rw [if_neg (by omega), zero_add]; exact this
      have hTa := hT a (by simp)
      have hTs : ∀ r ∈ rs, r.TBOK nsp := fun r hr => hT r (by simp [hr])
      cases i with
      | zero =>
        have h0 := hz rs (n + 1) n (by omega)
        simp only [tbList, List.zipIdx_cons, List.filterMap_cons, List.getElem?_cons_zero,
          Option.bind_some, add_zero] at h0 ⊢
        cases hb : a.thirdBody with
        | none => simpa [hb] using h0
        | some b =>
          simp only [Option.map_some, List.map_cons, List.sum_cons, if_true]
          rw [h0, add_zero, heff b.eff b.dflt (hTa b hb).1]
      | succ i =>
        have h0 := ih (n + 1) i hTs
        rw [show n + 1 + i = n + (i + 1) by omega] at h0
        simp only [tbList, List.zipIdx_cons, List.filterMap_cons, List.getElem?_cons_succ] at h0 ⊢
        rw [← h0]
        cases hb : a.thirdBody with
        | none => rfl
        | some b =>
          simp only [Option.map_some, List.map_cons, List.sum_cons]
          rw [if_neg (by omega), zero_add]
  have := gen rs 0 i hT
  rw [TBCalc.multiplier, hent]
  rw [zero_add] at this
  rw [this, hr]; rfl

end Verif.Kinetics
