import Verif.Kinetics.TempDerivProps

/-!
# C56: molar-density derivatives of the rates of progress
-/

namespace Verif.Stoich

open Verif

/-- All reaction handlers of a manager with the factor their `scale` applies. -/
noncomputable def Mgr.handlers (m : Mgr) : List (ℕ × ℝ) :=
  m.c1.map (fun c => (c.rxn, 1)) ++ m.c2.map (fun c => (c.rxn, 2)) ++
    m.c3.map (fun c => (c.rxn, 3)) ++ m.cn.map (fun c => (c.rxn, c.sumOrder))

theorem Mgr.scale_eq (m : Mgr) (R out : Vec) (factor : ℝ) :
    m.scale R out factor = m.handlers.foldl
      (fun out h => Function.update out h.1 (h.2 * R h.1 * factor)) out := by
  simp only [Mgr.handlers, List.foldl_append, List.foldl_map, Mgr.scale, C1.scale, C2.scale, C3.scale,
    CN.scale, one_mul]

/-- Sum of the declared orders. -/
noncomputable def Decl.orderSum (d : Decl) : ℝ := d.order.sum

theorem sumOrder_eq (ps : List Part) (r : ℕ) : CN.sumOrder ⟨r, ps⟩ = (ps.map (·.order)).sum := by
  have : ∀ (a : ℝ), ps.foldl (fun s p => s + p.order) a = a + (ps.map (·.order)).sum := by
    induction ps with
    | nil => intro a; simp
    | cons p ps ih => intro a; rw [List.foldl_cons, ih, List.map_cons, List.sum_cons]; ring
  rw [CN.sumOrder, this, zero_add]

theorem parts_orderSum (d : Decl) (h1 : d.order.length = d.k.length)
    (h2 : d.stoich.length = d.k.length) : (d.parts.map (·.order)).sum = d.orderSum := by
  have := parts_map_order d h1 h2 (fun _ o => o)
  rw [this, Decl.orderSum]
  congr 1
  exact List.map_snd_zip (by omega)

theorem kRep_length (ps : List Part) (h0 : ∀ p ∈ ps, 0 ≤ p.stoich) (hf : ∀ p ∈ ps, ¬ p.frac) :
    ((kRep ps).length : ℝ) = (ps.map (·.order)).sum := by
  induction ps with
  | nil => simp [kRep]
  | cons p ps ih =>
    have h1 : kRep (p :: ps) = List.replicate ⌈p.stoich⌉₊ p.ic ++ kRep ps := by simp [kRep]
    have hp := hf p (by simp)
    simp only [Part.frac, not_or, not_not] at hp
    rw [h1, List.length_append, List.length_replicate, Nat.cast_add,
      ih (fun q hq => h0 q (by simp [hq])) (fun q hq => hf q (by simp [hq])),
      ceil_eq p.stoich (h0 p (by simp)) hp.1, hp.2, List.map_cons, List.sum_cons]

theorem add_handlers (m m' : Mgr) (d : Decl) (h : m.add d = .ok m') (hv : Valid d) :
    m'.handlers.Perm ((d.rxn, d.orderSum) :: m.handlers) := by
  obtain ⟨h1, h2, -, hc⟩ := add_cases m m' d h
  have hs := parts_orderSum d h1 h2
  have hk := kRep_length d.parts (parts_nonneg d hv)
  rcases hc with ⟨e1, e2, e3, e4⟩ | ⟨hf, ⟨a, ha, e1, e2, e3, e4⟩ | ⟨a, b, ha, e1, e2, e3, e4⟩ |
    ⟨a, b, c, ha, e1, e2, e3, e4⟩⟩
  · simp only [Mgr.handlers, e1, e2, e3, e4, List.map_append, List.map_cons, List.map_nil]
    rw [sumOrder_eq, hs, ← List.append_assoc]
    exact List.perm_append_singleton _ _
  · have hl := hk hf
    rw [ha, hs] at hl
    have hl' : d.orderSum = 1 := by rw [← hl]; norm_num
    simp only [Mgr.handlers, e1, e2, e3, e4, List.map_append, List.map_cons, List.map_nil, hl']
    simp only [List.append_assoc, List.singleton_append]
    exact List.perm_middle
  · have hl := hk hf
    rw [ha, hs] at hl
    have hl' : d.orderSum = 2 := by rw [← hl]; norm_num
    simp only [Mgr.handlers, e1, e2, e3, e4, List.map_append, List.map_cons, List.map_nil, hl']
    simp only [List.append_assoc, List.singleton_append]
    rw [← List.append_assoc]
    refine List.perm_middle.trans ?_
    rw [List.append_assoc]
    exact List.Perm.refl _
  · have hl := hk hf
    rw [ha, hs] at hl
    have hl' : d.orderSum = 3 := by rw [← hl]; norm_num
    simp only [Mgr.handlers, e1, e2, e3, e4, List.map_append, List.map_cons, List.map_nil, hl']
    simp only [List.append_assoc, List.singleton_append]
    rw [← List.append_assoc, ← List.append_assoc]
    refine List.perm_middle.trans ?_
    rw [List.append_assoc, List.append_assoc]

theorem addAll_handlers (ds : List Decl) (hv : ∀ d ∈ ds, Valid d) (m m' : Mgr)
    (h : m.addAll ds = .ok m') :
    m'.handlers.Perm (ds.map (fun d => (d.rxn, d.orderSum)) ++ m.handlers) := by
  induction ds generalizing m with
  | nil => simp only [Mgr.addAll, Outcome.ok.injEq] at h; subst h; simp
  | cons d ds ih =>
    simp only [Mgr.addAll] at h
    cases hd : m.add d with
    | ok m1 =>
      rw [hd, Outcome.bind_ok] at h
      refine (ih (fun d hd => hv d (by simp [hd])) m1 h).trans ?_
      rw [List.map_cons, List.cons_append]
      exact ((add_handlers m m1 d hd (hv d (by simp))).append_left _).trans List.perm_middle
    | throw => rw [hd] at h; exact absurd h (by simp [bind, Outcome.bind])
    | ub => rw [hd] at h; exact absurd h (by simp [bind, Outcome.bind])

/-- `scale` writes, for each declared reaction, the sum of its orders times rate times factor, and leaves
all other slots alone. -/
theorem stoich_scale (ds : List Decl) (hv : ∀ d ∈ ds, Valid d) (m : Mgr)
    (hm : Mgr.empty.addAll ds = .ok m) (hnd : (ds.map (·.rxn)).Nodup) (R out : ℕ → ℝ) (factor : ℝ) :
    (∀ d ∈ ds, m.scale R out factor d.rxn = d.order.sum * R d.rxn * factor) ∧
    (∀ i, i ∉ ds.map (·.rxn) → m.scale R out factor i = out i) := by
  have hp := addAll_handlers ds hv _ m hm
  have he : Mgr.empty.handlers = [] := rfl
  rw [he, List.append_nil] at hp
  have hpm : (m.handlers.map (·.1)).Perm (ds.map (·.rxn)) := by
    have := hp.map (·.1)
    rwa [List.map_map] at this
  have hnd' : (m.handlers.map (·.1)).Nodup := hpm.nodup_iff.2 hnd
  have hu := Verif.Kinetics.foldl_update (fun h : ℕ × ℝ => h.1) (fun h => h.2 * R h.1 * factor)
    m.handlers hnd' out
  rw [Mgr.scale_eq]
  refine ⟨fun d hd => ?_, fun i hi => hu.2 i (fun h => hi (hpm.mem_iff.1 h))⟩
  have := hu.1 (d.rxn, d.orderSum) (hp.mem_iff.2 (List.mem_map.2 ⟨d, hd, rfl⟩))
  simpa [Decl.orderSum] using this

example : ∃ m, Mgr.empty.addAll [⟨0, [1, 2], [1, 1], [1, 1]⟩, ⟨1, [0, 1], [1/2, 1], [1, 1]⟩] = .ok m ∧
    m.scale (fun _ => 5) (fun _ => 0) 2 0 = 20 ∧ m.scale (fun _ => 5) (fun _ => 0) 2 1 = 15 := by
  have hv : ∀ d ∈ [(⟨0, [1, 2], [1, 1], [1, 1]⟩ : Decl), ⟨1, [0, 1], [1/2, 1], [1, 1]⟩], Valid d := by
    intro d hd
    simp only [List.mem_cons, List.not_mem_nil, or_false] at hd
    rcases hd with rfl | rfl <;> exact ⟨rfl, rfl, by simp⟩
  obtain ⟨m, hm⟩ : ∃ m, Mgr.empty.addAll [⟨0, [1, 2], [1, 1], [1, 1]⟩, ⟨1, [0, 1], [1/2, 1], [1, 1]⟩] =
      .ok m := by
    obtain ⟨m1, e1⟩ := add_isOk Mgr.empty ⟨0, [1, 2], [1, 1], [1, 1]⟩ rfl rfl
    obtain ⟨m2, e2⟩ := add_isOk m1 ⟨1, [0, 1], [1/2, 1], [1, 1]⟩ rfl rfl
    exact ⟨m2, by rw [Mgr.addAll, e1, Outcome.bind_ok, Mgr.addAll, e2, Outcome.bind_ok, Mgr.addAll]⟩
  have h := (stoich_scale _ hv m hm (by simp) (fun _ => 5) (fun _ => 0) 2).1
  refine ⟨m, hm, ?_, ?_⟩
  · have := h _ (List.mem_cons_self)
    simp only at this
    rw [this]; norm_num
  · have := h _ (List.mem_cons_of_mem _ List.mem_cons_self)
    simp only at this
    rw [this]; norm_num

end Verif.Stoich

namespace Verif.Kinetics

open Verif Verif.Stoich Filter Topology

/-! ### Third bodies -/

theorem foldlM_idx (t : TBCalc) (F : Vec → ℕ → Vec) (idx M : List ℕ)
    (h : idx.map t.rxnAt = M.map some) (out : Vec) :
    idx.foldlM (fun out j => match t.rxnAt j with
      | some ix => (.ok (F out ix) : Outcome Vec)
      | none => .ub) out = .ok (M.foldl F out) := by
  induction idx generalizing M out with
  | nil =>
    have : M = [] := by cases M with
      | nil => rfl
      | cons => simp at h
    subst this; rfl
  | cons j mi ih =>
    cases M with
    | nil => simp at h
    | cons x M =>
      simp only [List.map_cons, List.cons.injEq] at h
      rw [List.foldlM_cons, h.1]
      simp only [Outcome.bind_ok, List.foldl_cons]
      exact ih M h.2 _

theorem installAll_noMass (l : List (ℕ × ThirdBody)) (t : TBCalc) (M : List ℕ)
    (hM : t.noMassIdx.map t.rxnAt = M.map some) :
    (installAll t l).noMassIdx.map (installAll t l).rxnAt =
      (M ++ (l.filter (fun p => !p.2.massAction)).map (·.1)).map some := by
  induction l generalizing t M with
  | nil => simpa [installAll] using hM
  | cons p l ih =>
    have hold : ∀ (es : List TBEntry) (mi ni : List ℕ) (e : TBEntry), es = t.entries ++ [e] →
        t.noMassIdx.map (TBCalc.rxnAt ⟨es, mi, ni⟩) = M.map some := by
      intro es mi ni e he
      rw [← hM]
      apply List.map_congr_left
      intro j hj
      have hs : t.rxnAt j ∈ M.map some := by rw [← hM]; exact List.mem_map.2 ⟨j, hj, rfl⟩
      obtain ⟨x, _, hx⟩ := List.mem_map.1 hs
      have hlt : j < t.entries.length := by
        by_contra hge
        rw [TBCalc.rxnAt, List.getElem?_eq_none (by omega)] at hx
        simp at hx
      simp only [TBCalc.rxnAt, he]
      rw [List.getElem?_append_left hlt]
    by_cases hm : p.2.massAction
    · have h2 := ih (t.install p.1 p.2) M (by
        simp only [TBCalc.install, hm]
        exact hold _ _ _ _ rfl)
      show (installAll (t.install p.1 p.2) l).noMassIdx.map
          (installAll (t.install p.1 p.2) l).rxnAt = _
      rw [h2]; simp [hm]
    · have h2 := ih (t.install p.1 p.2) (M ++ [p.1]) (by
        simp only [TBCalc.install, hm, Bool.false_eq_true, if_false, List.map_append, List.map_cons,
          List.map_nil]
        rw [hold _ _ _ _ rfl]
        simp [TBCalc.rxnAt])
      show (installAll (t.install p.1 p.2) l).noMassIdx.map
          (installAll (t.install p.1 p.2) l).rxnAt = _
      rw [h2]; simp [hm]

theorem tbList_filter (rs : List Rxn) (q : ThirdBody → Bool) :
    (((tbList rs 0).filter (fun p => q p.2)).map (·.1)).Nodup ∧
    ∀ i r, rs[i]? = some r → (i ∈ ((tbList rs 0).filter (fun p => q p.2)).map (·.1) ↔
      ∃ b, r.thirdBody = some b ∧ q b = true) := by
  have hnd : ((tbList rs 0).map (·.1)).Nodup := by
    have hsub : ((tbList rs 0).map (·.1)).Sublist ((rs.zipIdx).map (·.2)) := by
      have gen : ∀ l : List (Rxn × ℕ), ((l.filterMap
          (fun p => p.1.thirdBody.map (fun b => (p.2, b)))).map (·.1)).Sublist (l.map (·.2)) := by
        intro l
        induction l with
        | nil => simp
        | cons a l ih =>
          rw [List.filterMap_cons]
          cases a.1.thirdBody with
          | none => exact ih.cons _
          | some b => exact ih.cons_cons _
      exact gen _
    exact (zipIdx_snd_nodup rs 0).sublist hsub
  refine ⟨hnd.sublist (List.filter_sublist.map _), ?_⟩
  intro i r hr
  rw [List.mem_map]
  constructor
  · rintro ⟨⟨j, b⟩, hp, rfl⟩
    rw [List.mem_filter] at hp
    simp only [tbList, List.mem_filterMap] at hp
    obtain ⟨⟨⟨r', i'⟩, hz, hb⟩, hq⟩ := hp
    rw [Option.map_eq_some_iff] at hb
    obtain ⟨b', hb', h⟩ := hb
    simp only [Prod.mk.injEq] at h
    obtain ⟨rfl, rfl⟩ := h
    rw [mem_zipIdx0, hr] at hz
    simp only [Option.some.injEq] at hz; subst hz
    exact ⟨b', hb', hq⟩
  · rintro ⟨b, hb, hq⟩
    refine ⟨(i, b), List.mem_filter.2 ⟨?_, hq⟩, rfl⟩
    simp only [tbList, List.mem_filterMap]
    exact ⟨(r, i), (mem_zipIdx0 _ _ _).2 hr, by simp [hb]⟩

variable {rs : List Rxn} (hv : ∀ r ∈ rs, r.OK) {K : Kin} (hK : Built K rs)

include hv hK in
/-- `scale` and `scaleM` of the third-body calculator. -/
theorem tb_scale (inp out concm : Vec) (factor : ℝ) :
    (∃ o, K.tb.scale inp out factor = .ok o ∧ ∀ i r, rs[i]? = some r →
      o i = match r.thirdBody with
        | some b => if b.massAction then factor * inp i else out i
        | none => out i) ∧
    (∃ o, K.tb.scaleM inp out concm factor = .ok o ∧ ∀ i r, rs[i]? = some r →
      o i = match r.thirdBody with
        | some b => if b.massAction then out i else factor * concm i * inp i
        | none => out i) := by
  obtain ⟨K', hK', -, -, -, -, -, -, -, -, h8⟩ := kin_addAll rs hv Kin.empty
  rw [Built] at hK; rw [hK] at hK'; cases hK'
  simp only [Kin.empty] at h8
  have hA := (installAll_spec (tbList rs 0) ⟨[], [], []⟩ [] (by simp)).2
  have hB := installAll_noMass (tbList rs 0) ⟨[], [], []⟩ [] (by simp)
  rw [← h8, List.nil_append] at hA hB
  obtain ⟨nA, mA⟩ := tbList_filter rs (·.massAction)
  obtain ⟨nB, mB⟩ := tbList_filter rs (fun b => !b.massAction)
  constructor
  · refine ⟨_, foldlM_idx K.tb (fun out ix => Function.update out ix (factor * inp ix)) _ _ hA out, ?_⟩
    intro i r hr
    have hu := foldl_update id (fun ix => factor * inp ix) _ (by rw [List.map_id]; exact nA) out
    simp only [id_eq, List.map_id] at hu
    cases hb : r.thirdBody with
    | none =>
      simp only
      exact hu.2 i (by rw [mA i r hr, hb]; simp)
    | some b =>
      simp only
      by_cases hm : b.massAction = true
      · rw [if_pos hm]
        exact hu.1 i ((mA i r hr).2 ⟨b, hb, hm⟩)
      · rw [if_neg hm]
        exact hu.2 i (by rw [mA i r hr, hb]; simp [hm])
  · refine ⟨_, foldlM_idx K.tb (fun out ix => Function.update out ix (factor * concm ix * inp ix))
      _ _ hB out, ?_⟩
    intro i r hr
    have hu := foldl_update id (fun ix => factor * concm ix * inp ix) _
      (by rw [List.map_id]; exact nB) out
    simp only [id_eq, List.map_id] at hu
    cases hb : r.thirdBody with
    | none =>
      simp only
      exact hu.2 i (by rw [mB i r hr, hb]; simp)
    | some b =>
      simp only
      by_cases hm : b.massAction = true
      · rw [if_pos hm]
        exact hu.2 i (by rw [mB i r hr, hb]; simp [hm])
      · rw [if_neg hm]
        exact hu.1 i ((mB i r hr).2 ⟨b, hb, by simp [hm]⟩)

open Classical in
/-- Result of the loop over rates depending on the third-body concentration. -/
noncomputable def dmVal (k M δ v : ℝ) : Option (ℝ → ℝ) → ℝ
  | none => 0
  | some f => if k ≠ 0 ∧ M * (1 + δ) > 0 then v * (1 / δ * (f (M * (1 + δ)) / k - 1)) / (M * (1 + δ)) else 0

theorem ddM_at (evs : List (ℕ × Option (ℝ → ℝ))) (hn : (evs.map (·.1)).Nodup) (kf concm : Vec) (δ : ℝ)
    (v : Vec) (i : ℕ) (ev : Option (ℝ → ℝ)) (he : (i, ev) ∈ evs) :
    evs.foldl (ddMStepO kf concm δ) v i = dmVal (kf i) (concm i) δ (v i) ev := by
  have hstep : ∀ (v : Vec) (j : ℕ) (ev : Option (ℝ → ℝ)),
      ddMStepO kf concm δ v (j, ev) = Function.update v j (dmVal (kf j) (concm j) δ (v j) ev) := by
    intro v j ev
    cases ev <;> rfl
  have hout : ∀ (l : List (ℕ × Option (ℝ → ℝ))) (v : Vec), i ∉ l.map (·.1) →
      l.foldl (ddMStepO kf concm δ) v i = v i := by
    intro l
    induction l with
    | nil => intros; rfl
    | cons b l ih =>
      intro v hi
      obtain ⟨j, ev⟩ := b
      rw [List.map_cons, List.mem_cons, not_or] at hi
      rw [List.foldl_cons, ih _ hi.2, hstep, Function.update_of_ne hi.1]
  induction evs generalizing v with
  | nil => simp at he
  | cons b l ih =>
    obtain ⟨j, ev'⟩ := b
    rw [List.map_cons, List.nodup_cons] at hn
    rw [List.foldl_cons]
    rcases List.mem_cons.1 he with h | h
    · cases h
      rw [hout _ _ hn.1, hstep, Function.update_self]
    · have hne : i ≠ j := by
        intro e
        apply hn.1
        rw [← e]
        exact List.mem_map.2 ⟨(i, ev), h, rfl⟩
      rw [ih hn.2 _ h, hstep, Function.update_of_ne hne]

/-- Contribution of third bodies to the density derivative of reaction `r` as computed by the code. -/
noncomputable def tbTerm (r : Rxn) (k M δ v ctot : ℝ) (ev : Option (ℝ → ℝ)) : ℝ :=
  match r.thirdBody with
  | some b => if b.massAction then v / ctot + dmVal k M δ (v / ctot) ev
    else dmVal k M δ (M * v / ctot) ev
  | none => dmVal k M δ 0 ev

include hv hK in
/-- Value of `process_ddC` for all three combinations of the settings. -/
theorem processDdC_at (m : Mgr) (inp concm kf buf : Vec) (ctot : ℝ) (evs : List (ℕ × Option (ℝ → ℝ)))
    (hn : (evs.map (·.1)).Nodup) (s : JacSettings) :
    ∃ o, K.processDdC m inp concm kf buf ctot evs s true = .ok o ∧
      ∀ i r, rs[i]? = some r → ∀ ev, (i, ev) ∈ evs →
        o i = m.scale inp (fun _ => 0) (1 / ctot) i +
          (if s.skipThird then 0
           else if s.skipFalloff then
             (match r.thirdBody with
              | some b => if b.massAction then inp i / ctot else 0
              | none => 0)
           else tbTerm r (kf i) (concm i) s.delta (inp i) ctot ev) := by
  have htb := fun inp out concm factor => tb_scale hv hK inp out concm factor
  obtain ⟨K', hK', -, -, -, -, -, -, -, -, h8⟩ := kin_addAll rs hv Kin.empty
  rw [Built] at hK; rw [hK] at hK'; cases hK'
  simp only [Kin.empty] at h8
  have hent := (installAll_spec (tbList rs 0) ⟨[], [], []⟩ [] (by simp)).1
  rw [← h8, List.nil_append] at hent
  have dm0 : ∀ k M δ ev, dmVal k M δ 0 ev = 0 := by
    intro k M δ ev
    cases ev with
    | none => rfl
    | some f =>
      simp only [dmVal]
      split <;> simp
  simp only [Kin.processDdC]
  by_cases hc : s.skipThird = true ∨ K.tb.entries = []
  · rw [if_pos hc]
    refine ⟨_, rfl, ?_⟩
    intro i r hr ev hev
    simp only [if_true]
    rcases hc with h | h
    · rw [if_pos h, add_zero]
    · have hnone : r.thirdBody = none := by
        rw [h] at hent
        have he : tbList rs 0 = [] := by
          have := hent.symm
          simpa using this
        cases hb : r.thirdBody with
        | none => rfl
        | some b =>
          exfalso
          have := ((tbList_filter rs (fun _ => true)).2 i r hr).2 ⟨b, hb, rfl⟩
          rw [he] at this
          simp at this
      split
      · rw [add_zero]
      · split
        · rw [hnone]; simp
        · rw [tbTerm, hnone]; simp only; rw [dm0, add_zero]
  · rw [if_neg hc]
    rw [not_or] at hc
    obtain ⟨⟨o1, e1, v1⟩, -⟩ := htb inp (fun _ => 0) concm (1 / ctot)
    simp only [if_true, e1, Outcome.bind_ok]
    by_cases hf : s.skipFalloff = true
    · rw [if_pos hf]
      refine ⟨_, rfl, ?_⟩
      intro i r hr ev hev
      rw [if_neg hc.1, if_pos hf, v1 i r hr]
      cases r.thirdBody with
      | none => rfl
      | some b =>
        simp only
        by_cases hm : b.massAction = true
        · rw [if_pos hm, if_pos hm]; ring
        · rw [if_neg hm, if_neg hm]
    · rw [if_neg hf]
      obtain ⟨-, o2, e2, v2⟩ := htb inp o1 concm (1 / ctot)
      rw [e2, Outcome.bind_ok]
      refine ⟨_, rfl, ?_⟩
      intro i r hr ev hev
      rw [if_neg hc.1, if_neg hf, ddM_at evs hn _ _ _ _ i ev hev, v2 i r hr, v1 i r hr, tbTerm, add_assoc]
      congr 1
      cases r.thirdBody with
      | none => simp only; rw [zero_add]
      | some b =>
        simp only
        by_cases hm : b.massAction = true
        · simp only [if_pos hm]
          rw [show 1 / ctot * inp i = inp i / ctot by ring]
        · simp only [if_neg hm]
          rw [zero_add, show 1 / ctot * concm i * inp i = concm i * inp i / ctot by ring]

/-! ### Independent description -/

/-- The evaluator delivers what the third-body dependence `f` of the rate law needs (`f'`: derivative with
respect to the third-body concentration `M`). -/
def MModels (r : Rxn) (ev : Option (ℝ → ℝ)) (f : ℝ → ℝ) (f' p M : ℝ) : Prop :=
  match r.thirdBody with
  | none => True
  | some b => if b.massAction then ev = none ∧ f' = 0
    else match ev with
      | none => f' = 0
      | some h => h = f ∧ f M ≠ 0 ∧ 0 < M ∧ (p = 1 ∨ p = 0)

theorem conc_smul (b : ThirdBody) (nsp : ℕ) (C : ℝ) (x : ℕ → ℝ) :
    b.conc nsp (fun k => C * x k) = C * b.conc nsp x := by
  simp only [ThirdBody.conc, Finset.mul_sum]
  exact Finset.sum_congr rfl fun k _ => by ring

theorem powProd_hasDerivAt (l : List (ℕ × ℝ)) (x : ℕ → ℝ) (C : ℝ) (hC : 0 < C)
    (hx : ∀ y ∈ l, 0 < x y.1) :
    HasDerivAt (fun C => powProd l (fun k => C * x k))
      ((l.map (·.2)).sum / C * powProd l (fun k => C * x k)) C := by
  induction l with
  | nil => simpa [powProd] using hasDerivAt_const C (1 : ℝ)
  | cons a l ih =>
    have ih' := ih (fun y hy => hx y (by simp [hy]))
    have hxa := hx a (by simp)
    have h1 : HasDerivAt (fun C : ℝ => C * x a.1) (x a.1) C := by
      simpa using (hasDerivAt_id' C).mul_const (x a.1)
    have h2 := h1.rpow_const (p := a.2) (Or.inl (mul_pos hC hxa).ne')
    have h3 := h2.mul ih'
    simp only [powProd, List.map_cons, List.prod_cons, List.sum_cons] at h3 ⊢
    refine h3.congr_deriv ?_
    have hp := mul_pos hC hxa
    rw [Real.rpow_sub_one hp.ne']
    field_simp

variable (g : TGas) (hTB : ∀ r ∈ rs, r.TBOK g.nsp) {oldR oldC : ℕ → ℝ}

theorem reac_scale (hv : ∀ r ∈ rs, r.OK) (hK : Built K rs) (i : ℕ) (r : Rxn) (hr : rs[i]? = some r)
    (inp : Vec) (factor : ℝ) :
    K.reac.scale inp (fun _ => 0) factor i = (r.effOrders.map (·.2)).sum * inp i * factor := by
  obtain ⟨K', hK', -, h1, -⟩ := kin_addAll rs hv Kin.empty
  rw [Built] at hK; rw [hK] at hK'; cases hK'
  simp only [Kin.empty] at h1
  have hro : r.OK := hv r (List.mem_of_getElem? hr)
  have := (stoich_scale _ (by
    intro d hd; obtain ⟨p, hp, rfl⟩ := List.mem_map.1 hd
    exact reactDecl_valid _ (hv _ (List.fst_mem_of_mem_zipIdx hp)) _) K.reac h1 (by
    rw [List.map_map]; exact zipIdx_snd_nodup rs 0) inp (fun _ => 0) factor).1 (r.reactDecl i)
    (List.mem_map.2 ⟨(r, i), (mem_zipIdx0 _ _ _).2 hr, rfl⟩)
  rw [show (r.reactDecl i).rxn = i from rfl] at this
  rw [this, Rxn.reactDecl, rvecs_eq r hro]

theorem rev_scale (hv : ∀ r ∈ rs, r.OK) (hK : Built K rs) (i : ℕ) (r : Rxn) (hr : rs[i]? = some r)
    (inp : Vec) (factor : ℝ) :
    K.revProd.scale inp (fun _ => 0) factor i =
      if r.reversible then (r.products.map (·.2)).sum * inp i * factor else 0 := by
  obtain ⟨K', hK', -, -, -, h3, -⟩ := kin_addAll rs hv Kin.empty
  rw [Built] at hK; rw [hK] at hK'; cases hK'
  simp only [Kin.empty] at h3
  have hn : ((((rs.zipIdx).filter (·.1.reversible)).map (fun p => p.1.prodDecl p.2)).map (·.rxn)).Nodup := by
    rw [List.map_map]
    exact (zipIdx_snd_nodup rs 0).sublist (List.filter_sublist.map _)
  have hs := stoich_scale _ (by
    intro d hd; obtain ⟨p, hp, rfl⟩ := List.mem_map.1 hd
    exact prodDecl_valid _ (hv _ (List.fst_mem_of_mem_zipIdx (List.mem_filter.1 hp).1)) _) K.revProd h3 hn
    inp (fun _ => 0) factor
  by_cases hrev : r.reversible = true
  · rw [if_pos hrev]
    have := hs.1 (r.prodDecl i)
      (List.mem_map.2 ⟨(r, i), List.mem_filter.2 ⟨(mem_zipIdx0 _ _ _).2 hr, hrev⟩, rfl⟩)
    rw [show (r.prodDecl i).rxn = i from rfl] at this
    rw [this]; rfl
  · rw [if_neg hrev]
    apply hs.2
    rw [List.map_map, List.mem_map]
    rintro ⟨⟨r', j⟩, hp, h⟩
    rw [List.mem_filter, mem_zipIdx0] at hp
    have hj : j = i := h
    subst hj
    rw [hr] at hp
    have := hp.1; simp only [Option.some.injEq] at this; subst this
    exact hrev hp.2

theorem reac_fac_value (hv : ∀ r ∈ rs, r.OK) (hK : Built K rs) (i : ℕ) (r : Rxn)
    (hr : rs[i]? = some r) (c : ℕ → ℝ) (hc : ∀ x ∈ r.effOrders, 0 < c x.1) :
    K.reac.fac c i = powProd r.effOrders c := by
  obtain ⟨K', hK', -, h1, -⟩ := kin_addAll rs hv Kin.empty
  rw [Built] at hK; rw [hK] at hK'; cases hK'
  simp only [Kin.empty] at h1
  have hro : r.OK := hv r (List.mem_of_getElem? hr)
  have fr := filter_map_decl rs.zipIdx (fun r i => r.reactDecl i) (fun _ _ => rfl) i
  rw [filter_zipIdx_some rs i r hr] at fr
  rw [fac_row _ _ h1, fr]
  simp only [List.map_cons, List.map_nil, List.prod_singleton]
  have hvd := reactDecl_valid r hro i
  have hz := reactDecl_order_zip r hro i
  rw [decl_fac_eq _ c (parts_nonneg _ hvd) (parts_adm _ hvd c ?_),
    parts_map_order _ hvd.order_len hvd.stoich_len (fun i o => c i ^ o), hz]
  · rfl
  · intro x hx
    rw [hz] at hx
    exact Or.inl (hc x hx)

theorem rev_fac_value (hv : ∀ r ∈ rs, r.OK) (hK : Built K rs) (i : ℕ) (r : Rxn)
    (hr : rs[i]? = some r) (hrev : r.reversible = true) (c : ℕ → ℝ)
    (hc : ∀ x ∈ r.products, 0 < c x.1) :
    K.revProd.fac c i = powProd r.products c := by
  obtain ⟨K', hK', -, -, -, h3, -⟩ := kin_addAll rs hv Kin.empty
  rw [Built] at hK; rw [hK] at hK'; cases hK'
  simp only [Kin.empty] at h3
  have hro : r.OK := hv r (List.mem_of_getElem? hr)
  have fr := filter_map_decl (rs.zipIdx.filter (·.1.reversible)) (fun r i => r.prodDecl i)
    (fun _ _ => rfl) i
  rw [filter_rev rs i r hr, hrev] at fr
  simp only [if_true] at fr
  rw [fac_row _ _ h3, fr]
  simp only [List.map_cons, List.map_nil, List.prod_singleton]
  have hvd := prodDecl_valid r hro i
  have hz : (r.prodDecl i).k.zip (r.prodDecl i).order = r.products := zip_map _
  rw [decl_fac_eq _ c (parts_nonneg _ hvd) (parts_adm _ hvd c ?_),
    parts_map_order _ hvd.order_len hvd.stoich_len (fun i o => c i ^ o), hz]
  · rfl
  · intro x hx
    rw [hz] at hx
    exact Or.inl (hc x hx)

/-- Third-body part of the density derivative. -/
theorem tbTerm_limit (i : ℕ) (r : Rxn) (hr : rs[i]? = some r) (C : ℝ) (hC : 0 < C) (x : ℕ → ℝ)
    (f : ℝ → ℝ) (f' p : ℝ) (hf : HasDerivAt f f' (g.M rs i (fun k => C * x k)))
    (ev : Option (ℝ → ℝ)) (hm : MModels r ev f f' p (g.M rs i (fun k => C * x k))) (w : ℝ) :
    ∃ d, HasDerivAt (fun C => f (g.M rs i (fun k => C * x k)) * r.mFactor g.nsp (fun k => C * x k)) d C ∧
      ∀ concm, (∀ b, r.thirdBody = some b → concm = b.conc g.nsp (fun k => C * x k)) →
      Tendsto (fun δ => tbTerm r (f (g.M rs i (fun k => C * x k)) * p) concm δ
        (f (g.M rs i (fun k => C * x k)) * p * r.mFactor g.nsp (fun k => C * x k) * w) C ev)
        (𝓝[≠] 0) (𝓝 (d * p * w)) := by
  have hMeq : ∀ b, r.thirdBody = some b → ∀ C, g.M rs i (fun k => C * x k) = C * b.conc g.nsp x := by
    intro b hb C
    simp only [TGas.M, hr, Option.bind_some, hb, conc_smul]
  cases hb : r.thirdBody with
  | none =>
    have hM : ∀ C, g.M rs i (fun k => C * x k) = 0 := by
      intro C
      simp only [TGas.M, hr, Option.bind_some, hb]
    refine ⟨0, ?_, ?_⟩
    · simp only [hM, Rxn.mFactor, hb]
      exact hasDerivAt_const _ _
    · intro concm _
      simp only [tbTerm, hb, zero_mul]
      refine tendsto_const_nhds.congr fun δ => ?_
      cases ev with
      | none => rfl
      | some h => simp only [dmVal]; split <;> simp
  | some b =>
    have hMb := hMeq b hb
    have h1 : HasDerivAt (fun C : ℝ => C * b.conc g.nsp x) (b.conc g.nsp x) C := by
      simpa using (hasDerivAt_id' C).mul_const (b.conc g.nsp x)
    rw [hMb] at hf hm
    have h2 : HasDerivAt (fun C => f (C * b.conc g.nsp x)) (f' * b.conc g.nsp x) C := hf.comp C h1
    simp only [MModels, hb] at hm
    simp only [hMb, tbTerm, Rxn.mFactor, hb, conc_smul]
    by_cases hma : b.massAction = true
    · rw [if_pos hma] at hm
      obtain ⟨rfl, rfl⟩ := hm
      simp only [if_pos hma]
      refine ⟨_, h2.mul h1, ?_⟩
      intro concm _
      simp only [dmVal]
      have : ∀ δ : ℝ, f (C * b.conc g.nsp x) * p * (C * b.conc g.nsp x) * w / C + 0 =
          (0 * b.conc g.nsp x * (C * b.conc g.nsp x) + f (C * b.conc g.nsp x) * b.conc g.nsp x) * p * w := by
        intro δ; field_simp; ring
      exact tendsto_const_nhds.congr fun δ => (this δ).symm
    · rw [if_neg hma] at hm
      simp only [if_neg hma, mul_one]
      refine ⟨_, h2, ?_⟩
      intro concm hcm
      rw [hcm b rfl]
      cases ev with
      | none =>
        have hm' : f' = 0 := hm
        simp [dmVal, hm']
      | some h =>
        obtain ⟨rfl, h0, hM, rfl | rfl⟩ := hm
        · set M := C * b.conc g.nsp x with hMdef
          have hl := ddM_limit h M f' (M * (h M * w) / C) hM hf h0
          have e : M * (h M * w) / C / h M * f' = f' * b.conc g.nsp x * 1 * w := by
            rw [hMdef] at h0 ⊢
            field_simp
          rw [e] at hl
          refine hl.congr' ?_
          have hev : ∀ᶠ δ : ℝ in 𝓝[≠] 0, -1 < δ :=
            nhdsWithin_le_nhds (eventually_gt_nhds (by norm_num))
          filter_upwards [hev] with δ hδ
          simp only [dmVal, mul_one]
          rw [if_pos ⟨h0, mul_pos hM (by linarith)⟩]
        · simp [dmVal]

include hv hK hTB in
/-- Forward rates: the result tends to the derivative with respect to molar density at constant
temperature, pressure and mole fractions.  Missing: multipliers other than 0 and 1 for rates that depend on the
third-body concentration (see `fall_multiplier_diverges` in C43), zero concentrations of participants. -/
theorem fwd_ddC_limit_partial (evs : List (ℕ × Option (ℝ → ℝ))) (hn : (evs.map (·.1)).Nodup) (T P : ℝ)
    (x : ℕ → ℝ) (hsum : ∑ k ∈ Finset.range g.nsp, x k = 1) (C : ℝ) (hC : 0 < C) (buf : Vec)
    (Rf : ℝ → Rop) (hRf : ∀ C, K.updateROP (g.env rs T P (fun k => C * x k)) oldR oldC = .ok (Rf C))
    (i : ℕ) (r : Rxn) (hr : rs[i]? = some r) (hx : ∀ y ∈ r.effOrders, 0 < x y.1)
    (ev : Option (ℝ → ℝ)) (he : (i, ev) ∈ evs) (f' : ℝ)
    (hf : HasDerivAt (g.law i T P) f' (g.M rs i (fun k => C * x k)))
    (hm : MModels r ev (g.law i T P) f' (g.perturb i) (g.M rs i (fun k => C * x k))) :
    ∃ (d : ℝ) (o : ℝ → Vec), HasDerivAt (fun C => (Rf C).ropf i) d C ∧
      (∀ δ, K.processDdC K.reac (Rf C).ropf (Rf C).concm (Rf C).rfn buf
        (∑ k ∈ Finset.range g.nsp, C * x k) evs ⟨false, false, δ⟩ true = .ok (o δ)) ∧
      Tendsto (fun δ => o δ i) (𝓝[≠] 0) (𝓝 d) := by
  have hval := fun C => trop_value hv hK g hTB T P _ (Rf C) (hRf C) i r hr
  have hcm := (rop_fields rs hv K hK g.nsp hTB _ rfl oldR oldC (Rf C) (hRf C) i r hr).2.1
  have hctot : ∑ k ∈ Finset.range g.nsp, C * x k = C := by rw [← Finset.mul_sum, hsum, mul_one]
  obtain ⟨d1, hd1, lim⟩ := tbTerm_limit g i r hr C hC x _ f' (g.perturb i) hf ev hm
    (powProd r.effOrders (fun k => C * x k))
  have hpd := powProd_hasDerivAt r.effOrders x C hC hx
  choose o ho hoi using fun δ => processDdC_at hv hK K.reac (Rf C).ropf (Rf C).concm (Rf C).rfn buf
    (∑ k ∈ Finset.range g.nsp, C * x k) evs hn ⟨false, false, δ⟩
  have hrC : (Rf C).ropf i = g.law i T P (g.M rs i (fun k => C * x k)) * g.perturb i *
      r.mFactor g.nsp (fun k => C * x k) * powProd r.effOrders (fun k => C * x k) := by
    rw [(hval C).2.1, reac_fac_value hv hK i r hr _ (fun y hy => mul_pos hC (hx y hy))]; ring
  refine ⟨(r.effOrders.map (·.2)).sum * (Rf C).ropf i * (1 / C) +
    d1 * g.perturb i * powProd r.effOrders (fun k => C * x k), o, ?_, ho, ?_⟩
  · have hprod := ((hd1.mul_const (g.perturb i)).mul hpd)
    have hev : (fun C => (Rf C).ropf i) =ᶠ[𝓝 C] fun C => g.law i T P (g.M rs i (fun k => C * x k)) *
        r.mFactor g.nsp (fun k => C * x k) * g.perturb i * powProd r.effOrders (fun k => C * x k) := by
      filter_upwards [eventually_gt_nhds hC] with D hD
      rw [(hval D).2.1, reac_fac_value hv hK i r hr _ (fun y hy => mul_pos hD (hx y hy))]
      ring
    refine (hprod.congr_of_eventuallyEq hev).congr_deriv ?_
    rw [hrC]
    ring
  · have h := (lim _ hcm).const_add ((r.effOrders.map (·.2)).sum * (Rf C).ropf i * (1 / C))
    refine h.congr fun δ => ?_
    rw [hoi δ i r hr ev he, reac_scale hv hK i r hr, hctot, (hval C).1, ← hrC]
    simp only [Bool.false_eq_true, if_false]

include hv hK hTB in
/-- Reverse rates likewise. -/
theorem rev_ddC_limit_partial (evs : List (ℕ × Option (ℝ → ℝ))) (hn : (evs.map (·.1)).Nodup) (T P : ℝ)
    (hT : 0 < T) (hP : 0 < P) (hP0 : 0 < g.P0) (hgR : 0 < g.R)
    (x : ℕ → ℝ) (hsum : ∑ k ∈ Finset.range g.nsp, x k = 1) (C : ℝ) (hC : 0 < C) (buf : Vec)
    (Rf : ℝ → Rop) (hRf : ∀ C, K.updateROP (g.env rs T P (fun k => C * x k)) oldR oldC = .ok (Rf C))
    (i : ℕ) (r : Rxn) (hr : rs[i]? = some r) (hx : ∀ y ∈ r.products, 0 < x y.1)
    (ev : Option (ℝ → ℝ)) (he : (i, ev) ∈ evs) (f' : ℝ)
    (hf : HasDerivAt (g.law i T P) f' (g.M rs i (fun k => C * x k)))
    (hm : MModels r ev (g.law i T P) f' (g.perturb i) (g.M rs i (fun k => C * x k))) :
    ∃ (d : ℝ) (o : ℝ → Vec), HasDerivAt (fun C => (Rf C).ropr i) d C ∧
      (∀ δ, K.processDdC K.revProd (Rf C).ropr (Rf C).concm (Rf C).rfn buf
        (∑ k ∈ Finset.range g.nsp, C * x k) evs ⟨false, false, δ⟩ true = .ok (o δ)) ∧
      Tendsto (fun δ => o δ i) (𝓝[≠] 0) (𝓝 d) := by
  have hval := fun C => trop_value hv hK g hTB T P _ (Rf C) (hRf C) i r hr
  have hrk := fun C => rkcn_ideal hv hK g hTB T P hT hP hP0 hgR _ (Rf C) (hRf C) i r hr
  have hcm := (rop_fields rs hv K hK g.nsp hTB _ rfl oldR oldC (Rf C) (hRf C) i r hr).2.1
  have hctot : ∑ k ∈ Finset.range g.nsp, C * x k = C := by rw [← Finset.mul_sum, hsum, mul_one]
  choose o ho hoi using fun δ => processDdC_at hv hK K.revProd (Rf C).ropr (Rf C).concm (Rf C).rfn buf
    (∑ k ∈ Finset.range g.nsp, C * x k) evs hn ⟨false, false, δ⟩
  by_cases hrev : r.reversible = true
  · set κ := min (Real.exp (g.lnRkc r T)) bigNumber with hκ
    have hkap : ∀ C, (Rf C).rkcn i = κ := fun C => by rw [hrk C, if_pos hrev]
    obtain ⟨d1, hd1, lim⟩ := tbTerm_limit g i r hr C hC x _ f' (g.perturb i) hf ev hm
      (κ * powProd r.products (fun k => C * x k))
    have hpd := (powProd_hasDerivAt r.products x C hC hx).const_mul κ
    have hrC : (Rf C).ropr i = g.law i T P (g.M rs i (fun k => C * x k)) * g.perturb i *
        r.mFactor g.nsp (fun k => C * x k) * (κ * powProd r.products (fun k => C * x k)) := by
      rw [(hval C).2.2.1, rev_fac_value hv hK i r hr hrev _ (fun y hy => mul_pos hC (hx y hy)), hkap]
      ring
    refine ⟨(r.products.map (·.2)).sum * (Rf C).ropr i * (1 / C) +
      d1 * g.perturb i * (κ * powProd r.products (fun k => C * x k)), o, ?_, ho, ?_⟩
    · have hprod := ((hd1.mul_const (g.perturb i)).mul hpd)
      have hev : (fun C => (Rf C).ropr i) =ᶠ[𝓝 C] fun C => g.law i T P (g.M rs i (fun k => C * x k)) *
          r.mFactor g.nsp (fun k => C * x k) * g.perturb i *
          (κ * powProd r.products (fun k => C * x k)) := by
        filter_upwards [eventually_gt_nhds hC] with D hD
        rw [(hval D).2.2.1, rev_fac_value hv hK i r hr hrev _ (fun y hy => mul_pos hD (hx y hy)), hkap]
        ring
      refine (hprod.congr_of_eventuallyEq hev).congr_deriv ?_
      rw [hrC]
      ring
    · have h := (lim _ hcm).const_add ((r.products.map (·.2)).sum * (Rf C).ropr i * (1 / C))
      refine h.congr fun δ => ?_
      rw [hoi δ i r hr ev he, rev_scale hv hK i r hr, if_pos hrev, hctot, (hval C).1, ← hrC]
      simp only [Bool.false_eq_true, if_false]
  · have h0 : ∀ C, (Rf C).ropr i = 0 := by
      intro C
      rw [(hval C).2.2.1, hrk C, if_neg hrev]; ring
    refine ⟨0, o, ?_, ho, ?_⟩
    · rw [show (fun C => (Rf C).ropr i) = fun _ => 0 from funext h0]
      exact hasDerivAt_const _ _
    · refine tendsto_const_nhds.congr fun δ => ?_
      rw [hoi δ i r hr ev he, rev_scale hv hK i r hr, if_neg hrev, h0]
      simp only [Bool.false_eq_true, if_false, tbTerm]
      have dm0 : ∀ k M δ ev, dmVal k M δ 0 ev = 0 := by
        intro k M δ ev
        cases ev with
        | none => rfl
        | some f => simp only [dmVal]; split <;> simp
      cases r.thirdBody with
      | none => simp [dm0]
      | some b => simp [dm0]

include hv hK in
/-- With third bodies skipped the result is exactly (sum of orders) × rate / density; with only the
falloff part skipped, mass-action third bodies count as one more order. -/
theorem ddC_skip (evs : List (ℕ × Option (ℝ → ℝ))) (hn : (evs.map (·.1)).Nodup) (ropf concm rfn buf : Vec)
    (ctot δ : ℝ) (skipF : Bool) (i : ℕ) (r : Rxn) (hr : rs[i]? = some r) (ev : Option (ℝ → ℝ))
    (he : (i, ev) ∈ evs) :
    (∃ o, K.processDdC K.reac ropf concm rfn buf ctot evs ⟨true, skipF, δ⟩ true = .ok o ∧
      o i = (r.effOrders.map (·.2)).sum * ropf i / ctot) ∧
    (∀ b, r.thirdBody = some b →
      ∃ o, K.processDdC K.reac ropf concm rfn buf ctot evs ⟨false, true, δ⟩ true = .ok o ∧
      o i = ((r.effOrders.map (·.2)).sum + if b.massAction then 1 else 0) * ropf i / ctot) := by
  constructor
  · obtain ⟨o, ho, hoi⟩ := processDdC_at hv hK K.reac ropf concm rfn buf ctot evs hn ⟨true, skipF, δ⟩
    refine ⟨o, ho, ?_⟩
    rw [hoi i r hr ev he, reac_scale hv hK i r hr]
    simp only [if_true]; ring
  · intro b hb
    obtain ⟨o, ho, hoi⟩ := processDdC_at hv hK K.reac ropf concm rfn buf ctot evs hn ⟨false, true, δ⟩
    refine ⟨o, ho, ?_⟩
    rw [hoi i r hr ev he, reac_scale hv hK i r hr, hb]
    simp only [if_true, Bool.false_eq_true, if_false]
    by_cases hm : b.massAction = true
    · rw [if_pos hm, if_pos hm]; ring
    · rw [if_neg hm, if_neg hm]; ring

include hv hK hTB in
/-- Forward rate constants (`getFwdRateConstants_ddC`, no mass action): the old buffer content has no
influence.  Every reaction without third body must belong to an evaluator without third-body
dependence. -/
theorem const_ddC_limit_partial (evs : List (ℕ × Option (ℝ → ℝ))) (hn : (evs.map (·.1)).Nodup) (T P : ℝ)
    (x : ℕ → ℝ) (hsum : ∑ k ∈ Finset.range g.nsp, x k = 1) (C : ℝ) (hC : 0 < C) (buf : Vec)
    (Rf : ℝ → Rop) (hRf : ∀ C, K.updateROP (g.env rs T P (fun k => C * x k)) oldR oldC = .ok (Rf C))
    (i : ℕ) (r : Rxn) (hr : rs[i]? = some r)
    (ev : Option (ℝ → ℝ)) (he : (i, ev) ∈ evs) (hnone : r.thirdBody = none → ev = none) (f' : ℝ)
    (hf : HasDerivAt (g.law i T P) f' (g.M rs i (fun k => C * x k)))
    (hm : MModels r ev (g.law i T P) f' (g.perturb i) (g.M rs i (fun k => C * x k))) :
    ∃ (d : ℝ) (o : ℝ → Vec), HasDerivAt (fun C => (Rf C).rfn i) d C ∧
      (∀ δ, K.processDdC K.reac (Rf C).rfn (Rf C).concm (Rf C).rfn buf
        (∑ k ∈ Finset.range g.nsp, C * x k) evs ⟨false, false, δ⟩ false = .ok (o δ)) ∧
      Tendsto (fun δ => o δ i) (𝓝[≠] 0) (𝓝 d) := by
  have hval := fun C => trop_value hv hK g hTB T P _ (Rf C) (hRf C) i r hr
  have hcm := (rop_fields rs hv K hK g.nsp hTB _ rfl oldR oldC (Rf C) (hRf C) i r hr).2.1
  have hctot : ∑ k ∈ Finset.range g.nsp, C * x k = C := by rw [← Finset.mul_sum, hsum, mul_one]
  have htb := fun inp out concm factor => tb_scale hv hK inp out concm factor
  have hent : K.tb.entries = [] → r.thirdBody = none := by
    obtain ⟨K', hK', -, -, -, -, -, -, -, -, h8⟩ := kin_addAll rs hv Kin.empty
    rw [Built] at hK; rw [hK] at hK'; cases hK'
    simp only [Kin.empty] at h8
    have hent := (installAll_spec (tbList rs 0) ⟨[], [], []⟩ [] (by simp)).1
    rw [← h8, List.nil_append] at hent
    intro h
    rw [h] at hent
    have he : tbList rs 0 = [] := by simpa using hent.symm
    cases hb : r.thirdBody with
    | none => rfl
    | some b =>
      exfalso
      have := ((tbList_filter rs (fun _ => true)).2 i r hr).2 ⟨b, hb, rfl⟩
      rw [he] at this
      simp at this
  set M := g.M rs i (fun k => C * x k) with hMdef
  have hMd : HasDerivAt (fun C => g.M rs i (fun k => C * x k)) (M / C) C := by
    cases hb : r.thirdBody with
    | none =>
      simp only [hMdef, TGas.M, hr, Option.bind_some, hb, zero_div]
      exact hasDerivAt_const _ _
    | some b =>
      simp only [hMdef, TGas.M, hr, Option.bind_some, hb, conc_smul]
      have h1 : HasDerivAt (fun C : ℝ => C * b.conc g.nsp x) (b.conc g.nsp x) C := by
        simpa using (hasDerivAt_id' C).mul_const (b.conc g.nsp x)
      refine h1.congr_deriv ?_
      field_simp
  have hder : HasDerivAt (fun C => (Rf C).rfn i) (f' * (M / C) * g.perturb i) C := by
    rw [funext fun C => (hval C).1]
    exact (HasDerivAt.comp C hf hMd).mul_const _
  have hzero : r.thirdBody = none → M = 0 := by
    intro h
    simp only [hMdef, TGas.M, hr, Option.bind_some, h]
  by_cases hc : K.tb.entries = []
  · refine ⟨_, fun _ => fun _ => 0, hder, ?_, ?_⟩
    · intro δ
      simp only [Kin.processDdC, Bool.false_eq_true, false_or, if_false, if_pos hc]
      rfl
    · rw [hzero (hent hc)]; simp
  · choose o2 e2 v2 using fun δ : ℝ => (htb (Rf C).rfn buf (Rf C).concm
      (1 / ∑ k ∈ Finset.range g.nsp, C * x k)).2
    refine ⟨_, fun δ => fun j => (0 : ℝ) + evs.foldl (ddMStepO (Rf C).rfn (Rf C).concm δ) (o2 δ) j, hder,
      ?_, ?_⟩
    · intro δ
      simp only [Kin.processDdC, Bool.false_eq_true, false_or, if_false, if_neg hc, Outcome.pure_eq,
        Outcome.bind_ok, e2 δ]
    · have hv' : ∀ δ, (0 : ℝ) + evs.foldl (ddMStepO (Rf C).rfn (Rf C).concm δ) (o2 δ) i =
          dmVal ((Rf C).rfn i) ((Rf C).concm i) δ (o2 δ i) ev := fun δ => by
        rw [zero_add, ddM_at evs hn _ _ _ _ i ev he]
      simp only [hv']
      cases hb : r.thirdBody with
      | none =>
        rw [hnone hb, hzero hb]
        simp [dmVal]
      | some b =>
        simp only [MModels, hb] at hm
        have hMb : M = b.conc g.nsp (fun k => C * x k) := by
          simp only [hMdef, TGas.M, hr, Option.bind_some, hb]
        have hcb : (Rf C).concm i = M := by rw [hcm b hb, hMb]; rfl
        by_cases hma : b.massAction = true
        · rw [if_pos hma] at hm
          obtain ⟨rfl, rfl⟩ := hm
          simp [dmVal]
        · rw [if_neg hma] at hm
          have ho2 : ∀ δ, o2 δ i = M * (Rf C).rfn i / C := by
            intro δ
            rw [v2 δ i r hr, hb]
            simp only [if_neg hma]
            rw [hctot, hcb]; ring
          simp only [ho2, hcb]
          cases ev with
          | none =>
            have hm' : f' = 0 := hm
            simp [dmVal, hm']
          | some h =>
            obtain ⟨rfl, h0, hM, hp⟩ := hm
            rcases hp with hp | hp
            · have hl := ddM_limit _ M f' (M * (g.law i T P M) / C) hM hf h0
              have e : M * (g.law i T P M) / C / g.law i T P M * f' = f' * (M / C) * g.perturb i := by
                rw [hp]; field_simp
              rw [e] at hl
              refine hl.congr' ?_
              have hev : ∀ᶠ δ : ℝ in 𝓝[≠] 0, -1 < δ :=
                nhdsWithin_le_nhds (eventually_gt_nhds (by norm_num))
              filter_upwards [hev] with δ hδ
              have hk : (Rf C).rfn i = g.law i T P M := by rw [(hval C).1, hp, mul_one]
              simp only [dmVal]
              rw [hk, if_pos ⟨h0, mul_pos hM (by linarith)⟩]
            · have hk : (Rf C).rfn i = 0 := by rw [(hval C).1, hp, mul_zero]
              simp [dmVal, hk, hp]

end Verif.Kinetics
