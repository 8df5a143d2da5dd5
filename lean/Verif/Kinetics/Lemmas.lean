import Verif.Kinetics.Spec

/-! # Helper lemmas for the kinetics properties -/

namespace Verif.Kinetics

open Verif Verif.Stoich

/-! ### The loop over reaction orders -/

/-- Orders after overriding. -/
noncomputable def override (os : List (ℕ × ℝ)) (x : ℕ × ℝ) : ℕ × ℝ :=
  (x.1, (os.lookup x.1).getD x.2)

theorem set_idxOf (L : List (ℕ × ℝ)) (a : ℕ) (b : ℝ) (hn : (L.map (·.1)).Nodup) :
    (L.map (·.2)).set ((L.map (·.1)).idxOf a) b =
      (L.map (fun x => if x.1 = a then (x.1, b) else x)).map (·.2) := by
  induction L with
  | nil => simp
  | cons x L ih =>
    simp only [List.map_cons, List.nodup_cons] at hn
    by_cases e : x.1 = a
    · subst e
      have hL : L.map (fun y => if y.1 = x.1 then (y.1, b) else y) = L := by
        conv_rhs => rw [← List.map_id L]
        apply List.map_congr_left
        intro y hy
        have : y.1 ≠ x.1 := fun h => hn.1 (by rw [← h]; exact List.mem_map.2 ⟨y, hy, rfl⟩)
        simp [this]
      simp only [List.map_cons, List.idxOf_cons_self, List.set_cons_zero, if_true]
      rw [hL]
    · rw [List.map_cons, List.map_cons, List.idxOf_cons_ne _ e, List.set_cons_succ, ih hn.2]
      simp [e]

theorem lookup_cons' (o : ℕ × ℝ) (os : List (ℕ × ℝ)) (a : ℕ) :
    (o :: os).lookup a = if a = o.1 then some o.2 else os.lookup a := by
  obtain ⟨k, b⟩ := o
  rw [List.lookup_cons]
  by_cases e : a = k
  · simp [e]
  · have : (a == k) = false := by simpa using e
    simp [this, e]

theorem lookup_none_of (os : List (ℕ × ℝ)) (a : ℕ) (h : a ∉ os.map (·.1)) : os.lookup a = none := by
  induction os with
  | nil => rfl
  | cons o os ih =>
    simp only [List.map_cons, List.mem_cons, not_or] at h
    rw [lookup_cons', if_neg h.1]; exact ih h.2

theorem rvecs_fold (os : List (ℕ × ℝ)) (L : List (ℕ × ℝ)) (S : List ℝ)
    (hn : (L.map (·.1)).Nodup) (ho : (os.map (·.1)).Nodup) (hS : S.length = L.length) :
    ∃ m, os.foldl RVecs.setOrder ⟨L.map (·.1), S, L.map (·.2)⟩ =
      ⟨(L.map (override os) ++ os.filter (fun o => o.1 ∉ L.map (·.1))).map (·.1),
        S ++ List.replicate m 0,
        (L.map (override os) ++ os.filter (fun o => o.1 ∉ L.map (·.1))).map (·.2)⟩ ∧
      m = (os.filter (fun o => o.1 ∉ L.map (·.1))).length := by
  induction os generalizing L S with
  | nil =>
    refine ⟨0, ?_, rfl⟩
    have : L.map (override []) = L := by
      conv_rhs => rw [← List.map_id L]
      rfl
    simp [this]
  | cons o os ih =>
    simp only [List.map_cons, List.nodup_cons] at ho
    by_cases hmem : o.1 ∈ L.map (·.1)
    · have hkeys : (L.map (fun x => if x.1 = o.1 then (x.1, o.2) else x)).map (·.1) = L.map (·.1) := by
        rw [List.map_map]; apply List.map_congr_left; intro x _
        by_cases e : x.1 = o.1 <;> simp [e]
      have hstep : RVecs.setOrder ⟨L.map (·.1), S, L.map (·.2)⟩ o =
          ⟨(L.map (fun x => if x.1 = o.1 then (x.1, o.2) else x)).map (·.1), S,
            (L.map (fun x => if x.1 = o.1 then (x.1, o.2) else x)).map (·.2)⟩ := by
        rw [RVecs.setOrder, if_pos hmem, hkeys, ← set_idxOf L o.1 o.2 hn]
      rw [List.foldl_cons, hstep]
      obtain ⟨m, h1, h2⟩ := ih (L.map (fun x => if x.1 = o.1 then (x.1, o.2) else x)) S
        (by rw [hkeys]; exact hn) ho.2 (by simpa using hS)
      rw [h1]
      have hov : (L.map (fun x => if x.1 = o.1 then (x.1, o.2) else x)).map (override os) =
          L.map (override (o :: os)) := by
        rw [List.map_map]; apply List.map_congr_left; intro x _
        by_cases e : x.1 = o.1
        · simp only [Function.comp_apply, e, if_true, override, lookup_cons']
          rw [lookup_none_of os o.1 ho.1]; rfl
        · simp [e, override, lookup_cons']
      rw [hov, hkeys]
      rw [hkeys] at h2
      rw [List.filter_cons_of_neg (by simpa using hmem)]
      exact ⟨m, rfl, h2⟩
    · have hstep : RVecs.setOrder ⟨L.map (·.1), S, L.map (·.2)⟩ o =
          ⟨(L ++ [o]).map (·.1), S ++ [0], (L ++ [o]).map (·.2)⟩ := by
        rw [RVecs.setOrder, if_neg hmem]; simp
      rw [List.foldl_cons, hstep]
      obtain ⟨m, h1, h2⟩ := ih (L ++ [o]) (S ++ [0])
        (by rw [List.map_append, List.nodup_append]
            refine ⟨hn, by simp, ?_⟩
            intro a ha b hb; simp at hb; subst hb; intro h; exact hmem (h ▸ ha)) ho.2 (by simp [hS])
      rw [h1]
      have hov : (L ++ [o]).map (override os) ++ os.filter (fun x => x.1 ∉ (L ++ [o]).map (·.1)) =
          L.map (override (o :: os)) ++ (o :: os).filter (fun x => x.1 ∉ L.map (·.1)) := by
        rw [List.filter_cons_of_pos (by simpa using hmem), List.map_append, List.append_assoc]
        congr 1
        · apply List.map_congr_left; intro x hx
          have : x.1 ≠ o.1 := fun h => hmem (by rw [← h]; exact List.mem_map.2 ⟨x, hx, rfl⟩)
          simp [override, lookup_cons', this]
        · simp only [List.map_cons, List.map_nil, List.cons_append, List.nil_append]
          congr 1
          · simp only [override, lookup_none_of os o.1 ho.1]; rfl
          · apply List.filter_congr
            intro x hx
            have : x.1 ≠ o.1 := fun h => ho.1 (by rw [← h]; exact List.mem_map.2 ⟨x, hx, rfl⟩)
            simp [this]
      rw [hov]
      refine ⟨m + 1, ?_, ?_⟩
      · simp [List.append_assoc, List.replicate_succ]
      · rw [List.filter_cons_of_pos (by simpa using hmem), List.length_cons, h2]
        congr 2
        apply List.filter_congr
        intro x hx
        have : x.1 ≠ o.1 := fun h => ho.1 (by rw [← h]; exact List.mem_map.2 ⟨x, hx, rfl⟩)
        simp [this]

/-! ### Reactions -/

theorem zip_map (L : List (ℕ × ℝ)) : (L.map (·.1)).zip (L.map (·.2)) = L := by
  induction L with
  | nil => rfl
  | cons a L ih => simp [ih]

theorem prodDecl_valid (r : Rxn) (h : r.OK) (i : ℕ) : Valid (r.prodDecl i) := by
  refine ⟨by simp [Rxn.prodDecl], by simp [Rxn.prodDecl], ?_⟩
  intro s hs
  simp only [Rxn.prodDecl, List.mem_map] at hs
  obtain ⟨x, hx, rfl⟩ := hs
  exact h.pnonneg x hx

theorem prodDecl_zip (r : Rxn) (i : ℕ) :
    (r.prodDecl i).k.zip (r.prodDecl i).stoich = r.products ∧
    (r.prodDecl i).k.zip (r.prodDecl i).order = r.products :=
  ⟨zip_map _, zip_map _⟩

theorem prodDecl_nu (r : Rxn) (i k : ℕ) : nu (r.prodDecl i) k = coeff r.products k := by
  rw [nu, (prodDecl_zip r i).1]; rfl

theorem rvecs_eq (r : Rxn) (h : r.OK) :
    r.rvecs = ⟨r.effOrders.map (·.1),
      r.reactants.map (·.2) ++ List.replicate (r.orders.filter
        (fun o => o.1 ∉ r.reactants.map (·.1))).length 0, r.effOrders.map (·.2)⟩ := by
  obtain ⟨m, h1, h2⟩ := rvecs_fold r.orders r.reactants (r.reactants.map (·.2)) h.rnodup h.onodup
    (by simp)
  rw [Rxn.rvecs, h1, h2]; rfl

theorem reactDecl_order_zip (r : Rxn) (h : r.OK) (i : ℕ) :
    (r.reactDecl i).k.zip (r.reactDecl i).order = r.effOrders := by
  simp only [Rxn.reactDecl, rvecs_eq r h]; exact zip_map _

theorem reactDecl_stoich_zip (r : Rxn) (h : r.OK) (i : ℕ) :
    (r.reactDecl i).k.zip (r.reactDecl i).stoich = r.reactants ++
      (r.orders.filter (fun o => o.1 ∉ r.reactants.map (·.1))).map (fun o => (o.1, 0)) := by
  simp only [Rxn.reactDecl, rvecs_eq r h, Rxn.effOrders]
  rw [List.map_append, List.zip_append (by simp)]
  congr 1
  · rw [List.map_map]
    exact zip_map _
  · generalize r.orders.filter (fun o => o.1 ∉ r.reactants.map (·.1)) = l
    induction l with
    | nil => rfl
    | cons a l ih => simp [List.replicate_succ, ih]

theorem reactDecl_valid (r : Rxn) (h : r.OK) (i : ℕ) : Valid (r.reactDecl i) := by
  refine ⟨?_, ?_, ?_⟩
  · simp only [Rxn.reactDecl, rvecs_eq r h]; simp
  · simp only [Rxn.reactDecl, rvecs_eq r h, Rxn.effOrders]; simp
  · intro s hs
    simp only [Rxn.reactDecl, rvecs_eq r h, List.mem_append, List.mem_map] at hs
    rcases hs with ⟨x, hx, rfl⟩ | hs
    · exact h.rnonneg x hx
    · rw [(List.mem_replicate.1 hs).2]

theorem reactDecl_sum (r : Rxn) (h : r.OK) (i : ℕ) (f : ℕ → ℝ) :
    (((r.reactDecl i).k.zip (r.reactDecl i).stoich).map (fun x => x.2 * f x.1)).sum =
      (r.reactants.map (fun x => x.2 * f x.1)).sum := by
  rw [reactDecl_stoich_zip r h]
  simp [Function.comp_def]

theorem reactDecl_nu (r : Rxn) (h : r.OK) (i k : ℕ) :
    nu (r.reactDecl i) k = coeff r.reactants k := by
  have : ∀ l : List (ℕ × ℝ), (l.map (fun x => if x.1 = k then x.2 else 0)).sum =
      (l.map (fun x => x.2 * (if x.1 = k then 1 else 0))).sum := by
    intro l; congr 1; apply List.map_congr_left; intro x _; split_ifs <;> simp
  rw [nu, coeff, this, this, reactDecl_sum r h i (fun j => if j = k then 1 else 0)]

/-! ### Third-body calculator -/

/-- The calculator after installing a list. -/
noncomputable def installAll (t : TBCalc) (l : List (ℕ × ThirdBody)) : TBCalc :=
  l.foldl (fun t p => t.install p.1 p.2) t

theorem installAll_spec (l : List (ℕ × ThirdBody)) (t : TBCalc) (M : List ℕ)
    (hM : t.massIdx.map t.rxnAt = M.map some) :
    (installAll t l).entries = t.entries ++
      l.map (fun p => ⟨p.1, p.2.dflt, p.2.eff.map (fun e => (e.1, e.2 - p.2.dflt))⟩) ∧
    (installAll t l).massIdx.map (installAll t l).rxnAt =
      (M ++ (l.filter (·.2.massAction)).map (·.1)).map some := by
  induction l generalizing t M with
  | nil => simpa [installAll] using hM
  | cons p l ih =>
    have hold : ∀ (es : List TBEntry) (mi ni : List ℕ) (e : TBEntry), es = t.entries ++ [e] →
        t.massIdx.map (TBCalc.rxnAt ⟨es, mi, ni⟩) = M.map some := by
      intro es mi ni e he
      rw [← hM]
      apply List.map_congr_left
      intro j hj
      have hs : t.rxnAt j ∈ M.map some := by rw [← hM]; exact List.mem_map.2 ⟨j, hj, rfl⟩
      obtain ⟨x, _, hx⟩ := List.mem_map.1 hs
      have hlt : j < t.entries.length := by
        by_contra hge
        rw [TBCalc.rxnAt, List.getElem?_eq_none (by omega)] at hx
        simp at hx
      simp only [TBCalc.rxnAt, he]
      rw [List.getElem?_append_left hlt]
    by_cases hm : p.2.massAction
    · obtain ⟨h1, h2⟩ := ih (t.install p.1 p.2) (M ++ [p.1]) (by
        simp only [TBCalc.install, hm, if_true, List.map_append, List.map_cons, List.map_nil]
        rw [hold _ _ _ _ rfl]
        simp [TBCalc.rxnAt])
      refine ⟨?_, ?_⟩
      · show (installAll (t.install p.1 p.2) l).entries = _
        rw [h1]; simp [TBCalc.install, hm]
      · show (installAll (t.install p.1 p.2) l).massIdx.map
          (installAll (t.install p.1 p.2) l).rxnAt = _
        rw [h2]; simp [hm]
    · obtain ⟨h1, h2⟩ := ih (t.install p.1 p.2) M (by
        simp only [TBCalc.install, hm]
        exact hold _ _ _ _ rfl)
      refine ⟨?_, ?_⟩
      · show (installAll (t.install p.1 p.2) l).entries = _
        rw [h1]; simp [TBCalc.install, hm]
      · show (installAll (t.install p.1 p.2) l).massIdx.map
          (installAll (t.install p.1 p.2) l).rxnAt = _
        rw [h2]; simp [hm]

theorem multiply_ok (t : TBCalc) (M : List ℕ) (hM : t.massIdx.map t.rxnAt = M.map some)
    (concm out : Vec) :
    t.multiply concm out = .ok (M.foldl (fun out ix => mulAt out ix (concm ix)) out) := by
  rw [TBCalc.multiply]
  generalize t.massIdx = mi at hM
  induction mi generalizing M out with
  | nil =>
    have : M = [] := by cases M with
      | nil => rfl
      | cons => simp at hM
    subst this; rfl
  | cons j mi ih =>
    cases M with
    | nil => simp at hM
    | cons x M =>
      simp only [List.map_cons, List.cons.injEq] at hM
      rw [List.foldlM_cons, hM.1]
      simp only [Outcome.bind_ok, List.foldl_cons]
      exact ih M _ hM.2

theorem mulAt_foldl (M : List ℕ) (hn : M.Nodup) (concm out : Vec) (i : ℕ) :
    M.foldl (fun out ix => mulAt out ix (concm ix)) out i =
      out i * if i ∈ M then concm i else 1 := by
  induction M generalizing out with
  | nil => simp
  | cons a M ih =>
    rw [List.nodup_cons] at hn
    rw [List.foldl_cons, ih hn.2]
    by_cases e : i = a
    · subst e; simp [mulAt, hn.1]
    · simp [mulAt, e]

theorem foldl_update {α : Type*} (key : α → ℕ) (val : α → ℝ) (l : List α)
    (hn : (l.map key).Nodup) (v : Vec) :
    (∀ a ∈ l, l.foldl (fun v a => Function.update v (key a) (val a)) v (key a) = val a) ∧
    (∀ i, i ∉ l.map key → l.foldl (fun v a => Function.update v (key a) (val a)) v i = v i) := by
  induction l generalizing v with
  | nil => simp
  | cons a l ih =>
    rw [List.map_cons, List.nodup_cons] at hn
    obtain ⟨h1, h2⟩ := ih hn.2 (Function.update v (key a) (val a))
    refine ⟨?_, ?_⟩
    · intro b hb
      rw [List.foldl_cons]
      rcases List.mem_cons.1 hb with rfl | hb
      · rw [h2 _ hn.1]; simp
      · exact h1 b hb
    · intro i hi
      rw [List.map_cons, List.mem_cons, not_or] at hi
      rw [List.foldl_cons, h2 i hi.2]; simp [hi.1]

theorem foldl_sum (l : List (ℕ × ℝ)) (c : Vec) (s : ℝ) :
    l.foldl (fun sum x => sum + x.2 * c x.1) s = s + (l.map (fun x => x.2 * c x.1)).sum := by
  induction l generalizing s with
  | nil => simp
  | cons a l ih => simp [ih, add_assoc]

/-! ### Sequences of addReaction -/

theorem foldl_dn (r : Rxn) :
    r.reactants.foldl (fun dn x => dn - x.2) (r.products.foldl (fun dn x => dn + x.2) (0 : ℝ)) =
      (r.products.map (·.2)).sum - (r.reactants.map (·.2)).sum := by
  have h1 : ∀ (l : List (ℕ × ℝ)) (s : ℝ), l.foldl (fun dn x => dn + x.2) s = s + (l.map (·.2)).sum := by
    intro l; induction l with
    | nil => simp
    | cons a l ih => intro s; simp [ih, add_assoc]
  have h2 : ∀ (l : List (ℕ × ℝ)) (s : ℝ), l.foldl (fun dn x => dn - x.2) s = s - (l.map (·.2)).sum := by
    intro l; induction l with
    | nil => simp
    | cons a l ih => intro s; simp [ih]; ring
  rw [h1, h2]; ring

/-- Third bodies with their reaction index. -/
def tbList (rs : List Rxn) (n : ℕ) : List (ℕ × ThirdBody) :=
  (rs.zipIdx n).filterMap (fun p => p.1.thirdBody.map (fun b => (p.2, b)))

theorem kin_addAll (rs : List Rxn) (hv : ∀ r ∈ rs, r.OK) (K : Kin) :
    ∃ K', K.addAll rs = .ok K' ∧ K'.n = K.n + rs.length ∧
      K.reac.addAll ((rs.zipIdx K.n).map (fun p => p.1.reactDecl p.2)) = .ok K'.reac ∧
      K.prod.addAll ((rs.zipIdx K.n).map (fun p => p.1.prodDecl p.2)) = .ok K'.prod ∧
      K.revProd.addAll (((rs.zipIdx K.n).filter (·.1.reversible)).map
        (fun p => p.1.prodDecl p.2)) = .ok K'.revProd ∧
      K'.revindex = K.revindex ++ ((rs.zipIdx K.n).filter (·.1.reversible)).map (·.2) ∧
      K'.irrev = K.irrev ++ ((rs.zipIdx K.n).filter (fun p => !p.1.reversible)).map (·.2) ∧
      (∀ p ∈ rs.zipIdx K.n, K'.dn p.2 = (p.1.products.map (·.2)).sum - (p.1.reactants.map (·.2)).sum) ∧
      (∀ i < K.n, K'.dn i = K.dn i) ∧
      K'.tb = installAll K.tb (tbList rs K.n) := by
  induction rs generalizing K with
  | nil => exact ⟨K, rfl, by simp, rfl, rfl, rfl, by simp, by simp, by simp, by simp, rfl⟩
  | cons r rs ih =>
    have hr := hv r (by simp)
    have v1 := reactDecl_valid r hr K.n
    have v2 := prodDecl_valid r hr K.n
    obtain ⟨m1, e1⟩ := add_isOk K.reac _ v1.order_len v1.stoich_len
    obtain ⟨m2, e2⟩ := add_isOk K.prod _ v2.order_len v2.stoich_len
    obtain ⟨m3, e3⟩ := add_isOk K.revProd _ v2.order_len v2.stoich_len
    have step : ∃ K1, K.addReaction r = .ok K1 ∧ K1.n = K.n + 1 ∧ K1.reac = m1 ∧ K1.prod = m2 ∧
        K1.revProd = (if r.reversible then m3 else K.revProd) ∧
        K1.dn = Function.update K.dn K.n ((r.products.map (·.2)).sum - (r.reactants.map (·.2)).sum) ∧
        K1.revindex = (if r.reversible then K.revindex ++ [K.n] else K.revindex) ∧
        K1.irrev = (if r.reversible then K.irrev else K.irrev ++ [K.n]) ∧
        K1.tb = (match r.thirdBody with
          | some b => K.tb.install K.n b
          | none => K.tb) := by
      refine ⟨⟨K.n + 1, m1, m2, if r.reversible then m3 else K.revProd,
        Function.update K.dn K.n ((r.products.map (·.2)).sum - (r.reactants.map (·.2)).sum),
        if r.reversible then K.revindex ++ [K.n] else K.revindex,
        if r.reversible then K.irrev else K.irrev ++ [K.n], _⟩, ?_, rfl, rfl,
        rfl, rfl, rfl, rfl, rfl, rfl⟩
      rw [Kin.addReaction, e1, e2, e3]
      simp only [foldl_dn]
      cases r.reversible <;> rfl
    obtain ⟨K1, k0, kn, k1, k2, k3, k4, k5, k6, k7⟩ := step
    obtain ⟨K', h0, hn, h1, h2, h3, h4, h5, h6, h7, h8⟩ :=
      ih (fun r' hr' => hv r' (by simp [hr'])) K1
    rw [kn] at h1 h2 h3 h4 h5 h6 h7 h8 hn
    refine ⟨K', ?_, ?_, ?_, ?_, ?_, ?_, ?_, ?_, ?_, ?_⟩
    · rw [Kin.addAll, k0]; exact h0
    · rw [hn]; simp; omega
    · rw [List.zipIdx_cons, List.map_cons, Mgr.addAll, e1, ← k1]; exact h1
    · rw [List.zipIdx_cons, List.map_cons, Mgr.addAll, e2, ← k2]; exact h2
    · rw [List.zipIdx_cons]
      cases hrev : r.reversible with
      | true =>
        rw [List.filter_cons_of_pos (by simpa using hrev), List.map_cons, Mgr.addAll, e3]
        simp only [hrev, if_true] at k3
        rw [← k3]; exact h3
      | false =>
        rw [List.filter_cons_of_neg (by simp [hrev])]
        simp only [hrev, Bool.false_eq_true, if_false] at k3
        rw [← k3]; exact h3
    · rw [h4, k5, List.zipIdx_cons]
      cases hrev : r.reversible with
      | true => rw [List.filter_cons_of_pos (by simpa using hrev)]; simp
      | false => rw [List.filter_cons_of_neg (by simp [hrev])]; simp
    · rw [h5, k6, List.zipIdx_cons]
      cases hrev : r.reversible with
      | true => rw [List.filter_cons_of_neg (by simp [hrev])]; simp
      | false => rw [List.filter_cons_of_pos (by simp [hrev])]; simp
    · intro p hp
      rw [List.zipIdx_cons] at hp
      rcases List.mem_cons.1 hp with rfl | hp
      · rw [h7 _ (by simp), k4]; simp
      · exact h6 p hp
    · intro i hi
      rw [h7 i (by omega), k4, Function.update_of_ne (by omega)]
    · rw [h8, k7]
      simp only [tbList, List.zipIdx_cons, List.filterMap_cons]
      cases r.thirdBody <;> simp [installAll]

theorem zipIdx_sum {α : Type*} (l : List α) (f : α → ℕ → ℝ) :
    (l.zipIdx.map (fun p => f p.1 p.2)).sum = ∑ i : Fin l.length, f l[i] i := by
  rw [← List.sum_ofFn]
  congr 1
  apply List.ext_getElem <;> simp

theorem filter_zipIdx {α : Type*} (l : List α) (n i : ℕ) :
    (l.zipIdx n).filter (fun p => p.2 = n + i) =
      match l[i]? with | some a => [(a, n + i)] | none => [] := by
  induction l generalizing n i with
  | nil => simp
  | cons a l ih =>
    rw [List.zipIdx_cons]
    cases i with
    | zero =>
      rw [List.filter_cons_of_pos (by simp)]
      have : (l.zipIdx (n+1)).filter (fun p => p.2 = n + 0) = [] := by
        rw [List.filter_eq_nil_iff]
        intro p hp
        have := List.le_snd_of_mem_zipIdx hp
        simp; omega
      rw [this]; simp
    | succ i =>
      rw [List.filter_cons_of_neg (by simp)]
      have := ih (n+1) i
      have e : n + 1 + i = n + (i + 1) := by omega
      rw [e] at this
      rw [this]; simp

end Verif.Kinetics

namespace Verif.Kinetics

open Verif Verif.Stoich

/-! ### Values seen through a completed mechanism -/

theorem coeff_eq_sum (l : List (ℕ × ℝ)) (k : ℕ) :
    coeff l k = (l.map (fun x => x.2 * (if x.1 = k then 1 else 0))).sum := by
  rw [coeff]; congr 1; apply List.map_congr_left; intro x _; split_ifs <;> simp

/-- Accumulator values of a manager built from a list of declarations. -/
theorem mgr_spec (ds : List Decl) (hv : ∀ d ∈ ds, Valid d) (m : Mgr)
    (hm : Mgr.empty.addAll ds = .ok m) :
      (∀ (R S : ℕ → ℝ) (k : ℕ), m.incrementSpecies R S k =
          S k + (ds.map (fun d => nu d k * R d.rxn)).sum) ∧
      (∀ (R S : ℕ → ℝ) (k : ℕ), m.decrementSpecies R S k =
          S k - (ds.map (fun d => nu d k * R d.rxn)).sum) ∧
      (∀ (G R : ℕ → ℝ) (i : ℕ), m.incrementReactions G R i =
          R i + ((ds.filter (fun d => d.rxn = i)).map
            (fun d => ((d.k.zip d.stoich).map (fun x => x.2 * G x.1)).sum)).sum) ∧
      (∀ (G R : ℕ → ℝ) (i : ℕ), m.decrementReactions G R i =
          R i - ((ds.filter (fun d => d.rxn = i)).map
            (fun d => ((d.k.zip d.stoich).map (fun x => x.2 * G x.1)).sum)).sum) := by
  obtain ⟨m', hm', h⟩ := stoich_accumulators ds hv
  rw [hm] at hm'
  cases hm'
  exact h

theorem filter_map_decl (l : List (Rxn × ℕ)) (f : Rxn → ℕ → Decl) (hf : ∀ r i, (f r i).rxn = i)
    (i : ℕ) : (l.map (fun p => f p.1 p.2)).filter (fun d => d.rxn = i) =
      (l.filter (fun p => p.2 = i)).map (fun p => f p.1 p.2) := by
  rw [List.filter_map]
  congr 2
  funext p
  simp [hf]

theorem filter_zipIdx_some (rs : List Rxn) (i : ℕ) (r : Rxn) (h : rs[i]? = some r) :
    rs.zipIdx.filter (fun p => p.2 = i) = [(r, i)] := by
  have := filter_zipIdx rs 0 i
  simpa [h] using this

theorem filter_rev (rs : List Rxn) (i : ℕ) (r : Rxn) (h : rs[i]? = some r) :
    (rs.zipIdx.filter (·.1.reversible)).filter (fun p => p.2 = i) =
      if r.reversible then [(r, i)] else [] := by
  rw [List.filter_comm, filter_zipIdx_some rs i r h]
  cases hr : r.reversible <;> simp [hr]

theorem zipIdx_snd_nodup {α : Type*} (l : List α) (n : ℕ) : ((l.zipIdx n).map (·.2)).Nodup := by
  have : (l.zipIdx n).map (·.2) = List.range' n l.length := by
    simp
  rw [this]; exact List.nodup_range'

theorem mem_zipIdx0 {α : Type*} (l : List α) (a : α) (i : ℕ) : (a, i) ∈ l.zipIdx ↔ l[i]? = some a := by
  rw [List.mem_zipIdx_iff_getElem?]

/-- The reciprocal equilibrium constants. -/
theorem rkcn_value (K : Kin) (rs : List Rxn)
    (h4 : K.revindex = (rs.zipIdx.filter (·.1.reversible)).map (·.2))
    (h5 : K.irrev = (rs.zipIdx.filter (fun p => !p.1.reversible)).map (·.2))
    (e : Env) (old : Vec) (i : ℕ) (r : Rxn) (hr : rs[i]? = some r) :
    K.rkcn e old i = if r.reversible then
      min (Real.exp (K.getRevReactionDelta e.mu0 i * (1 / e.RT) - K.dn i * Real.log e.c0)) bigNumber
      else 0 := by
  have n1 : ((rs.zipIdx.filter (·.1.reversible)).map (·.2)).Nodup :=
    (zipIdx_snd_nodup rs 0).sublist (List.filter_sublist.map _)
  have n2 : ((rs.zipIdx.filter (fun p => !p.1.reversible)).map (·.2)).Nodup :=
    (zipIdx_snd_nodup rs 0).sublist (List.filter_sublist.map _)
  have m1 : i ∈ K.revindex ↔ r.reversible = true := by
    rw [h4, List.mem_map]
    constructor
    · rintro ⟨⟨r', j⟩, hp, rfl⟩
      rw [List.mem_filter, mem_zipIdx0] at hp
      rw [hr] at hp
      have := hp.1; simp only [Option.some.injEq] at this; subst this
      exact hp.2
    · intro h
      exact ⟨(r, i), List.mem_filter.2 ⟨(mem_zipIdx0 _ _ _).2 hr, h⟩, rfl⟩
  have m2 : i ∈ K.irrev ↔ r.reversible = false := by
    rw [h5, List.mem_map]
    constructor
    · rintro ⟨⟨r', j⟩, hp, rfl⟩
      rw [List.mem_filter, mem_zipIdx0] at hp
      rw [hr] at hp
      have := hp.1; simp only [Option.some.injEq] at this; subst this
      simpa using hp.2
    · intro h
      exact ⟨(r, i), List.mem_filter.2 ⟨(mem_zipIdx0 _ _ _).2 hr, by simp [h]⟩, rfl⟩
  have nd1 : (K.revindex.map id).Nodup := by rw [List.map_id, h4]; exact n1
  have nd2 : (K.irrev.map id).Nodup := by rw [List.map_id, h5]; exact n2
  simp only [Kin.rkcn]
  cases hrev : r.reversible with
  | true =>
    have hni : i ∉ K.irrev.map id := by rw [List.map_id, m2]; simp [hrev]
    have hi : i ∈ K.revindex := m1.2 hrev
    have := (foldl_update id (fun _ => 0) K.irrev nd2 (K.revindex.foldl (fun v i =>
      Function.update v i (min (Real.exp (K.getRevReactionDelta e.mu0 i * (1 / e.RT) -
        K.dn i * Real.log e.c0)) bigNumber)) old)).2 i hni
    simp only [id_eq] at this
    rw [this]
    have := (foldl_update id (fun i => min (Real.exp (K.getRevReactionDelta e.mu0 i * (1 / e.RT) -
        K.dn i * Real.log e.c0)) bigNumber) K.revindex nd1 old).1 i hi
    simp only [id_eq] at this
    rw [this]; simp
  | false =>
    have hi : i ∈ K.irrev := m2.2 hrev
    have := (foldl_update id (fun _ => 0) K.irrev nd2 (K.revindex.foldl (fun v i =>
      Function.update v i (min (Real.exp (K.getRevReactionDelta e.mu0 i * (1 / e.RT) -
        K.dn i * Real.log e.c0)) bigNumber)) old)).1 i hi
    simp only [id_eq] at this
    rw [this]; simp

/-- Third-body factor of each reaction. -/
theorem tb_spec (rs : List Rxn) (t : TBCalc) (ht : t = installAll ⟨[], [], []⟩ (tbList rs 0))
    (conc : Vec) (ctot : ℝ) (old : Vec) (out : Vec) :
    ∃ o, t.multiply (t.update conc ctot old) out = .ok o ∧
      ∀ (i : ℕ) (r : Rxn), rs[i]? = some r →
        (∀ b, r.thirdBody = some b → t.update conc ctot old i =
          b.dflt * ctot + (b.eff.map (fun x => (x.2 - b.dflt) * conc x.1)).sum) ∧
        (r.thirdBody = none → t.update conc ctot old i = old i) ∧
        o i = out i * match r.thirdBody with
          | some b => if b.massAction then
              b.dflt * ctot + (b.eff.map (fun x => (x.2 - b.dflt) * conc x.1)).sum else 1
          | none => 1 := by
  obtain ⟨h1, h2⟩ := installAll_spec (tbList rs 0) ⟨[], [], []⟩ [] (by simp)
  rw [← ht] at h1 h2
  simp only [List.nil_append] at h1 h2
  have hmem : ∀ (j : ℕ) (b : ThirdBody), (j, b) ∈ tbList rs 0 ↔
      ∃ r, rs[j]? = some r ∧ r.thirdBody = some b := by
    intro j b
    simp only [tbList, List.mem_filterMap]
    constructor
    · rintro ⟨⟨r, i⟩, hp, h⟩
      rw [Option.map_eq_some_iff] at h
      obtain ⟨b', hb', h⟩ := h
      simp only [Prod.mk.injEq] at h
      obtain ⟨rfl, rfl⟩ := h
      exact ⟨r, (mem_zipIdx0 _ _ _).1 hp, hb'⟩
    · rintro ⟨r, hr, hb⟩
      exact ⟨(r, j), (mem_zipIdx0 _ _ _).2 hr, by simp [hb]⟩
  have hnd : ((tbList rs 0).map (·.1)).Nodup := by
    have hsub : ((tbList rs 0).map (·.1)).Sublist ((rs.zipIdx).map (·.2)) := by
      have gen : ∀ l : List (Rxn × ℕ), ((l.filterMap
          (fun p => p.1.thirdBody.map (fun b => (p.2, b)))).map (·.1)).Sublist (l.map (·.2)) := by
        intro l
        induction l with
        | nil => simp
        | cons a l ih =>
          rw [List.filterMap_cons]
          cases a.1.thirdBody with
          | none => exact ih.cons _
          | some b => exact ih.cons_cons _
      exact gen _
    exact (zipIdx_snd_nodup rs 0).sublist hsub
  have hndM : (((tbList rs 0).filter (·.2.massAction)).map (·.1)).Nodup :=
    hnd.sublist (List.filter_sublist.map _)
  have hupd : ∀ i r, rs[i]? = some r →
        (∀ b, r.thirdBody = some b → t.update conc ctot old i =
          b.dflt * ctot + (b.eff.map (fun x => (x.2 - b.dflt) * conc x.1)).sum) ∧
        (r.thirdBody = none → t.update conc ctot old i = old i) := by
    intro i r hr
    have hfu := foldl_update (fun p : ℕ × ThirdBody => p.1) (fun p => p.2.dflt * ctot +
        (p.2.eff.map (fun e => (e.1, e.2 - p.2.dflt))).foldl (fun sum x => sum + x.2 * conc x.1) 0)
        (tbList rs 0) hnd old
    have hu : t.update conc ctot old = (tbList rs 0).foldl (fun v p => Function.update v p.1
        (p.2.dflt * ctot + (p.2.eff.map (fun e => (e.1, e.2 - p.2.dflt))).foldl
          (fun sum x => sum + x.2 * conc x.1) 0)) old := by
      rw [TBCalc.update, h1, List.foldl_map]
    rw [hu]
    refine ⟨?_, ?_⟩
    · intro b hb
      have := hfu.1 (i, b) ((hmem i b).2 ⟨r, hr, hb⟩)
      simp only at this
      rw [this, foldl_sum, List.map_map, zero_add]
      rfl
    · intro hb
      apply hfu.2
      rw [List.mem_map]
      rintro ⟨⟨j, b⟩, hp, rfl⟩
      obtain ⟨r', hr', hb'⟩ := (hmem _ _).1 hp
      simp only at hr
      rw [hr] at hr'
      simp only [Option.some.injEq] at hr'; subst hr'
      rw [hb] at hb'; simp at hb'
  refine ⟨_, multiply_ok t _ h2 _ _, ?_⟩
  intro i r hr
  obtain ⟨u1, u2⟩ := hupd i r hr
  refine ⟨u1, u2, ?_⟩
  rw [mulAt_foldl _ hndM]
  congr 1
  have hin : i ∈ ((tbList rs 0).filter (·.2.massAction)).map (·.1) ↔
      ∃ b, r.thirdBody = some b ∧ b.massAction = true := by
    rw [List.mem_map]
    constructor
    · rintro ⟨⟨j, b⟩, hp, rfl⟩
      rw [List.mem_filter] at hp
      obtain ⟨r', hr', hb'⟩ := (hmem _ _).1 hp.1
      simp only at hr
      rw [hr] at hr'
      simp only [Option.some.injEq] at hr'; subst hr'
      exact ⟨b, hb', hp.2⟩
    · rintro ⟨b, hb, hm⟩
      exact ⟨(i, b), List.mem_filter.2 ⟨(hmem _ _).2 ⟨r, hr, hb⟩, hm⟩, rfl⟩
  cases hb : r.thirdBody with
  | none =>
    rw [if_neg]
    rw [hin, hb]; simp
  | some b =>
    simp only
    by_cases hm : b.massAction
    · rw [if_pos (hin.2 ⟨b, hb, hm⟩), if_pos hm]; exact u1 b hb
    · rw [if_neg, if_neg hm]
      rw [hin, hb]; simp [hm]

end Verif.Kinetics
