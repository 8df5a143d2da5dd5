import Verif.Kinetics.ReactionPathFactor

/-!
# Reaction path analysis: flows of the diagram
-/

namespace Verif.RPath

/-! ## Flows after `build` -/

theorem elatoms_new (M : Mech) (m i : ℕ) :
    elatomsFrom M (fun _ _ => 0) m i = total M m i := by
  unfold elatomsFrom total; ring

theorem filterMap_some (l : List ℕ) : (l.map some).filterMap id = l := by
  induction l with
  | nil => rfl
  | cons x l ih => simp

theorem none_not_mem (l : List ℕ) : (none : Option ℕ) ∉ l.map some := by simp

theorem sum_evs (M : Mech) (E : ℕ → ℝ) (ropf ropr : ℕ → ℝ) (inc exc : List ℕ) (m : ℕ)
    (c : ℕ × ℕ × ℤ × ℝ → ℝ) :
    (((triples M E).flatMap (evs M E ropf ropr inc exc m)).map c).sum =
      ∑ i ∈ Finset.range M.nr, if 0 < E i then
        ∑ kr ∈ Finset.range (reac M i).length, ∑ kp ∈ Finset.range (prods M i).length,
          ((evs M E ropf ropr inc exc m (i, kr, kp)).map c).sum
      else 0 := by
  rw [sum_flatMap]
  unfold triples
  rw [sum_flatMap, sum_range_list]
  refine Finset.sum_congr rfl fun i _ => ?_
  by_cases h : 0 < E i
  · rw [if_pos h, if_pos h, sum_flatMap, sum_range_list]
    refine Finset.sum_congr rfl fun kr _ => ?_
    rw [List.map_map, sum_range_list]
    rfl
  · rw [if_neg h, if_neg h]; simp

/-- `build` succeeds for a known element and known species; the diagram is consistent
afterwards; nodes are kept; every path has the flow of the pairs of positions, added to what it
had before. -/
theorem build_spec (M : Mech) (old : ℕ → ℕ → ℝ) (ropf ropr : ℕ → ℝ) (inc exc : List ℕ) (m : ℕ)
    {d : Diag} (h : Inv d) :
    ∃ d', build M old ropf ropr (inc.map some) (exc.map some) (some m) d = .ok (d', 1) ∧ Inv d' ∧
      (∀ k, k ∈ d.nums → k ∈ d'.nums) ∧
      (∀ a b, d'.flow a b = d.flow a b +
        evFlow ((triples M (elatomsFrom M old m)).flatMap
          (evs M (elatomsFrom M old m) ropf ropr inc exc m)) a b) ∧
      (∀ a b j, d'.rxnFlow a b j = d.rxnFlow a b j +
        evRxn ((triples M (elatomsFrom M old m)).flatMap
          (evs M (elatomsFrom M old m) ropf ropr inc exc m)) a b j) := by
  obtain ⟨d', hs, hi, hn, hf, hx⟩ := steps_spec M (elatomsFrom M old m) ropf ropr inc exc m
    (triples M (elatomsFrom M old m)) h
  refine ⟨d', ?_, hi, hn, hf, hx⟩
  unfold build
  simp only [none_not_mem, or_self, if_false, filterMap_some]
  have : steps M (fun i => elatomsFrom M old m i) ropf ropr inc exc m
      (triples M fun i => elatomsFrom M old m i) d = .ok d' := hs
  rw [this, Outcome.bind_ok]

/-- `build` keeps what was in the diagram: a second call adds the same flows again. -/
theorem build_twice (M : Mech) (ropf ropr : ℕ → ℝ) (inc exc : List ℕ) (m : ℕ) :
    ∃ d1 d2, buildDiagram M ropf ropr (inc.map some) (exc.map some) (some m) Diag.empty =
        .ok (d1, true) ∧
      buildDiagram M ropf ropr (inc.map some) (exc.map some) (some m) d1 = .ok (d2, true) ∧
      ∀ a b, d2.flow a b = 2 * d1.flow a b := by
  obtain ⟨d1, h1, i1, -, f1, -⟩ :=
    build_spec M (fun _ _ => 0) ropf ropr inc exc m inv_empty
  obtain ⟨d2, h2, i2, -, f2, -⟩ := build_spec M (fun _ _ => 0) ropf ropr inc exc m i1
  refine ⟨d1, d2, ?_, ?_, ?_⟩
  · unfold buildDiagram; rw [h1, Outcome.bind_ok]
  · unfold buildDiagram; rw [h2, Outcome.bind_ok]
  · intro a b
    rw [f2, f1]
    simp only [Diag.flow, Diag.empty]
    ring

/-- An unknown element leaves the diagram as it is, but it counts as built. -/
theorem build_unknown (M : Mech) (ropf ropr : ℕ → ℝ) (inc exc : List (Option ℕ)) (d : Diag) :
    build M (fun _ _ => 0) ropf ropr inc exc none d = .ok (d, -1) ∧
      buildDiagram M ropf ropr inc exc none d = .ok (d, true) := ⟨rfl, rfl⟩

/-- An unknown species among the included or excluded ones is undefined behaviour. -/
theorem build_unknown_species (M : Mech) (old : ℕ → ℕ → ℝ) (ropf ropr : ℕ → ℝ)
    (inc exc : List (Option ℕ)) (m : ℕ) (d : Diag) (h : none ∈ inc ∨ none ∈ exc) :
    build M old ropf ropr inc exc (some m) d = .ub := by
  unfold build; simp only [h, if_true]

/-- After `build`: every path connects two different nodes which exist, has a positive flow, and
the largest flow is `maxFlow()`. -/
theorem build_paths (M : Mech) (old : ℕ → ℕ → ℝ) (ropf ropr : ℕ → ℝ) (inc exc : List ℕ) (m : ℕ)
    (d : Diag) (r : ℤ)
    (h : build M old ropf ropr (inc.map some) (exc.map some) (some m) Diag.empty = .ok (d, r)) :
    (∀ a b, 0 ≤ d.flow a b ∧ d.flow a b ≤ d.flxmax) ∧
    (∀ a b, (a, b) ∈ d.plist ↔ 0 < d.flow a b) ∧
    (∀ a b, (a, b) ∈ d.plist → a ∈ d.nums ∧ b ∈ d.nums ∧ a ≠ b) ∧
    (d.flxmax = 0 ∨ ∃ a b, d.flow a b = d.flxmax) ∧ d.keys = d.nums ∧ d.nums.Nodup := by
  obtain ⟨d', hb, hi, -, -, -⟩ := build_spec M old ropf ropr inc exc m inv_empty
  rw [hb] at h
  simp only [Outcome.ok.injEq, Prod.mk.injEq] at h
  obtain ⟨rfl, -⟩ := h
  have hfl : ∀ a b, (d'.path a b = none ∧ d'.flow a b = 0) ∨
      ∃ p, d'.path a b = some p ∧ d'.flow a b = p.total := by
    intro a b
    unfold Diag.flow
    cases hp : d'.path a b with
    | none => left; exact ⟨rfl, rfl⟩
    | some p => right; exact ⟨p, rfl, rfl⟩
  refine ⟨?_, ?_, ?_, ?_, hi.keys, hi.nodup⟩
  · intro a b
    rcases hfl a b with ⟨-, h2⟩ | ⟨p, h1, h2⟩
    · rw [h2]; exact ⟨le_rfl, hi.mx0⟩
    · rw [h2]; exact ⟨(hi.pos a b p h1).1.le, (hi.pos a b p h1).2⟩
  · intro a b
    rw [hi.plist]
    rcases hfl a b with ⟨h1, h2⟩ | ⟨p, h1, h2⟩
    · rw [h2, h1]; simp
    · rw [h2, h1]; simp [(hi.pos a b p h1).1]
  · intro a b hab; exact hi.ends a b ((hi.plist a b).1 hab)
  · rcases hi.mx with h0 | ⟨a, b, p, hp, hm⟩
    · exact Or.inl h0
    · right; refine ⟨a, b, ?_⟩
      unfold Diag.flow; rw [hp]; exact hm

/-- `inflow`, `outflow` and `netOutflow` of all nodes are zero, whatever the flows of the
paths. -/
theorem node_flows_zero (M : Mech) (old : ℕ → ℕ → ℝ) (ropf ropr : ℕ → ℝ) (inc exc : List ℕ)
    (m : ℕ) (d : Diag) (r : ℤ)
    (h : build M old ropf ropr (inc.map some) (exc.map some) (some m) Diag.empty = .ok (d, r))
    (k : ℕ) : d.nin k = 0 ∧ d.nout k = 0 := by
  obtain ⟨d', hb, hi, -⟩ := build_spec M old ropf ropr inc exc m inv_empty
  rw [hb] at h
  simp only [Outcome.ok.injEq, Prod.mk.injEq] at h
  obtain ⟨rfl, -⟩ := h
  exact ⟨hi.nin k, hi.nout k⟩

/-! ## Conservation of atoms in the whole diagram -/

theorem net_list (n : ℕ) (a : ℕ) (l : List (ℕ × ℕ × ℤ × ℝ)) (hl : ∀ e ∈ l, e.1 < n ∧ e.2.1 < n) :
    ∑ b ∈ Finset.range n, (evFlow l a b - evFlow l b a) =
      (l.map fun e => e.2.2.2 * ((if e.1 = a then 1 else 0) - if e.2.1 = a then 1 else 0)).sum := by
  induction l with
  | nil => simp [evFlow]
  | cons e l ih =>
    have ih' := ih fun e' he' => hl e' (List.mem_cons_of_mem _ he')
    obtain ⟨h1, h2⟩ := hl e List.mem_cons_self
    simp only [List.map_cons, List.sum_cons]
    rw [← ih']
    have : ∀ b, evFlow (e :: l) a b - evFlow (e :: l) b a =
        ((if e.1 = a ∧ e.2.1 = b then e.2.2.2 else 0) -
          if e.1 = b ∧ e.2.1 = a then e.2.2.2 else 0) + (evFlow l a b - evFlow l b a) := by
      intro b; simp only [evFlow, List.map_cons, List.sum_cons]; ring
    rw [Finset.sum_congr rfl fun b _ => this b, Finset.sum_add_distrib, Finset.sum_sub_distrib]
    congr 1
    have s1 : ∑ b ∈ Finset.range n, (if e.1 = a ∧ e.2.1 = b then e.2.2.2 else 0) =
        if e.1 = a then e.2.2.2 else 0 := by
      by_cases c : e.1 = a
      · simp [c, Finset.sum_ite_eq, h2]
      · simp [c]
    have s2 : ∑ b ∈ Finset.range n, (if e.1 = b ∧ e.2.1 = a then e.2.2.2 else 0) =
        if e.2.1 = a then e.2.2.2 else 0 := by
      by_cases c : e.2.1 = a
      · simp [c, Finset.sum_ite_eq, h1]
      · simp [c]
    rw [s1, s2]
    split <;> split <;> ring

theorem evs_lt {M : Mech} {E : ℕ → ℝ} {ropf ropr : ℕ → ℝ} {inc exc : List ℕ} {m : ℕ} :
    ∀ e ∈ (triples M E).flatMap (evs M E ropf ropr inc exc m), e.1 < M.ns ∧ e.2.1 < M.ns := by
  intro e he
  rw [List.mem_flatMap] at he
  obtain ⟨t, ht, he⟩ := he
  unfold triples at ht
  rw [List.mem_flatMap] at ht
  obtain ⟨i, -, ht⟩ := ht
  by_cases hE : 0 < E i
  swap
  · rw [if_neg hE] at ht; cases ht
  rw [if_pos hE, List.mem_flatMap] at ht
  obtain ⟨kr, hkr, ht⟩ := ht
  rw [List.mem_map] at ht
  obtain ⟨kp, hkp, rfl⟩ := ht
  have h1 := (mem_reac.1 (getD_mem (List.mem_range.1 hkr))).1
  have h2 := (mem_prods.1 (getD_mem (List.mem_range.1 hkp))).1
  unfold evs at he
  simp only at he
  split at he
  · rw [List.mem_append] at he
    rcases he with he | he
    · split at he
      · rw [List.mem_singleton] at he; rw [he]; exact ⟨h1, h2⟩
      · cases he
    · split at he
      · rw [List.mem_singleton] at he; rw [he]; exact ⟨h2, h1⟩
      · cases he
  · cases he

theorem pos_or_zero {x : ℝ} (h : 0 ≤ x) : (if 0 < x then x else 0) = x := by
  split
  · rfl
  · linarith

/-- **Conservation.**  If the atoms of element `m` are conserved in every reaction, the net flow
out of species `a` is the number of its atoms times the net rate at which it is consumed, for
nonnegative rates of progress and no excluded species. -/
theorem build_conserves {M : Mech} {m : ℕ} (ropf ropr : ℕ → ℝ) (inc : List ℕ)
    (h0 : ∀ k, 0 ≤ M.atoms k m) (hc : ∀ i < M.nr, Conserves M m i)
    (hb : ∀ i < M.nr,
      ((reac M i).map (M.atoms · m)).sum = ((prods M i).map (M.atoms · m)).sum)
    (hf : ∀ i, 0 ≤ ropf i) (hr : ∀ i, 0 ≤ ropr i) :
    ∃ d, build M (fun _ _ => 0) ropf ropr (inc.map some) [] (some m) Diag.empty = .ok (d, 1) ∧
      ∀ a < M.ns, ∑ b ∈ Finset.range M.ns, d.netFlow a b =
        M.atoms a m * ∑ i ∈ Finset.range M.nr, (ropf i - ropr i) *
          ((copies (M.nuR a i) : ℝ) - copies (M.nuP a i)) := by
  obtain ⟨d, hd, -, -, hfl, -⟩ := build_spec M (fun _ _ => 0) ropf ropr inc [] m inv_empty
  refine ⟨d, hd, fun a ha => ?_⟩
  have e1 : ∀ b, d.netFlow a b = evFlow ((triples M (elatomsFrom M (fun _ _ => 0) m)).flatMap
      (evs M (elatomsFrom M (fun _ _ => 0) m) ropf ropr inc [] m)) a b -
      evFlow ((triples M (elatomsFrom M (fun _ _ => 0) m)).flatMap
      (evs M (elatomsFrom M (fun _ _ => 0) m) ropf ropr inc [] m)) b a := by
    intro b; unfold Diag.netFlow; rw [hfl, hfl]
    simp [Diag.flow, Diag.empty]
  rw [Finset.sum_congr rfl fun b _ => e1 b, net_list _ _ _ evs_lt, sum_evs, Finset.mul_sum]
  refine Finset.sum_congr rfl fun i hi => ?_
  have hi' := Finset.mem_range.1 hi
  have hE := elatoms_new M m i
  have hnet : ((copies (M.nuR a i) : ℝ) - copies (M.nuP a i)) = -((net M i a : ℤ) : ℝ) := by
    unfold net; push_cast; ring
  -- the sums over positions with species `a`
  have hcr : ∑ kr ∈ Finset.range (reac M i).length,
      (if (reac M i).getD kr 0 = a then M.atoms ((reac M i).getD kr 0) m else 0) =
        ((- net M i a).toNat : ℝ) * M.atoms a m := by
    rw [sum_getD (reac M i) fun k => if k = a then M.atoms k m else 0]
    unfold reac
    rw [sum_replicates]
    rw [Finset.sum_eq_single a]
    · simp
    · intro k _ hk; simp [hk]
    · intro h; exact absurd (Finset.mem_range.2 ha) h
  have hcp : ∑ kp ∈ Finset.range (prods M i).length,
      (if (prods M i).getD kp 0 = a then M.atoms ((prods M i).getD kp 0) m else 0) =
        ((net M i a).toNat : ℝ) * M.atoms a m := by
    rw [sum_getD (prods M i) fun k => if k = a then M.atoms k m else 0]
    unfold prods
    rw [sum_replicates]
    rw [Finset.sum_eq_single a]
    · simp
    · intro k _ hk; simp [hk]
    · intro h; exact absurd (Finset.mem_range.2 ha) h
  have hdiff : ((- net M i a).toNat : ℝ) - ((net M i a).toNat : ℝ) = -((net M i a : ℤ) : ℝ) := by
    have : ((- net M i a).toNat : ℤ) - ((net M i a).toNat : ℤ) = - net M i a := by omega
    exact_mod_cast this
  by_cases hpos : 0 < elatomsFrom M (fun _ _ => 0) m i
  · rw [if_pos hpos]
    have hpair : ∀ kr ∈ Finset.range (reac M i).length, ∀ kp ∈ Finset.range (prods M i).length,
        ((evs M (elatomsFrom M (fun _ _ => 0) m) ropf ropr inc [] m (i, kr, kp)).map fun e =>
          e.2.2.2 * ((if e.1 = a then 1 else 0) - if e.2.1 = a then 1 else 0)).sum =
        (ropf i - ropr i) * (amount M m i kr kp * ((if (reac M i).getD kr 0 = a then 1 else 0) -
          if (prods M i).getD kp 0 = a then 1 else 0)) := by
      intro kr hkr kp hkp
      have hkr' := Finset.mem_range.1 hkr
      have hkp' := Finset.mem_range.1 hkp
      have hne : (reac M i).getD kr 0 ≠ (prods M i).getD kp 0 := by
        intro e
        refine reac_prods_disjoint M i ((reac M i).getD kr 0) ⟨getD_mem hkr', ?_⟩
        rw [e]; exact getD_mem hkp'
      have hst : ∀ k, 0 ≤ status inc [] k := by
        intro k; unfold status; simp only [List.not_mem_nil, if_false]; split <;> norm_num
      have hn := (hc i hi').nonneg kr hkr' kp hkp'
      unfold evs Pair
      simp only [hst, and_true]
      unfold amount at hn ⊢
      rw [hE]
      by_cases hat : 0 < M.atoms ((reac M i).getD kr 0) m ∧ 0 < M.atoms ((prods M i).getD kp 0) m
      · rw [if_pos hat] at hn ⊢
        rw [if_pos ⟨hne, hat⟩]
        have q1 := mul_nonneg (hf i) hn
        have q2 := mul_nonneg (hr i) hn
        rcases q1.lt_or_eq with c1 | c1 <;> rcases q2.lt_or_eq with c2 | c2
        · rw [if_pos c1, if_pos c2]
          simp only [List.map_append, List.map_cons, List.map_nil, List.sum_append, List.sum_cons,
            List.sum_nil]
          ring
        · rw [if_pos c1, if_neg (by rw [← c2]; exact lt_irrefl _)]
          simp only [List.map_append, List.map_cons, List.map_nil, List.sum_append, List.sum_cons,
            List.sum_nil]
          linear_combination (-((if (reac M i).getD kr 0 = a then (1:ℝ) else 0) -
            if (prods M i).getD kp 0 = a then 1 else 0)) * c2
        · rw [if_neg (by rw [← c1]; exact lt_irrefl _), if_pos c2]
          simp only [List.map_append, List.map_cons, List.map_nil, List.sum_append, List.sum_cons,
            List.sum_nil]
          linear_combination (((if (reac M i).getD kr 0 = a then (1:ℝ) else 0) -
            if (prods M i).getD kp 0 = a then 1 else 0)) * c1
        · rw [if_neg (by rw [← c1]; exact lt_irrefl _), if_neg (by rw [← c2]; exact lt_irrefl _)]
          simp only [List.map_append, List.map_nil, List.sum_append, List.sum_nil]
          linear_combination (((if (reac M i).getD kr 0 = a then (1:ℝ) else 0) -
            if (prods M i).getD kp 0 = a then 1 else 0)) * c1 -
            (((if (reac M i).getD kr 0 = a then (1:ℝ) else 0) -
            if (prods M i).getD kp 0 = a then 1 else 0)) * c2
      · rw [if_neg hat, if_neg (fun h => hat h.2)]; simp
    rw [Finset.sum_congr rfl fun kr hkr => Finset.sum_congr rfl fun kp hkp => hpair kr hkr kp hkp]
    simp only [← Finset.mul_sum, mul_sub, Finset.sum_sub_distrib]
    have t1 : ∑ kr ∈ Finset.range (reac M i).length, ∑ kp ∈ Finset.range (prods M i).length,
        amount M m i kr kp * (if (reac M i).getD kr 0 = a then (1:ℝ) else 0) =
        ((- net M i a).toNat : ℝ) * M.atoms a m := by
      rw [← hcr]
      refine Finset.sum_congr rfl fun kr hkr => ?_
      rw [← Finset.sum_mul, (hc i hi').reactant kr (Finset.mem_range.1 hkr)]
      split <;> ring
    have t2 : ∑ kr ∈ Finset.range (reac M i).length, ∑ kp ∈ Finset.range (prods M i).length,
        amount M m i kr kp * (if (prods M i).getD kp 0 = a then (1:ℝ) else 0) =
        ((net M i a).toNat : ℝ) * M.atoms a m := by
      rw [← hcp, Finset.sum_comm]
      refine Finset.sum_congr rfl fun kp hkp => ?_
      rw [← Finset.sum_mul, (hc i hi').product kp (Finset.mem_range.1 hkp)]
      split <;> ring
    rw [t1, t2, ← mul_sub (ropf i - ropr i) (_ : ℝ) (_ : ℝ), ← sub_mul, hdiff]
    unfold net; push_cast; ring
  · rw [if_neg hpos, hnet]
    rw [hE] at hpos
    unfold total at hpos
    have hzero : net M i a ≠ 0 → M.atoms a m = 0 := by
      intro hn
      rcases lt_or_gt_of_ne hn with hlt | hgt
      · have hmem : a ∈ reac M i := mem_reac.2 ⟨ha, hlt⟩
        obtain ⟨j, hj, hj'⟩ := List.getElem_of_mem hmem
        have := le_sum h0 hj
        rw [show (reac M i).getD j 0 = a by simp [List.getD, hj, hj']] at this
        exact le_antisymm (this.trans (not_lt.1 hpos)) (h0 a)
      · have hmem : a ∈ prods M i := mem_prods.2 ⟨ha, hgt⟩
        obtain ⟨j, hj, hj'⟩ := List.getElem_of_mem hmem
        have := le_sum h0 hj
        rw [show (prods M i).getD j 0 = a by simp [List.getD, hj, hj'], ← hb i hi'] at this
        exact le_antisymm (this.trans (not_lt.1 hpos)) (h0 a)
    by_cases hn : net M i a = 0
    · rw [hn]; simp
    · rw [hzero hn]; ring

/-- The same for integer coefficients in balanced reactions, with the conditions under which
atoms are conserved spelled out: only one reactant or only one product of the net reaction
contains the element, or there are two of each and the first reactant and the first product can
be compared element by element. -/
theorem build_net_flow {M : Mech} {A R P : ℕ → ℕ → ℕ} {m : ℕ} (ropf ropr : ℕ → ℝ)
    (inc : List ℕ) (hA : ∀ k m, M.atoms k m = A k m) (hR : ∀ k i, M.nuR k i = R k i)
    (hP : ∀ k i, M.nuP k i = P k i) (hm : m < M.nel)
    (hbal : ∀ i < M.nr, ∀ m, ∑ k ∈ Finset.range M.ns, R k i * A k m =
      ∑ k ∈ Finset.range M.ns, P k i * A k m)
    (hres : ∀ i < M.nr, Single M m (reac M i) ∨ Single M m (prods M i) ∨
      ∃ r0 r1 p0 p1, reac M i = [r0, r1] ∧ prods M i = [p0, p1] ∧
        ((∀ m < M.nel, A r0 m ≤ A p0 m) ∨ (∀ m < M.nel, A p0 m ≤ A r0 m)))
    (hf : ∀ i, 0 ≤ ropf i) (hr : ∀ i, 0 ≤ ropr i) :
    ∃ d, build M (fun _ _ => 0) ropf ropr (inc.map some) [] (some m) Diag.empty = .ok (d, 1) ∧
      ∀ a < M.ns, ∑ b ∈ Finset.range M.ns, d.netFlow a b =
        (A a m : ℝ) * ∑ i ∈ Finset.range M.nr, (ropf i - ropr i) * ((R a i : ℝ) - P a i) := by
  have h0 : ∀ k, 0 ≤ M.atoms k m := by intro k; rw [hA]; exact Nat.cast_nonneg _
  have hb : ∀ i < M.nr, ∀ m, ((reac M i).map (M.atoms · m)).sum =
      ((prods M i).map (M.atoms · m)).sum := by
    intro i hi m
    unfold reac prods
    rw [sum_replicates, sum_replicates, ← sub_eq_zero, ← Finset.sum_sub_distrib]
    have : ∀ k ∈ Finset.range M.ns, ((- net M i k).toNat : ℝ) * M.atoms k m -
        ((net M i k).toNat : ℝ) * M.atoms k m = (R k i : ℝ) * A k m - (P k i : ℝ) * A k m := by
      intro k _
      rw [hA, ← sub_mul]
      have h1 : ((- net M i k).toNat : ℤ) - ((net M i k).toNat : ℤ) = (R k i : ℤ) - P k i := by
        rw [net_nat hR hP]; omega
      have h2 : ((- net M i k).toNat : ℝ) - ((net M i k).toNat : ℝ) = (R k i : ℝ) - P k i := by
        exact_mod_cast h1
      rw [h2]; ring
    rw [Finset.sum_congr rfl this, Finset.sum_sub_distrib, sub_eq_zero]
    exact_mod_cast hbal i hi m
  have hc : ∀ i < M.nr, Conserves M m i := by
    intro i hi
    rcases hres i hi with h | h | ⟨r0, r1, p0, p1, e1, e2, h⟩
    · exact conserves_single h0 (hb i hi m) (Or.inl h)
    · exact conserves_single h0 (hb i hi m) (Or.inr h)
    · refine conserves_two hA hm e1 e2 ?_ h
      intro m'
      have := hb i hi m'
      rw [e1, e2] at this
      simp only [hA, List.map_cons, List.map_nil, List.sum_cons, List.sum_nil, add_zero] at this
      exact_mod_cast this
  obtain ⟨d, hd, h⟩ := build_conserves ropf ropr inc h0 hc (fun i hi => hb i hi m) hf hr
  refine ⟨d, hd, fun a ha => ?_⟩
  rw [h a ha, hA]
  simp only [hR, hP, copies_nat]

/-! ## Examples -/

/-- A mechanism from integer tables. -/
noncomputable def Mech.ofNat (ns nel nr : ℕ) (A R P : ℕ → ℕ → ℕ) : Mech :=
  ⟨ns, nel, nr, fun k m => A k m, fun k i => R k i, fun k i => P k i⟩

/-- OH (0), CH3 (1), CH4 (2), H2O (3); elements O, H, C. -/
def exA (k m : ℕ) : ℕ := ([[1, 1, 0], [0, 3, 1], [0, 4, 1], [1, 2, 0]].getD k []).getD m 0

/-- OH + CH4 = CH3 + H2O. -/
noncomputable def exSwap : Mech :=
  Mech.ofNat 4 3 1 exA (fun k _ => [1, 0, 1, 0].getD k 0) (fun k _ => [0, 1, 0, 1].getD k 0)

theorem exSwap_two : Two exSwap exA 1 0 0 2 1 3 where
  atoms := fun _ _ => rfl
  el := by show 1 < 3; omega
  hr := by rw [reac_nat (fun _ _ => rfl) (fun _ _ => rfl)]; rfl
  hp := by rw [prods_nat (fun _ _ => rfl) (fun _ _ => rfl)]; rfl
  bal := by
    intro m
    match m with
    | 0 => rfl
    | 1 => rfl
    | 2 => rfl
    | m + 3 => simp [exA]
  c0 := by decide
  c1 := by decide
  c2 := by decide
  c3 := by decide

/-- With the species in the order OH, CH3, CH4, H2O, the hydrogen atom which goes from CH4 to H2O
in OH + CH4 = CH3 + H2O is lost: CH4 gives away 3 of its 4 atoms, H2O receives 1 of its 2. -/
theorem swapped_lost :
    amount exSwap 1 0 1 1 = 0 ∧
    amount exSwap 1 0 1 0 + amount exSwap 1 0 1 1 = 3 ∧ exSwap.atoms 2 1 = 4 ∧
    amount exSwap 1 0 0 1 + amount exSwap 1 0 1 1 = 1 ∧ exSwap.atoms 3 1 = 2 := by
  obtain ⟨-, h01, h10, h11⟩ := two_swapped exSwap_two
    ⟨0, by show 0 < 3; omega, by decide⟩ ⟨1, by show 1 < 3; omega, by decide⟩
    (by intro m hm; have : m < 3 := hm
        obtain rfl | rfl | rfl : m = 0 ∨ m = 1 ∨ m = 2 := by omega
        all_goals decide)
    ⟨1, by show 1 < 3; omega, by decide⟩
  rw [h01, h10, h11]
  have e1 : exA 1 1 = 3 := rfl
  have e2 : exA 0 1 = 1 := rfl
  have e3 : exSwap.atoms 2 1 = ((4 : ℕ) : ℝ) := rfl
  have e4 : exSwap.atoms 3 1 = ((2 : ℕ) : ℝ) := rfl
  rw [e1, e2, e3, e4]; norm_num

/-- The same atoms with the products listed in the other order. -/
def exA' (k m : ℕ) : ℕ := ([[1, 1, 0], [1, 2, 0], [0, 4, 1], [0, 3, 1]].getD k []).getD m 0

/-- OH (0) + CH4 (2) = H2O (1) + CH3 (3). -/
noncomputable def exGood : Mech :=
  Mech.ofNat 4 3 1 exA' (fun k _ => [1, 0, 1, 0].getD k 0) (fun k _ => [0, 1, 0, 1].getD k 0)

/-- In the order OH, H2O, CH4, CH3 the hypotheses of `build_net_flow` hold: the net flow of
hydrogen out of CH4 is four times the rate. -/
theorem good_flow : ∃ d, build exGood (fun _ _ => 0) (fun _ => 2) (fun _ => 0) [] [] (some 1)
    Diag.empty = .ok (d, 1) ∧ ∑ b ∈ Finset.range 4, d.netFlow 2 b = 8 := by
  have hr : reac exGood 0 = [0, 2] := by
    rw [reac_nat (fun _ _ => rfl) (fun _ _ => rfl)]; rfl
  have hp : prods exGood 0 = [1, 3] := by
    rw [prods_nat (fun _ _ => rfl) (fun _ _ => rfl)]; rfl
  obtain ⟨d, hd, h⟩ := build_net_flow (M := exGood) (A := exA')
    (R := fun k _ => [1, 0, 1, 0].getD k 0) (P := fun k _ => [0, 1, 0, 1].getD k 0) (m := 1)
    (fun _ => 2) (fun _ => 0) [] (fun _ _ => rfl) (fun _ _ => rfl) (fun _ _ => rfl)
    (by show 1 < 3; omega)
    (by
      intro i _ m
      have : exGood.ns = 4 := rfl
      rw [this]
      match m with
      | 0 => rfl
      | 1 => rfl
      | 2 => rfl
      | m + 3 => simp [exA', Finset.sum_range_succ])
    (by
      intro i hi
      have : i < 1 := hi
      obtain rfl : i = 0 := by omega
      refine Or.inr (Or.inr ⟨0, 2, 1, 3, hr, hp, Or.inl ?_⟩)
      intro m hm
      have : m < 3 := hm
      obtain rfl | rfl | rfl : m = 0 ∨ m = 1 ∨ m = 2 := by omega
      all_goals decide)
    (fun _ => by norm_num) (fun _ => le_rfl)
  refine ⟨d, hd, ?_⟩
  have := h 2 (by show 2 < 4; omega)
  have e : exGood.ns = 4 := rfl
  have e' : exGood.nr = 1 := rfl
  rw [e, e'] at this
  rw [this]
  have e1 : exA' 2 1 = 4 := rfl
  rw [e1]; norm_num

/-- A second call of `init` on the same builder doubles `m_elatoms`; then no reactant and no
product contains all atoms, and a determinate reaction is ignored. -/
theorem init_twice (M : Mech) (m i kr kp : ℕ) (h0 : ∀ k, 0 ≤ M.atoms k m)
    (hb : ((reac M i).map (M.atoms · m)).sum = ((prods M i).map (M.atoms · m)).sum)
    (hd : determinate M i = true) (hr : kr < (reac M i).length) (hp : kp < (prods M i).length)
    (hpos : 0 < M.atoms ((reac M i).getD kr 0) m) :
    elatomsFrom M (elatomsFrom M fun _ _ => 0) m i =
        2 * ((reac M i).map (M.atoms · m)).sum ∧
      factorE M (elatomsFrom M (elatomsFrom M fun _ _ => 0) m i) m i kr kp = 0 := by
  have e : elatomsFrom M (elatomsFrom M fun _ _ => 0) m i =
      2 * ((reac M i).map (M.atoms · m)).sum := by
    unfold elatomsFrom; ring
  refine ⟨e, ?_⟩
  rw [e]
  have q1 := le_sum h0 hr
  have q2 := le_sum h0 hp
  rw [← hb] at q2
  unfold factorE
  simp only
  rw [if_pos ⟨by linarith, by linarith⟩]
  unfold transfer
  rw [if_pos hd]

/-- A non-integer coefficient is rounded up: in A = 1/2 B with one atom in A and two in B, the
flow from A to B is two atoms per reaction, while A has only one. -/
theorem fractional : ∃ M : Mech, reac M 0 = [0] ∧ prods M 0 = [1] ∧ M.nuP 1 0 = 1 / 2 ∧
    M.nuR 0 0 * M.atoms 0 0 = M.nuP 1 0 * M.atoms 1 0 ∧ M.atoms 0 0 = 1 ∧
    amount M 0 0 0 0 = 2 := by
  let M : Mech := ⟨2, 1, 1, fun k _ => if k = 0 then 1 else 2, fun k _ => if k = 0 then 1 else 0,
    fun k _ => if k = 0 then 0 else 1 / 2⟩
  have c0 : copies 0 = 0 := by simp [copies]
  have c1 : copies 1 = 1 := by simp [copies]
  have c2 : copies (1 / 2) = 1 := by
    have h1 := (copies_spec (1 / 2) 0).2 (by norm_num)
    have h2 : ¬ 1 < copies (1 / 2) := by rw [copies_spec]; norm_num
    omega
  have n0 : net M 0 0 = -1 := by simp [net, M, c0, c1]
  have n1 : net M 0 1 = 1 := by
    have : net M 0 1 = (copies (1 / 2) : ℤ) - copies 0 := rfl
    rw [this, c0, c2]; rfl
  have hr : reac M 0 = [0] := by
    have : reac M 0 = (List.range 2).flatMap fun k => List.replicate (- net M 0 k).toNat k := rfl
    rw [this]; simp [List.range_succ, n0, n1]
  have hp : prods M 0 = [1] := by
    have : prods M 0 = (List.range 2).flatMap fun k => List.replicate (net M 0 k).toNat k := rfl
    rw [this]; simp [List.range_succ, n0, n1]
  have a0 : M.atoms 0 0 = 1 := rfl
  have a1 : M.atoms 1 0 = 2 := rfl
  refine ⟨M, hr, hp, rfl, ?_, rfl, ?_⟩
  · show (1 : ℝ) * 1 = 1 / 2 * 2; norm_num
  · have ht : total M 0 0 = 1 := by unfold total; rw [hr]; simp [a0]
    unfold amount factorE
    simp only [hr, hp, List.getD_cons_zero, a0, a1, ht]
    norm_num

/-- A reaction which has not two net reactants and two net products is ignored for an element
of which no species contains all atoms. -/
theorem not_two_ignored (M : Mech) (m i kr kp : ℕ) (E : ℝ)
    (hn : ¬ ((reac M i).length = 2 ∧ (prods M i).length = 2))
    (h1 : M.atoms ((reac M i).getD kr 0) m < E) (h2 : M.atoms ((prods M i).getD kp 0) m < E) :
    factorE M E m i kr kp = 0 := by
  unfold factorE
  simp only
  rw [if_pos ⟨h2, h1⟩]
  have : transfer M i = none := by
    unfold transfer
    split
    · rfl
    · split
      · rename_i e1 e2
        rw [e1, e2] at hn; simp at hn
      · rfl
  rw [this]

/-- Excluded species have no paths. -/
theorem excluded_no_flow (M : Mech) (old : ℕ → ℕ → ℝ) (ropf ropr : ℕ → ℝ) (inc exc : List ℕ)
    (m : ℕ) (d : Diag) (r : ℤ)
    (h : build M old ropf ropr (inc.map some) (exc.map some) (some m) Diag.empty = .ok (d, r))
    (k : ℕ) (hk : k ∈ exc) (b : ℕ) : d.flow k b = 0 ∧ d.flow b k = 0 := by
  obtain ⟨d', hb, -, -, hf, -⟩ := build_spec M old ropf ropr inc exc m inv_empty
  rw [hb] at h
  simp only [Outcome.ok.injEq, Prod.mk.injEq] at h
  obtain ⟨rfl, -⟩ := h
  have hst : status inc exc k = -1 := by unfold status; rw [if_pos hk]
  have hz : ∀ x y, (x = k ∨ y = k) → evFlow ((triples M (elatomsFrom M old m)).flatMap
      (evs M (elatomsFrom M old m) ropf ropr inc exc m)) x y = 0 := by
    intro x y hxy
    unfold evFlow
    rw [List.sum_eq_zero]
    intro v hv
    obtain ⟨e, he, rfl⟩ := List.mem_map.1 hv
    rw [if_neg]
    rintro ⟨rfl, rfl⟩
    obtain ⟨t, -, he⟩ := List.mem_flatMap.1 he
    unfold evs at he
    split at he
    · rename_i hp
      unfold Pair at hp
      have hneg : ¬ (0 : ℤ) ≤ -1 := by norm_num
      have nr : (reac M t.1).getD t.2.1 0 ≠ k := by
        intro e; have := hp.2.2.2.1; rw [e, hst] at this; exact hneg this
      have np : (prods M t.1).getD t.2.2 0 ≠ k := by
        intro e; have := hp.2.2.2.2; rw [e, hst] at this; exact hneg this
      rw [List.mem_append] at he
      rcases he with he | he
      · split at he
        · rw [List.mem_singleton] at he; rw [he] at hxy
          rcases hxy with h | h
          · exact nr h
          · exact np h
        · cases he
      · split at he
        · rw [List.mem_singleton] at he; rw [he] at hxy
          rcases hxy with h | h
          · exact np h
          · exact nr h
        · cases he
    · cases he
  rw [hf, hf, hz k b (Or.inl rfl), hz b k (Or.inr rfl)]
  simp [Diag.flow, Diag.empty]

/-- The list of included species has no effect on the flows. -/
theorem included_no_effect (M : Mech) (old : ℕ → ℕ → ℝ) (ropf ropr : ℕ → ℝ) (inc exc : List ℕ)
    (m : ℕ) : ∃ d1 d2,
      build M old ropf ropr (inc.map some) (exc.map some) (some m) Diag.empty = .ok (d1, 1) ∧
      build M old ropf ropr [] (exc.map some) (some m) Diag.empty = .ok (d2, 1) ∧
      ∀ a b, d1.flow a b = d2.flow a b := by
  obtain ⟨d1, h1, -, -, f1, -⟩ := build_spec M old ropf ropr inc exc m inv_empty
  obtain ⟨d2, h2, -, -, f2, -⟩ := build_spec M old ropf ropr [] exc m inv_empty
  refine ⟨d1, d2, h1, h2, fun a b => ?_⟩
  have hs : ∀ k, (0 ≤ status inc exc k) ↔ 0 ≤ status [] exc k := by
    intro k; unfold status
    split
    · rfl
    · split <;> simp
  have : evs M (elatomsFrom M old m) ropf ropr inc exc m =
      evs M (elatomsFrom M old m) ropf ropr [] exc m := by
    funext t
    have hp : Pair M inc exc m t ↔ Pair M [] exc m t := by
      unfold Pair; rw [hs, hs]
    unfold evs
    by_cases c : Pair M [] exc m t
    · rw [if_pos c, if_pos (hp.2 c)]
    · rw [if_neg c, if_neg (fun h => c (hp.1 h))]
  rw [f1, f2, this]

/-! ## Reaction numbers -/

/-- The flow of a path is recorded under the number of the reaction, the flow of the reverse
reaction under the negative number: reaction 0 and its reverse have the same number. -/
theorem number_of_reverse (d : Diag) (h : Inv d) (a b : ℕ) (ha : a ∈ d.nums) (hb : b ∈ d.nums)
    (hab : a ≠ b) (i : ℕ) (v w : ℝ) (hv : 0 < v) (hw : 0 < w) :
    ∃ d1 d2, d.link a b i v = .ok d1 ∧ d1.link b a (-i) w = .ok d2 ∧
      d2.rxnFlow a b i = d.rxnFlow a b i + v ∧ d2.rxnFlow b a (-i) = d.rxnFlow b a (-i) + w ∧
      (-((0 : ℕ) : ℤ) = ((0 : ℕ) : ℤ)) := by
  obtain ⟨d1, l1, i1, m1, -, x1⟩ := link_spec h ha hb hab i hv
  obtain ⟨d2, l2, i2, m2, -, x2⟩ := link_spec i1 (a := b) (b := a) (by rw [m1]; exact hb)
    (by rw [m1]; exact ha) hab.symm (-i) hw
  refine ⟨d1, d2, l1, l2, ?_, ?_, by simp⟩
  · rw [x2, x1]
    have : ¬ (b = a ∧ a = b ∧ -(i : ℤ) = i) := fun q => hab q.2.1
    rw [if_neg this]; simp
  · rw [x2, x1]
    have : ¬ (a = b ∧ b = a ∧ (i : ℤ) = -i) := fun q => hab q.1
    rw [if_neg this]; simp

/-! ## Nodes -/

/-- Asking for a node which does not exist adds a null pointer: the diagram cannot be exported
any more. -/
theorem hasNode_breaks (d : Diag) (h : d.keys = d.nums) (k : ℕ) (hk : k ∉ d.nums)
    (loc : Option ℕ) (thr scale : ℝ) :
    (d.hasNode k).2 = false ∧ exportNet (d.hasNode k).1 loc thr scale = .ub := by
  have hk' : k ∉ d.keys := by rw [h]; exact hk
  refine ⟨by simp [Diag.hasNode, hk], ?_⟩
  unfold exportNet Diag.hasNode Diag.touch
  simp only [hk', if_false]
  rw [if_pos]
  rw [List.length_append, h]; simp

example : exportNet (Diag.empty.hasNode 0).1 none 0 0 = .ub :=
  (hasNode_breaks Diag.empty rfl 0 (by simp [Diag.empty]) none 0 0).2

/-- Linking nodes of which one does not exist dereferences a null pointer. -/
theorem link_missing (d : Diag) (h : Inv d) (a b : ℕ) (r : ℤ) (v : ℝ)
    (hm : a ∉ d.nums ∨ b ∉ d.nums) : d.link a b r v = .ub := by
  unfold Diag.link
  cases hp : d.path a b with
  | none =>
    simp only
    rw [if_neg]
    rintro ⟨h1, h2⟩
    rcases hm with hm | hm
    · exact hm h1
    · exact hm h2
  | some p =>
    obtain ⟨h1, h2, -⟩ := h.ends a b (by rw [hp]; simp)
    rcases hm with hm | hm
    · exact absurd h1 hm
    · exact absurd h2 hm

/-! ## Adding diagrams -/

/-- `add` adds the flows of the other diagram to the paths which exist here, and no others. -/
theorem add_spec (d e : Diag) (a b : ℕ) :
    (d.add e).flow a b = if d.path a b = none then 0 else d.flow a b + e.flow a b := by
  unfold Diag.add Diag.flow
  cases hp : d.path a b with
  | none => simp [hp]
  | some p => simp [hp]

/-- Paths which exist only in the other diagram are lost. -/
theorem add_loses : ∃ d e : Diag, Inv d ∧ Inv e ∧ e.flow 0 1 = 1 ∧ (d.add e).flow 0 1 = 0 ∧
    (e.add d).flow 0 1 = 1 := by
  have h1 := (ensure_spec inv_empty 0).1
  obtain ⟨h2, -, n2⟩ := ensure_spec h1 1
  have m0 : (0 : ℕ) ∈ ((Diag.empty.ensure 0).ensure 1).nums := by decide
  have m1 : (1 : ℕ) ∈ ((Diag.empty.ensure 0).ensure 1).nums := by decide
  obtain ⟨e, -, he, -, hf, -⟩ := link_spec h2 m0 m1 (by omega) 0 (v := 1) (by norm_num)
  have hfe : e.flow 0 1 = 1 := by
    rw [hf]
    have : ((Diag.empty.ensure 0).ensure 1).flow 0 1 = 0 := rfl
    rw [this]; simp
  refine ⟨Diag.empty, e, inv_empty, he, hfe, ?_, ?_⟩
  · rw [add_spec]; simp [Diag.empty]
  · rw [add_spec, if_neg, hfe]
    · simp [Diag.flow, Diag.empty]
    · intro hn
      unfold Diag.flow at hfe
      rw [hn] at hfe; norm_num at hfe

/-! ## Export -/

theorem foldl_max_le (l : List ℝ) : ∀ (s : ℝ), s ≤ l.foldl (fun m x => max x m) s ∧
    ∀ x ∈ l, x ≤ l.foldl (fun m x => max x m) s := by
  induction l with
  | nil => intro s; simp
  | cons y l ih =>
    intro s
    simp only [List.foldl_cons]
    obtain ⟨h1, h2⟩ := ih (max y s)
    refine ⟨(le_max_right _ _).trans h1, ?_⟩
    intro x hx
    rcases List.mem_cons.1 hx with rfl | hx
    · exact (le_max_left _ _).trans h1
    · exact h2 x hx

/-- Two nodes of the list, the first before the second. -/
theorem pairs_mem {l : List ℕ} {a b : ℕ} (ha : a ∈ l) (hb : b ∈ l) (hab : a ≠ b) :
    (∃ p ∈ l.zipIdx, p.1 = a ∧ b ∈ l.drop (p.2 + 1)) ∨
    (∃ p ∈ l.zipIdx, p.1 = b ∧ a ∈ l.drop (p.2 + 1)) := by
  obtain ⟨i, hi, rfl⟩ := List.getElem_of_mem ha
  obtain ⟨j, hj, rfl⟩ := List.getElem_of_mem hb
  rcases lt_trichotomy i j with h | h | h
  · left
    refine ⟨(l[i], i), ?_, rfl, ?_⟩
    · rw [List.mem_zipIdx_iff_getElem?]; simp [hi]
    · rw [List.mem_drop_iff_getElem]
      exact ⟨j - (i + 1), by omega, by congr 1; omega⟩
  · subst h; exact absurd rfl hab
  · right
    refine ⟨(l[j], j), ?_, rfl, ?_⟩
    · rw [List.mem_zipIdx_iff_getElem?]; simp [hj]
    · rw [List.mem_drop_iff_getElem]
      exact ⟨i - (j + 1), by omega, by congr 1; omega⟩

theorem pairs_sub {l : List ℕ} {p : ℕ × ℕ} {b : ℕ} (hp : p ∈ l.zipIdx)
    (hb : b ∈ l.drop (p.2 + 1)) : p.1 ∈ l ∧ b ∈ l := by
  refine ⟨?_, List.mem_of_mem_drop hb⟩
  rw [List.mem_zipIdx_iff_getElem?] at hp
  exact List.mem_of_getElem? hp

theorem netFlow_neg (d : Diag) (a b : ℕ) : d.netFlow b a = - d.netFlow a b := by
  unfold Diag.netFlow; ring

/-- The edges for net flows: exactly the pairs of nodes with a positive net flow from the first
to the second, of at least the threshold relative to the scale, and touching the selected
species if there is one. -/
theorem edges_iff (d : Diag) (loc : Option ℕ) (thr flmax : ℝ) (a b : ℕ) (ρ : ℝ) :
    (a, b, ρ) ∈ edges d loc thr flmax d.nums ↔
      a ∈ d.nums ∧ b ∈ d.nums ∧ 0 < d.flow a b - d.flow b a ∧
      ρ = (d.flow a b - d.flow b a) / flmax ∧ thr ≤ ρ ∧
      ∀ l, loc = some l → a = l ∨ b = l := by
  have key : ∀ k1 k2 : ℕ, (a, b, ρ) ∈ edgeOf d loc thr flmax k1 k2 ↔
      ((a = k1 ∧ b = k2) ∨ (a = k2 ∧ b = k1)) ∧ 0 < d.netFlow a b ∧
      ρ = d.netFlow a b / flmax ∧ thr ≤ ρ ∧ ∀ l, loc = some l → a = l ∨ b = l := by
    intro k1 k2
    have core : (a, b, ρ) ∈ (if d.netFlow k1 k2 ≠ 0 then
        let e := if 0 < d.netFlow k1 k2 then (k1, k2, d.netFlow k1 k2 / flmax)
          else (k2, k1, -d.netFlow k1 k2 / flmax)
        if thr ≤ e.2.2 then [e] else []
      else []) ↔ ((a = k1 ∧ b = k2) ∨ (a = k2 ∧ b = k1)) ∧ 0 < d.netFlow a b ∧
      ρ = d.netFlow a b / flmax ∧ thr ≤ ρ := by
      rcases lt_trichotomy (d.netFlow k1 k2) 0 with c | c | c
      · rw [if_pos c.ne]
        simp only [not_lt.2 c.le, if_false]
        constructor
        · intro hm
          split at hm
          · rename_i ht
            simp only [List.mem_singleton, Prod.mk.injEq] at hm
            obtain ⟨rfl, rfl, rfl⟩ := hm
            rw [netFlow_neg d b a]
            exact ⟨Or.inr ⟨rfl, rfl⟩, by linarith, rfl, ht⟩
          · cases hm
        · rintro ⟨⟨rfl, rfl⟩ | ⟨rfl, rfl⟩, h1, h2, h3⟩
          · linarith
          · rw [netFlow_neg d b a] at h2
            rw [← h2, if_pos h3]; simp
      · rw [if_neg (by rw [c]; simp)]
        constructor
        · intro hm; cases hm
        · rintro ⟨⟨rfl, rfl⟩ | ⟨rfl, rfl⟩, h1, h2, h3⟩
          · linarith
          · rw [netFlow_neg d b a] at h1; linarith
      · rw [if_pos c.ne']
        simp only [c, if_true]
        constructor
        · intro hm
          split at hm
          · rename_i ht
            simp only [List.mem_singleton, Prod.mk.injEq] at hm
            obtain ⟨rfl, rfl, rfl⟩ := hm
            exact ⟨Or.inl ⟨rfl, rfl⟩, c, rfl, ht⟩
          · cases hm
        · rintro ⟨⟨rfl, rfl⟩ | ⟨rfl, rfl⟩, h1, h2, h3⟩
          · rw [← h2, if_pos h3]; simp
          · rw [netFlow_neg d b a] at h1; linarith
    unfold edgeOf
    cases loc with
    | none =>
      simp only
      refine core.trans ?_
      simp
    | some l =>
      simp only
      by_cases c : k1 ≠ l ∧ k2 ≠ l
      · rw [if_pos c]
        simp only [ne_eq, not_true_eq_false, if_false, List.not_mem_nil, false_iff]
        rintro ⟨⟨rfl, rfl⟩ | ⟨rfl, rfl⟩, -, -, -, h4⟩
        · rcases h4 l rfl with h | h
          · exact c.1 h
          · exact c.2 h
        · rcases h4 l rfl with h | h
          · exact c.2 h
          · exact c.1 h
      · rw [if_neg c]
        refine core.trans ?_
        have c' : k1 = l ∨ k2 = l := by
          by_contra hc; rw [not_or] at hc; exact c hc
        constructor
        · rintro ⟨h1, h2, h3, h4⟩
          refine ⟨h1, h2, h3, h4, fun l' hl' => ?_⟩
          obtain rfl := Option.some.inj hl'
          rcases h1 with ⟨rfl, rfl⟩ | ⟨rfl, rfl⟩
          · exact c'
          · exact c'.symm
        · rintro ⟨h1, h2, h3, h4, -⟩
          exact ⟨h1, h2, h3, h4⟩
  unfold edges
  simp only [List.mem_flatMap]
  have hnf : d.netFlow a b = d.flow a b - d.flow b a := rfl
  rw [← hnf]
  constructor
  · rintro ⟨p, hp, k2, hk2, he⟩
    rw [key] at he
    obtain ⟨q1, q2⟩ := pairs_sub hp hk2
    rcases he.1 with ⟨rfl, rfl⟩ | ⟨rfl, rfl⟩
    · exact ⟨q1, q2, he.2⟩
    · exact ⟨q2, q1, he.2⟩
  · rintro ⟨ha, hb, h1, h2⟩
    have hab : a ≠ b := by
      rintro rfl
      unfold Diag.netFlow at h1; linarith
    rcases pairs_mem ha hb hab with ⟨p, hp, rfl, hq⟩ | ⟨p, hp, rfl, hq⟩
    · exact ⟨p, hp, b, hq, (key _ _).2 ⟨Or.inl ⟨rfl, rfl⟩, h1, h2⟩⟩
    · exact ⟨p, hp, a, hq, (key _ _).2 ⟨Or.inr ⟨rfl, rfl⟩, h1, h2⟩⟩

/-- Without a given scale, the relative flows are at most one. -/
theorem ratio_le_one (d : Diag) (scale : ℝ) (hs : scale ≤ 0) (a b : ℕ) (ha : a ∈ d.nums)
    (hb : b ∈ d.nums) : d.netFlow a b / flmaxNet d scale d.nums ≤ 1 := by
  have hpos : 0 < flmaxNet d scale d.nums :=
    lt_of_lt_of_le (by norm_num) (le_max_right _ _)
  rw [div_le_one hpos]
  by_cases hab : a = b
  · subst hab
    have : d.netFlow a a = 0 := by unfold Diag.netFlow; ring
    rw [this]; exact hpos.le
  · unfold flmaxNet
    rw [if_pos hs]
    refine le_trans ?_ (le_max_left _ _)
    rcases pairs_mem ha hb hab with ⟨p, hp, rfl, hq⟩ | ⟨p, hp, rfl, hq⟩
    · refine le_trans ?_ ((foldl_max_le _ 0).2 (if d.netFlow p.1 b < 0 then -d.netFlow p.1 b
        else d.netFlow p.1 b) ?_)
      · split <;> linarith
      · rw [List.mem_flatMap]
        exact ⟨p, hp, List.mem_map.2 ⟨b, hq, rfl⟩⟩
    · refine le_trans ?_ ((foldl_max_le _ 0).2 (if d.netFlow p.1 a < 0 then -d.netFlow p.1 a
        else d.netFlow p.1 a) ?_)
      · rw [netFlow_neg d p.1 a]
        split <;> linarith
      · rw [List.mem_flatMap]
        exact ⟨p, hp, List.mem_map.2 ⟨a, hq, rfl⟩⟩

/-- Without a given scale, the nodes written are those at the ends of the edges. -/
theorem visible_nodes (d : Diag) (h : Inv d) (loc : Option ℕ) (thr scale : ℝ) (hs : scale ≤ 0) :
    ∃ es vs, exportNet d loc thr scale = .ok (es, vs) ∧
      es = edges d loc thr (flmaxNet d scale d.nums) d.nums ∧
      ∀ k, k ∈ vs ↔ ∃ e ∈ es, e.1 = k ∨ e.2.1 = k := by
  have hk : ¬ d.nums.length < d.keys.length := by rw [h.keys]; exact lt_irrefl _
  refine ⟨_, _, by unfold exportNet; rw [if_neg hk], rfl, ?_⟩
  intro k
  simp only [hs, decide_true, Bool.not_true, Bool.false_and, Bool.false_or, List.mem_filter,
    List.any_eq_true, Bool.or_eq_true, beq_iff_eq]
  constructor
  · rintro ⟨-, h2⟩; exact h2
  · rintro ⟨e, he, h2⟩
    refine ⟨?_, e, he, h2⟩
    rw [h.keys]
    obtain ⟨a, b, ρ⟩ := e
    obtain ⟨q1, q2, -⟩ := (edges_iff d loc thr _ a b ρ).1 he
    rcases h2 with rfl | rfl
    · exact q1
    · exact q2

/-- With a scale, nodes stay visible from an earlier export although no edge touches them. -/
theorem stale_visible (d : Diag) (h : Inv d) (loc : Option ℕ) (thr scale : ℝ) (hs : 0 < scale)
    (k : ℕ) (hk : k ∈ d.nums) (hv : d.visible k = true) :
    ∃ es vs, exportNet d loc thr scale = .ok (es, vs) ∧ k ∈ vs := by
  have hl : ¬ d.nums.length < d.keys.length := by rw [h.keys]; exact lt_irrefl _
  refine ⟨_, _, by unfold exportNet; rw [if_neg hl], ?_⟩
  simp only [List.mem_filter]
  refine ⟨by rw [h.keys]; exact hk, ?_⟩
  simp [not_le.2 hs, hv]

/-- The width of a line is between 2, at the threshold, and 6, for the full scale. -/
theorem lwidth_range (ρ t : ℝ) (ht : 0 < t) (ht1 : t < 1) (h1 : t ≤ ρ) (h2 : ρ ≤ 1) :
    2 ≤ lwidth ρ t ∧ lwidth ρ t ≤ 6 ∧ lwidth t t = 2 ∧ lwidth 1 t = 6 := by
  have h10 : (1 : ℝ) < 10 := by norm_num
  have hlt : Real.logb 10 t < 0 := Real.logb_neg h10 ht ht1
  have hρ : 0 < ρ := lt_of_lt_of_le ht h1
  have e : ∀ x : ℝ, 0 < x → lwidth x t = 6 - 4 * (Real.logb 10 x / Real.logb 10 t) := by
    intro x hx
    unfold lwidth
    rw [Real.logb_div hx.ne' ht.ne']
    have := hlt.ne
    generalize Real.logb 10 t = L at this ⊢
    field_simp
    ring
  have e1 : Real.logb 10 t ≤ Real.logb 10 ρ := Real.logb_le_logb_of_le h10 ht h1
  have e2 : Real.logb 10 ρ ≤ 0 := Real.logb_nonpos h10 hρ.le h2
  have q1 : 0 ≤ Real.logb 10 ρ / Real.logb 10 t := div_nonneg_of_nonpos e2 hlt.le
  have q2 : Real.logb 10 ρ / Real.logb 10 t ≤ 1 := by
    rw [div_le_iff_of_neg hlt]; linarith
  refine ⟨?_, ?_, ?_, ?_⟩
  · rw [e ρ hρ]; linarith
  · rw [e ρ hρ]; linarith
  · rw [e t ht, div_self hlt.ne]; norm_num
  · rw [e 1 one_pos, Real.logb_one]; norm_num

/-- One-way flows: an edge for every path above the threshold. -/
theorem oneWay_iff (d : Diag) (thr scale : ℝ) (hs : 0 < scale) (a b : ℕ) (ρ : ℝ) :
    ∃ es, exportOneWay d none thr scale = some es ∧
      ((a, b, ρ) ∈ es ↔ (a, b) ∈ d.plist ∧ ρ = d.flow a b / scale ∧ thr < ρ) := by
  unfold exportOneWay
  simp only [not_lt.2 hs.le, if_false, hs.ne', false_and]
  refine ⟨_, rfl, ?_⟩
  rw [List.mem_flatMap]
  constructor
  · rintro ⟨q, hq, hm⟩
    split at hm
    · rename_i ht
      simp only [List.mem_singleton, Prod.mk.injEq] at hm
      obtain ⟨rfl, rfl, rfl⟩ := hm
      exact ⟨hq, rfl, ht⟩
    · cases hm
  · rintro ⟨hq, rfl, ht⟩
    refine ⟨(a, b), hq, ?_⟩
    simp only
    rw [if_pos ht]; simp

/-- A scale of zero means "no scale" for net flows, but a division by zero for one-way flows. -/
theorem oneWay_zero_scale (d : Diag) (h : d.plist ≠ []) (thr : ℝ) :
    exportOneWay d none thr 0 = none := by
  unfold exportOneWay
  simp [h]

end Verif.RPath
