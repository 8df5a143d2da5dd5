import Verif.Kinetics.Interface
import Mathlib.Data.List.TakeDrop

/-! # Helper lemmas for the interface kinetics properties -/

namespace Verif.Kinetics.Interface

open Verif Verif.Stoich Verif.Kinetics

/-! ### Species vectors over phases -/

theorem startAt_succ (ps : List IPhase) (n : ℕ) (p : IPhase) (h : ps[n]? = some p) :
    startAt ps (n + 1) = startAt ps n + p.n := by
  simp only [startAt, List.take_add_one, h, Option.toList_some, List.map_append, List.sum_append,
    List.map_cons, List.map_nil, List.sum_cons, List.sum_nil, add_zero]

theorem startAt_mono (ps : List IPhase) {n m : ℕ} (h : n ≤ m) : startAt ps n ≤ startAt ps m := by
  induction m with
  | zero => simp at h; subst h; exact le_rfl
  | succ m ih =>
    rcases Nat.lt_or_ge m n with h1 | h1
    · have : n = m + 1 := by omega
      subst this; exact le_rfl
    · refine (ih h1).trans ?_
      simp only [startAt, List.take_add_one, List.map_append, List.sum_append]
      omega

theorem foldl_override {α : Type*} (l : List α) (C : α → ℕ → Prop) [∀ a j, Decidable (C a j)]
    (val : α → ℕ → ℝ) (v : Vec) (j : ℕ) (x : ℝ)
    (hu : ∀ a ∈ l, C a j → val a j = x) (hex : v j = x ∨ ∃ a ∈ l, C a j) :
    (l.foldl (fun v a => fun j => if C a j then val a j else v j) v) j = x := by
  induction l generalizing v with
  | nil => simpa using hex
  | cons a l ih =>
    rw [List.foldl_cons]
    apply ih
    · intro b hb; exact hu b (by simp [hb])
    · by_cases h : C a j
      · left; simp only [if_pos h]; exact hu a (by simp) h
      · simp only [if_neg h]
        rcases hex with h1 | ⟨b, hb, hc⟩
        · exact Or.inl h1
        · rcases List.mem_cons.1 hb with rfl | hb
          · exact absurd hc h
          · exact Or.inr ⟨b, hb, hc⟩

theorem gather_at (ps : List IPhase) (f : IPhase → ℕ → ℝ) (old : Vec) (n : ℕ) (p : IPhase)
    (h : ps[n]? = some p) (k : ℕ) (hk : k < p.n) : gather ps f old (startAt ps n + k) = f p k := by
  rw [gather]
  refine foldl_override ps.zipIdx
    (fun q j => startAt ps q.2 ≤ j ∧ j < startAt ps q.2 + q.1.n)
    (fun q j => f q.1 (j - startAt ps q.2)) old (startAt ps n + k) (f p k) ?_ ?_
  · rintro ⟨q, m⟩ hq hc
    rw [mem_zipIdx0] at hq
    simp only at hc
    have : m = n := by
      rcases Nat.lt_trichotomy m n with h1 | h1 | h1
      · have := startAt_mono ps (show m + 1 ≤ n by omega)
        rw [startAt_succ ps m q hq] at this
        omega
      · exact h1
      · have := startAt_mono ps (show n + 1 ≤ m by omega)
        rw [startAt_succ ps n p h] at this
        omega
    subst this
    rw [h] at hq; cases hq
    simp
  · right
    exact ⟨(p, n), (mem_zipIdx0 _ _ _).2 h, by simp; omega⟩

theorem muInner (RT : ℝ) (mu0 : Vec) (p : IPhase) (m : ℕ) (s : ℕ × Vec) :
    (List.range m).foldl (muStep RT mu0 p) s = (s.1 + m, fun j =>
      if s.1 ≤ j ∧ j < s.1 + m then
        mu0 j + faraday * p.phi * p.charge (j - s.1) - RT * p.logc0 (j - s.1) else s.2 j) := by
  induction m with
  | zero =>
    simp only [List.range_zero, List.foldl_nil, add_zero]
    ext j
    · rfl
    · simp only
      rw [if_neg (by omega)]
  | succ m ih =>
    rw [List.range_succ, List.foldl_append, ih]
    simp only [List.foldl_cons, List.foldl_nil, muStep]
    ext j
    · simp only; omega
    · simp only [Function.update_apply]
      by_cases h : j = s.1 + m
      · subst h
        rw [if_pos rfl, if_pos (by omega)]
        simp
      · rw [if_neg h]
        by_cases h2 : s.1 ≤ j ∧ j < s.1 + m
        · rw [if_pos h2, if_pos (by omega)]
        · rw [if_neg h2, if_neg (by omega)]

theorem muOuter (RT : ℝ) (mu0 : Vec) (ps : List IPhase) (s : ℕ × Vec) :
    (ps.foldl (fun s p => (List.range p.n).foldl (muStep RT mu0 p) s) s).1 = s.1 + total ps ∧
    (∀ j < s.1, (ps.foldl (fun s p => (List.range p.n).foldl (muStep RT mu0 p) s) s).2 j = s.2 j) ∧
    ∀ n p k, ps[n]? = some p → k < p.n →
      (ps.foldl (fun s p => (List.range p.n).foldl (muStep RT mu0 p) s) s).2 (s.1 + (startAt ps n + k))
        = mu0 (s.1 + (startAt ps n + k)) + faraday * p.phi * p.charge k - RT * p.logc0 k := by
  induction ps generalizing s with
  | nil => simp [total]
  | cons q ps ih =>
    rw [List.foldl_cons, muInner]
    obtain ⟨h1, h2, h3⟩ := ih (s.1 + q.n, fun j =>
      if s.1 ≤ j ∧ j < s.1 + q.n then
        mu0 j + faraday * q.phi * q.charge (j - s.1) - RT * q.logc0 (j - s.1) else s.2 j)
    refine ⟨?_, ?_, ?_⟩
    · rw [h1]; simp [total]; omega
    · intro j hj
      rw [h2 j (by simp only; omega)]
      simp only
      rw [if_neg (by omega)]
    · intro n p k hn hk
      cases n with
      | zero =>
        simp only [List.getElem?_cons_zero, Option.some.injEq] at hn
        subst hn
        simp only [startAt, List.take_zero, List.map_nil, List.sum_nil, zero_add]
        rw [h2 _ (by simp only; omega)]
        simp only
        rw [if_pos (by omega)]
        simp
      | succ n =>
        simp only [List.getElem?_cons_succ] at hn
        have := h3 n p k hn hk
        simp only at this
        have e : s.1 + q.n + (startAt ps n + k) = s.1 + (startAt (q :: ps) (n + 1) + k) := by
          simp [startAt]; omega
        rw [e] at this
        exact this

/-- The vector `m_mu0_Kc`. -/
theorem muKc_at (ps : List IPhase) (RT : ℝ) (old : Vec) (n : ℕ) (p : IPhase) (h : ps[n]? = some p)
    (k : ℕ) (hk : k < p.n) :
    muKc ps RT old (startAt ps n + k) =
      p.mu0 k + faraday * p.phi * p.charge k - RT * p.logc0 k := by
  have h3 := (muOuter RT (gather ps IPhase.mu0 old) ps (0, old)).2.2 n p k h hk
  simp only [zero_add] at h3
  rw [muKc, h3, gather_at ps _ _ n p h k hk]

/-! ### Tables built by addReaction -/

theorem phaseRow_true (phOf : ℕ → ℕ) (l : List (ℕ × ℝ)) (p : ℕ) :
    phaseRow phOf l p = true ↔ ∃ x ∈ l, phOf x.1 = p := by
  have : ∀ row : ℕ → Bool, (l.foldl (fun row x => Function.update row (phOf x.1) true) row) p = true ↔
      row p = true ∨ ∃ x ∈ l, phOf x.1 = p := by
    induction l with
    | nil => simp
    | cons a l ih =>
      intro row
      rw [List.foldl_cons, ih, Function.update_apply]
      by_cases h : p = phOf a.1
      · subst h; simp
      · rw [if_neg h]
        have h' : phOf a.1 ≠ p := fun e => h e.symm
        simp [h']
  rw [phaseRow, this]; simp

theorem ik_addAll (phOf : ℕ → ℕ) (rs : List Rxn) (I J : IK) (h : I.addAll phOf rs = .ok J) :
    I.K.addAll rs = .ok J.K ∧ J.np = I.np ∧ J.ex = I.ex ∧ J.st = I.st ∧ J.check = I.check ∧
    (∀ i < I.K.n, J.isReac i = I.isReac i ∧ J.isProd i = I.isProd i) ∧
    ∀ i r, rs[i]? = some r → J.isReac (I.K.n + i) = phaseRow phOf r.reactants ∧
      J.isProd (I.K.n + i) = phaseRow phOf r.products := by
  induction rs generalizing I with
  | nil =>
    simp only [IK.addAll, Outcome.ok.injEq] at h
    subst h
    exact ⟨rfl, rfl, rfl, rfl, rfl, fun _ _ => ⟨rfl, rfl⟩, by simp⟩
  | cons r rs ih =>
    simp only [IK.addAll, IK.addReaction] at h
    cases hk : I.K.addReaction r with
    | throw => rw [hk] at h; exact absurd h (by simp [Bind.bind, Outcome.bind])
    | ub => rw [hk] at h; exact absurd h (by simp [Bind.bind, Outcome.bind])
    | ok K' =>
      rw [hk] at h
      simp only [Outcome.bind_ok, Outcome.pure_eq] at h
      obtain ⟨h1, h2, h3, h4, h5, h6, h7⟩ := ih _ h
      have hn : K'.n = I.K.n + 1 := by
        have hk' := hk
        rw [Kin.addReaction] at hk'
        cases ha : I.K.reac.add (r.reactDecl I.K.n) with
        | throw => rw [ha] at hk'; exact absurd hk' (by simp [Bind.bind, Outcome.bind])
        | ub => rw [ha] at hk'; exact absurd hk' (by simp [Bind.bind, Outcome.bind])
        | ok a =>
          cases hb : I.K.prod.add (r.prodDecl I.K.n) with
          | throw => rw [ha, hb] at hk'; exact absurd hk' (by simp [Bind.bind, Outcome.bind])
          | ub => rw [ha, hb] at hk'; exact absurd hk' (by simp [Bind.bind, Outcome.bind])
          | ok b =>
            rw [ha, hb] at hk'
            simp only [Outcome.bind_ok] at hk'
            cases hrev : r.reversible with
            | false =>
              rw [hrev] at hk'
              simp only [Bool.false_eq_true, if_false, Outcome.bind_ok, Outcome.pure_eq,
                Outcome.ok.injEq] at hk'
              rw [← hk']
            | true =>
              rw [hrev] at hk'
              simp only [if_true] at hk'
              cases hc : I.K.revProd.add (r.prodDecl I.K.n) with
              | throw => rw [hc] at hk'; exact absurd hk' (by simp [Bind.bind, Outcome.bind])
              | ub => rw [hc] at hk'; exact absurd hk' (by simp [Bind.bind, Outcome.bind])
              | ok c =>
                rw [hc] at hk'
                simp only [Outcome.bind_ok, Outcome.pure_eq, Outcome.ok.injEq] at hk'
                rw [← hk']
      simp only [hn] at h6 h7
      refine ⟨?_, h2, h3, h4, h5, ?_, ?_⟩
      · rw [Kin.addAll, hk]; exact h1
      · intro i hi
        obtain ⟨a, b⟩ := h6 i (by omega)
        rw [a, b, Function.update_of_ne (by omega), Function.update_of_ne (by omega)]
        exact ⟨rfl, rfl⟩
      · intro i r' hr
        cases i with
        | zero =>
          simp only [List.getElem?_cons_zero, Option.some.injEq] at hr
          subst hr
          obtain ⟨a, b⟩ := h6 I.K.n (by omega)
          rw [add_zero, a, b, Function.update_self, Function.update_self]
          exact ⟨rfl, rfl⟩
        | succ i =>
          simp only [List.getElem?_cons_succ] at hr
          have := h7 i r' hr
          rw [show I.K.n + 1 + i = I.K.n + (i + 1) by omega] at this
          exact this

/-- Adding well-formed reactions succeeds. -/
theorem ik_addAll_ok (phOf : ℕ → ℕ) (rs : List Rxn) (hv : ∀ r ∈ rs, r.OK) (I : IK) :
    ∃ J, I.addAll phOf rs = .ok J := by
  induction rs generalizing I with
  | nil => exact ⟨I, rfl⟩
  | cons r rs ih =>
    obtain ⟨K', hK, -⟩ := kin_addAll [r] (by simpa using hv r (by simp)) I.K
    have hk : I.K.addReaction r = .ok K' := by
      rw [Kin.addAll] at hK
      cases h : I.K.addReaction r with
      | throw => rw [h] at hK; exact absurd hK (by simp [Bind.bind, Outcome.bind])
      | ub => rw [h] at hK; exact absurd hK (by simp [Bind.bind, Outcome.bind])
      | ok a => rw [h] at hK; simpa [Kin.addAll] using hK
    rw [IK.addAll, IK.addReaction, hk]
    exact ih (fun r hr => hv r (by simp [hr])) _

/-! ### Reciprocal equilibrium constants -/

theorem foldlM_exp (n : ℕ) (rrt : ℝ) (l : List ℕ) (hn : l.Nodup) (hl : ∀ i ∈ l, i < n) (v : Vec) :
    ∃ w, l.foldlM (fun (v : Vec) i => if n ≤ i then Outcome.throw else
        Outcome.ok (Function.update v i (Real.exp (v i * rrt)))) v = .ok w ∧
      (∀ i ∈ l, w i = Real.exp (v i * rrt)) ∧ ∀ i, i ∉ l → w i = v i := by
  induction l generalizing v with
  | nil => exact ⟨v, rfl, by simp, by simp⟩
  | cons a l ih =>
    rw [List.nodup_cons] at hn
    obtain ⟨w, h1, h2, h3⟩ := ih hn.2 (fun i hi => hl i (by simp [hi]))
      (Function.update v a (Real.exp (v a * rrt)))
    refine ⟨w, ?_, ?_, ?_⟩
    · rw [List.foldlM_cons, if_neg (by have := hl a (by simp); omega)]
      exact h1
    · intro i hi
      rcases List.mem_cons.1 hi with rfl | hi
      · rw [h3 _ hn.1, Function.update_self]
      · rw [h2 i hi, Function.update_of_ne (fun e => hn.1 (by rw [← e]; exact hi))]
    · intro i hi
      simp only [List.mem_cons, not_or] at hi
      rw [h3 i hi.2, Function.update_of_ne hi.1]

theorem rkcnI_value (rs : List Rxn) (hv : ∀ r ∈ rs, r.OK) (K : Kin) (hK : Built K rs) (RT : ℝ)
    (mu : Vec) : ∃ w, Kin.rkcnI K RT mu = .ok w ∧
      ∀ i r, rs[i]? = some r → w i = if r.reversible then Real.exp (r.delta mu / RT) else 0 := by
  have hdelta := reaction_delta rs hv K hK
  obtain ⟨K', hK', hn, h1, h2, h3, h4, h5, h6, h7, h8⟩ := kin_addAll rs hv Kin.empty
  rw [Built] at hK; rw [hK] at hK'; cases hK'
  simp only [Kin.empty, List.nil_append, zero_add] at h4 h5 hn
  have n1 : K.revindex.Nodup := by
    rw [h4]; exact (zipIdx_snd_nodup rs 0).sublist (List.filter_sublist.map _)
  have n2 : K.irrev.Nodup := by
    rw [h5]; exact (zipIdx_snd_nodup rs 0).sublist (List.filter_sublist.map _)
  have m1 : ∀ i r, rs[i]? = some r → (i ∈ K.revindex ↔ r.reversible = true) := by
    intro i r hr
    rw [h4, List.mem_map]
    constructor
    · rintro ⟨⟨r', j⟩, hp, rfl⟩
      rw [List.mem_filter, mem_zipIdx0, hr] at hp
      have := hp.1; simp only [Option.some.injEq] at this; subst this
      exact hp.2
    · intro h
      exact ⟨(r, i), List.mem_filter.2 ⟨(mem_zipIdx0 _ _ _).2 hr, h⟩, rfl⟩
  have m2 : ∀ i r, rs[i]? = some r → (i ∈ K.irrev ↔ r.reversible = false) := by
    intro i r hr
    rw [h5, List.mem_map]
    constructor
    · rintro ⟨⟨r', j⟩, hp, rfl⟩
      rw [List.mem_filter, mem_zipIdx0, hr] at hp
      have := hp.1; simp only [Option.some.injEq] at this; subst this
      simpa using hp.2
    · intro h
      exact ⟨(r, i), List.mem_filter.2 ⟨(mem_zipIdx0 _ _ _).2 hr, by simp [h]⟩, rfl⟩
  have hlt : ∀ i ∈ K.revindex, i < K.n := by
    intro i hi
    rw [h4, List.mem_map] at hi
    obtain ⟨⟨r', j⟩, hp, rfl⟩ := hi
    rw [List.mem_filter, mem_zipIdx0] at hp
    rw [hn]; exact (List.getElem?_eq_some_iff.1 hp.1).1
  rw [Kin.rkcnI]
  by_cases hlen : K.revindex.length > 0
  · rw [if_pos hlen]
    obtain ⟨w, w1, w2, w3⟩ := foldlM_exp K.n (1 / RT) K.revindex n1 hlt (K.getRevReactionDelta mu)
    simp only [w1, Outcome.bind_ok, Outcome.pure_eq]
    refine ⟨_, rfl, ?_⟩
    intro i r hr
    have nd2 : (K.irrev.map id).Nodup := by rw [List.map_id]; exact n2
    have fu := foldl_update id (fun _ => 0) K.irrev nd2 w
    simp only [id_eq, List.map_id] at fu
    cases hrev : r.reversible with
    | true =>
      have hni : i ∉ K.irrev := by rw [m2 i r hr]; simp [hrev]
      rw [if_pos rfl, fu.2 i hni, w2 i ((m1 i r hr).2 hrev), (hdelta mu i r hr).2 hrev, mul_one_div]
    | false =>
      have hi : i ∈ K.irrev := (m2 i r hr).2 hrev
      rw [fu.1 i hi]; simp
  · rw [if_neg hlen]
    refine ⟨_, rfl, ?_⟩
    intro i r hr
    have : r.reversible ≠ true := by
      rw [Ne, ← m1 i r hr]
      have : K.revindex = [] := by
        rw [← List.length_eq_zero_iff]; omega
      simp [this]
    simp [this]

/-! ### Mass action -/

theorem reac_mul (rs : List Rxn) (hv : ∀ r ∈ rs, r.OK) (K : Kin) (hK : Built K rs) (c R : ℕ → ℝ)
    (i : ℕ) (r : Rxn) (hr : rs[i]? = some r)
    (hc : ∀ x ∈ r.effOrders, 0 < c x.1 ∨ (c x.1 = 0 ∧ 0 ≤ x.2)) :
    K.reac.multiply c R i = R i * powProd r.effOrders c := by
  obtain ⟨K', hK', hn, h1, -⟩ := kin_addAll rs hv Kin.empty
  rw [Built] at hK; rw [hK] at hK'; cases hK'
  have hrv : r.OK := hv r (List.mem_of_getElem? hr)
  have okz : ∀ p ∈ rs.zipIdx, p.1.OK := fun p hp => hv _ (List.fst_mem_of_mem_zipIdx hp)
  have vr : ∀ d ∈ rs.zipIdx.map (fun p => p.1.reactDecl p.2), Valid d := by
    intro d hd; obtain ⟨p, hp, rfl⟩ := List.mem_map.1 hd; exact reactDecl_valid _ (okz p hp) _
  have fr := filter_map_decl rs.zipIdx (fun r i => r.reactDecl i) (fun _ _ => rfl) i
  rw [filter_zipIdx_some rs i r hr] at fr
  rw [stoich_mass_action _ vr K.reac h1 c R i]
  · rw [fr]
    simp only [List.map_cons, List.map_nil, List.prod_cons, List.prod_nil, mul_one,
      massAction, reactDecl_order_zip r hrv]
    rfl
  · intro d hd hdi
    have : d ∈ (rs.zipIdx.map (fun p => p.1.reactDecl p.2)).filter (fun d => d.rxn = i) :=
      List.mem_filter.2 ⟨hd, by simpa using hdi⟩
    rw [fr] at this
    simp only [List.map_cons, List.map_nil, List.mem_singleton] at this
    subst this
    intro x hx
    rw [reactDecl_order_zip r hrv] at hx
    exact hc x hx

theorem rev_mul (rs : List Rxn) (hv : ∀ r ∈ rs, r.OK) (K : Kin) (hK : Built K rs) (c R : ℕ → ℝ)
    (i : ℕ) (r : Rxn) (hr : rs[i]? = some r) :
    (r.reversible = false → K.revProd.multiply c R i = R i) ∧
    (r.reversible = true → (∀ x ∈ r.products, 0 ≤ c x.1) →
      K.revProd.multiply c R i = R i * powProd r.products c) := by
  obtain ⟨K', hK', hn, h1, h2, h3, -⟩ := kin_addAll rs hv Kin.empty
  rw [Built] at hK; rw [hK] at hK'; cases hK'
  have hrv : r.OK := hv r (List.mem_of_getElem? hr)
  have okz : ∀ p ∈ rs.zipIdx, p.1.OK := fun p hp => hv _ (List.fst_mem_of_mem_zipIdx hp)
  have vq : ∀ d ∈ (rs.zipIdx.filter (·.1.reversible)).map (fun p => p.1.prodDecl p.2), Valid d := by
    intro d hd; obtain ⟨p, hp, rfl⟩ := List.mem_map.1 hd
    exact prodDecl_valid _ (okz p (List.mem_filter.1 hp).1) _
  have fq := filter_map_decl (rs.zipIdx.filter (·.1.reversible)) (fun r i => r.prodDecl i)
    (fun _ _ => rfl) i
  rw [filter_rev rs i r hr] at fq
  refine ⟨?_, ?_⟩
  · intro hrev
    rw [stoich_mass_action _ vq K.revProd h3 c R i]
    · rw [fq]; simp [hrev]
    · intro d hd hdi
      exfalso
      have : d ∈ ((rs.zipIdx.filter (·.1.reversible)).map (fun p => p.1.prodDecl p.2)).filter
          (fun d => d.rxn = i) := List.mem_filter.2 ⟨hd, by simpa using hdi⟩
      rw [fq] at this; simp [hrev] at this
  · intro hrev hc
    rw [stoich_mass_action _ vq K.revProd h3 c R i]
    · rw [fq]
      simp only [hrev, if_true, List.map_cons, List.map_nil, List.prod_cons, List.prod_nil, mul_one,
        massAction, (prodDecl_zip r i).2]
      rfl
    · intro d hd hdi
      have : d ∈ ((rs.zipIdx.filter (·.1.reversible)).map (fun p => p.1.prodDecl p.2)).filter
        (fun d => d.rxn = i) := List.mem_filter.2 ⟨hd, by simpa using hdi⟩
      rw [fq] at this
      simp only [hrev, if_true, List.map_cons, List.map_nil, List.mem_singleton] at this
      subst this
      intro x hx
      rw [(prodDecl_zip r i).2] at hx
      rcases lt_or_eq_of_le (hc x hx) with h | h
      · exact Or.inl h
      · exact Or.inr ⟨h.symm, hrv.pnonneg x hx⟩

/-! ### Phase existence -/

theorem wipe_eq (np : ℕ) (ex q : ℕ → Bool) (t : Tri) :
    wipe np ex q t = if ∃ p < np, q p = true ∧ ex p = false then ⟨0, 0, 0⟩ else t := by
  rw [wipe]
  induction np with
  | zero => simp
  | succ n ih =>
    rw [List.range_succ, List.foldl_append, ih]
    simp only [List.foldl_cons, List.foldl_nil, Bool.and_eq_true, Bool.not_eq_eq_eq_not, Bool.not_true]
    by_cases h : q n = true ∧ ex n = false
    · rw [if_pos h, if_pos ⟨n, by omega, h⟩]
    · rw [if_neg h]
      by_cases h2 : ∃ p < n, q p = true ∧ ex p = false
      · obtain ⟨p, hp, h3⟩ := h2
        rw [if_pos ⟨p, hp, h3⟩, if_pos ⟨p, by omega, h3⟩]
      · rw [if_neg h2, if_neg]
        rintro ⟨p, hp, h3⟩
        rcases Nat.lt_succ_iff_lt_or_eq.1 hp with h4 | rfl
        · exact h2 ⟨p, h4, h3⟩
        · exact h h3

/-- The forward direction is blocked. -/
def Blocked (np : ℕ) (ex st isR isP : ℕ → Bool) : Prop :=
  ∃ p < np, (isR p = true ∧ ex p = false) ∨ (isP p = true ∧ st p = false)

/-- A phase of the given side does not exist. -/
def Missing (np : ℕ) (ex q : ℕ → Bool) : Prop := ∃ p < np, q p = true ∧ ex p = false

open Classical in
theorem fwd_fold (np : ℕ) (ex st isR isP : ℕ → Bool) (t : Tri) (m : ℕ) :
    (List.range m).foldl (fwdStep np ex st isR isP) t =
      if Blocked m ex st isR isP then
        ⟨if Missing m ex isR ∧ Missing np ex isP ∧ 0 < t.r then 0 else t.r,
         if Missing m ex isR ∧ Missing np ex isP ∧ 0 < t.r then 0 else t.r, 0⟩
      else t := by
  induction m with
  | zero => simp [Blocked]
  | succ m ih =>
    rw [List.range_succ, List.foldl_append, ih]
    simp only [List.foldl_cons, List.foldl_nil, fwdStep, Bool.and_eq_true, Bool.not_eq_eq_eq_not,
      Bool.not_true]
    have hB : Blocked (m + 1) ex st isR isP ↔ Blocked m ex st isR isP ∨
        ((isR m = true ∧ ex m = false) ∨ (isP m = true ∧ st m = false)) := by
      simp only [Blocked]
      constructor
      · rintro ⟨p, hp, h⟩
        rcases Nat.lt_succ_iff_lt_or_eq.1 hp with h4 | rfl
        · exact Or.inl ⟨p, h4, h⟩
        · exact Or.inr h
      · rintro (⟨p, hp, h⟩ | h)
        · exact ⟨p, by omega, h⟩
        · exact ⟨m, by omega, h⟩
    have hM : Missing (m + 1) ex isR ↔ Missing m ex isR ∨ (isR m = true ∧ ex m = false) := by
      simp only [Missing]
      constructor
      · rintro ⟨p, hp, h⟩
        rcases Nat.lt_succ_iff_lt_or_eq.1 hp with h4 | rfl
        · exact Or.inl ⟨p, h4, h⟩
        · exact Or.inr h
      · rintro (⟨p, hp, h⟩ | h)
        · exact ⟨p, by omega, h⟩
        · exact ⟨m, by omega, h⟩
    have hMB : Missing m ex isR → Blocked m ex st isR isP := fun ⟨p, hp, h⟩ => ⟨p, hp, Or.inl h⟩
    simp only [wipe_eq, hB, hM]
    change _ = _
    have hq : (∃ p < np, isP p = true ∧ ex p = false) ↔ Missing np ex isP := Iff.rfl
    simp only [hq]
    by_cases b : Blocked m ex st isR isP <;> by_cases mi : Missing m ex isR <;>
      by_cases mp : Missing np ex isP <;> by_cases a : isR m = true ∧ ex m = false <;>
      by_cases c : isP m = true ∧ st m = false <;> by_cases d : 0 < t.r <;>
      simp [b, mi, mp, a, c, d] <;> exact absurd (hMB mi) b

/-- Exchange of the two directions. -/
def Tri.swap (t : Tri) : Tri := ⟨t.r, t.f, t.net⟩

theorem back_swap (np : ℕ) (ex st isR isP : ℕ → Bool) (t : Tri) (p : ℕ) :
    backStep np ex st isR isP t p = (fwdStep np ex st isP isR t.swap p).swap := by
  simp only [backStep, fwdStep, wipe_eq, Tri.swap, Bool.and_eq_true, Bool.not_eq_eq_eq_not,
    Bool.not_true]
  split_ifs <;> rfl

theorem back_fold (np : ℕ) (ex st isR isP : ℕ → Bool) (t : Tri) (l : List ℕ) :
    l.foldl (backStep np ex st isR isP) t = (l.foldl (fwdStep np ex st isP isR) t.swap).swap := by
  induction l generalizing t with
  | nil => rfl
  | cons a l ih =>
    rw [List.foldl_cons, List.foldl_cons, ih, back_swap]
    rfl

open Classical in
/-- Summary of the phase existence logic. -/
theorem exist_eq (np : ℕ) (ex st isR isP : ℕ → Bool) (t : Tri) :
    exist np ex st isR isP t =
      if t.r > t.f ∧ t.r > 0 ∧ Blocked np ex st isP isR then
        ⟨if Missing np ex isP ∧ Missing np ex isR ∧ 0 < t.f then 0 else t.f,
         if Missing np ex isP ∧ Missing np ex isR ∧ 0 < t.f then 0 else t.f, 0⟩
      else if t.f > t.r ∧ t.f > 0 ∧ Blocked np ex st isR isP then
        ⟨if Missing np ex isR ∧ Missing np ex isP ∧ 0 < t.r then 0 else t.r,
         if Missing np ex isR ∧ Missing np ex isP ∧ 0 < t.r then 0 else t.r, 0⟩
      else t := by
  unfold exist
  by_cases h1 : t.r > t.f ∧ t.r > 0
  · have h2 : ¬ (t.f > t.r) := not_lt.2 h1.1.le
    by_cases b : Blocked np ex st isP isR
    · simp only [back_fold, fwd_fold, h1.1, h1.2, b, and_self, if_true]; rfl
    · simp only [back_fold, fwd_fold, h1.1, h1.2, h2, b, and_self, and_false, false_and, if_true,
        if_false]; rfl
  · have h1' : ¬ (t.r > t.f ∧ t.r > 0 ∧ Blocked np ex st isP isR) := fun h => h1 ⟨h.1, h.2.1⟩
    simp only [h1, h1', if_false]
    by_cases h2 : t.f > t.r ∧ t.f > 0
    · by_cases b : Blocked np ex st isR isP
      · simp only [fwd_fold, h2.1, h2.2, b, and_self, if_true]
      · simp only [fwd_fold, h2.1, h2.2, b, and_self, and_false, if_true, if_false]
    · have h2' : ¬ (t.f > t.r ∧ t.f > 0 ∧ Blocked np ex st isR isP) := fun h => h2 ⟨h.1, h.2.1⟩
      simp only [h2, h2', if_false]

end Verif.Kinetics.Interface
