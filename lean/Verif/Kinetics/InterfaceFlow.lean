import Verif.Kinetics.InterfaceProps

/-!
# C57: species production rates and currents; C58: production of species of missing or unstable phases
-/

namespace Verif.Kinetics.Interface

open Verif Verif.Stoich Verif.Kinetics

section
variable {np : ℕ} {phOf : ℕ → ℕ} {rs : List Rxn} {ops : List POp} {I : IK}

theorem exist_net (np : ℕ) (ex st isR isP : ℕ → Bool) (t : Tri) (h : t.net = t.f - t.r) :
    (exist np ex st isR isP t).net = (exist np ex st isR isP t).f - (exist np ex st isR isP t).r := by
  rw [exist_eq]
  split_ifs <;> simp [h]

theorem exist_irrev (np : ℕ) (ex st isR isP : ℕ → Bool) (t : Tri) (h : t.r = 0) :
    (exist np ex st isR isP t).r = 0 := by
  rw [exist_eq, h]
  split_ifs with a b c d <;> simp_all

/-- Net rates are always forward minus reverse, and irreversible reactions have no reverse rate. -/
theorem rop_consistent (hv : ∀ r ∈ rs, r.OK) (hI : IBuilt np phOf rs ops I) (RT : ℝ)
    (mu act rfn perturb : ℕ → ℝ) (R : IRop) (hR : I.updateROP RT mu act rfn perturb = .ok R)
    (i : ℕ) (r : Rxn) (hr : rs[i]? = some r) :
    R.ropnet i = R.ropf i - R.ropr i ∧ (r.reversible = false → R.ropr i = 0) := by
  obtain ⟨R', hR', h⟩ := rop_values hv hI RT mu act rfn perturb
  rw [hR] at hR'; cases hR'
  obtain ⟨-, t, hn, hi, -, he⟩ := h i r hr
  have e1 := congrArg Tri.f he
  have e2 := congrArg Tri.r he
  have e3 := congrArg Tri.net he
  simp only at e1 e2 e3
  rw [e1, e2, e3]
  split_ifs
  · exact ⟨exist_net _ _ _ _ _ _ hn, fun hrev => exist_irrev _ _ _ _ _ _ (hi hrev)⟩
  · exact ⟨hn, hi⟩

/-- C57: net production is creation minus destruction for every species, whatever phases exist. -/
theorem interface_net_production (hv : ∀ r ∈ rs, r.OK) (hI : IBuilt np phOf rs ops I) (RT : ℝ)
    (mu act rfn perturb : ℕ → ℝ) (R : IRop) (hR : I.updateROP RT mu act rfn perturb = .ok R) (k : ℕ) :
    I.K.getNetProductionRates R.ropnet k =
      I.K.getCreationRates R.ropf R.ropr k - I.K.getDestructionRates R.ropf R.ropr k := by
  obtain ⟨hK, -, -, -⟩ := ibuilt_facts hI
  have hc := rop_consistent hv hI RT mu act rfn perturb R hR
  obtain ⟨h1, h2, h3⟩ := species_rates rs hv I.K hK R.ropf R.ropr (fun i r hr => (hc i r hr).2) k
  rw [h1, h2, h3, ← Finset.sum_sub_distrib]
  refine Finset.sum_congr rfl fun i _ => ?_
  rw [(hc i rs[i] (by simp)).1]
  ring

example : ∃ I R, IBuilt 2 surfPh surfRxns [.existence 1 false] I ∧
    I.updateROP 1 (fun _ => 0) (fun _ => 1) (fun _ => 3) (fun _ => 2) = .ok R ∧ ∀ k,
    I.K.getNetProductionRates R.ropnet k =
      I.K.getCreationRates R.ropf R.ropr k - I.K.getDestructionRates R.ropf R.ropr k := by
  obtain ⟨I, hI⟩ := ibuilt_exists 2 surfPh surfRxns surfRxns_ok [.existence 1 false]
  obtain ⟨R, hR, -⟩ := rop_values surfRxns_ok hI 1 (fun _ => 0) (fun _ => 1) (fun _ => 3) (fun _ => 2)
  exact ⟨I, R, hI, hR, interface_net_production surfRxns_ok hI _ _ _ _ _ R hR⟩

/-! ### Currents -/

theorem surf_sum (f : Fin surfRxns.length → ℝ) :
    ∑ i, f i = f ⟨0, by simp [surfRxns]⟩ + f ⟨1, by simp [surfRxns]⟩ := by
  exact Fin.sum_univ_two (M := ℝ) f

/-- Charges of the species of phase `q`, zero elsewhere. -/
noncomputable def phaseCharge (ps : List IPhase) (q : ℕ) (k : ℕ) : ℝ :=
  match ps[q]? with
  | none => 0
  | some p => if startAt ps q ≤ k ∧ k < startAt ps q + p.n then p.charge (k - startAt ps q) else 0

theorem foldl_add_sum (g : ℕ → ℝ) (n : ℕ) :
    (List.range n).foldl (fun s k => s + g k) 0 = ∑ k ∈ Finset.range n, g k := by
  induction n with
  | zero => simp
  | succ n ih => rw [List.range_succ, List.foldl_append, ih, Finset.sum_range_succ]; rfl

theorem window_sum (s n N : ℕ) (h : s + n ≤ N) (f : ℕ → ℝ) (g : ℕ → ℝ) :
    ∑ k ∈ Finset.range N, (if s ≤ k ∧ k < s + n then f (k - s) else 0) * g k =
      ∑ k ∈ Finset.range n, f k * g (s + k) := by
  rw [Finset.range_eq_Ico, ← Finset.sum_Ico_consecutive _ (Nat.zero_le s) (by omega : s ≤ N),
    ← Finset.sum_Ico_consecutive _ (by omega : s ≤ s + n) h]
  have h1 : ∑ k ∈ Finset.Ico 0 s, (if s ≤ k ∧ k < s + n then f (k - s) else 0) * g k = 0 := by
    refine Finset.sum_eq_zero fun k hk => ?_
    rw [Finset.mem_Ico] at hk
    rw [if_neg (by omega), zero_mul]
  have h2 : ∑ k ∈ Finset.Ico (s + n) N, (if s ≤ k ∧ k < s + n then f (k - s) else 0) * g k = 0 := by
    refine Finset.sum_eq_zero fun k hk => ?_
    rw [Finset.mem_Ico] at hk
    rw [if_neg (by omega), zero_mul]
  rw [h1, h2, zero_add, add_zero, Finset.sum_Ico_eq_sum_range]
  refine Finset.sum_congr (by simp) fun k hk => ?_
  rw [Finset.mem_range] at hk
  rw [if_pos (by omega)]
  congr 2
  omega

theorem start_le_total (ps : List IPhase) (q : ℕ) (p : IPhase) (h : ps[q]? = some p) :
    startAt ps q + p.n ≤ total ps := by
  rw [← startAt_succ ps q p h, startAt, total]
  have := List.take_append_drop (q + 1) (ps.map (·.n))
  have h2 := congrArg List.sum this
  rw [List.sum_append] at h2
  rw [List.map_take]
  omega

theorem inRange_total (ps : List IPhase) (r : Rxn) (h : Rxn.InRange ps r) :
    (∀ x ∈ r.reactants, x.1 < total ps) ∧ (∀ x ∈ r.products, x.1 < total ps) := by
  have : ∀ x ∈ r.reactants ++ r.products, x.1 < total ps := by
    intro x hx
    obtain ⟨n, p, k, h1, h2, h3⟩ := h x hx
    have := start_le_total ps n p h1
    omega
  exact ⟨fun x hx => this x (by simp [hx]), fun x hx => this x (by simp [hx])⟩

/-- C57: the interface current of a phase is the Faraday constant times the charge that the reactions carry
into the phase. A phase index out of range is undefined behaviour (finding). -/
theorem interface_current (hv : ∀ r ∈ rs, r.OK) (hI : IBuilt np phOf rs ops I) (ps : List IPhase)
    (hin : ∀ r ∈ rs, Rxn.InRange ps r) (R : IRop) (q : ℕ) :
    (q < ps.length → I.interfaceCurrent ps R q =
      .ok (faraday * ∑ i : Fin rs.length, rs[i].delta (phaseCharge ps q) * R.ropnet i)) ∧
    (ps.length ≤ q → I.interfaceCurrent ps R q = .ub) := by
  obtain ⟨hK, -, -, -⟩ := ibuilt_facts hI
  refine ⟨?_, ?_⟩
  · intro hq
    have hp : ps[q]? = some ps[q] := List.getElem?_eq_getElem hq
    rw [IK.interfaceCurrent, hp]
    simp only
    rw [← net_production_weighted rs hv I.K hK (total ps) (fun r hr => inRange_total ps r (hin r hr))
      (phaseCharge ps q) R.ropnet, foldl_add_sum (fun k => ps[q].charge k *
        I.K.getNetProductionRates R.ropnet (startAt ps q + k))]
    simp only [phaseCharge, hp]
    rw [window_sum _ _ _ (start_le_total ps q _ hp), mul_comm]
  · intro hq
    rw [IK.interfaceCurrent, List.getElem?_eq_none hq]

example : ∃ I, IBuilt 2 surfPh surfRxns [] I ∧
    I.interfaceCurrent exPhases ⟨fun _ => 0, fun _ => 0, fun _ => 0, fun _ => 1⟩ 1 = .ok (-faraday) ∧
    I.interfaceCurrent exPhases ⟨fun _ => 0, fun _ => 0, fun _ => 0, fun _ => 1⟩ 2 = .ub := by
  obtain ⟨I, hI⟩ := ibuilt_exists 2 surfPh surfRxns surfRxns_ok []
  have h := interface_current surfRxns_ok hI exPhases exPhases_in
    ⟨fun _ => 0, fun _ => 0, fun _ => 0, fun _ => 1⟩
  refine ⟨I, hI, ?_, (h 2).2 (by simp [exPhases])⟩
  rw [(h 1).1 (by simp [exPhases])]
  rw [surf_sum]
  norm_num [surfRxns, Rxn.delta, phaseCharge, exPhases, startAt]

theorem sum_delta (l : List ℕ) (g : ℕ → ℕ → ℝ) (r : Rxn) :
    (l.map (fun q => r.delta (g q))).sum = r.delta (fun k => (l.map (fun q => g q k)).sum) := by
  induction l with
  | nil => simp [Rxn.delta]
  | cons q l ih =>
    simp only [List.map_cons, List.sum_cons, ih]
    have := delta_lin r (g q) (fun k => (l.map (fun q => g q k)).sum) 1
    simp only [one_mul] at this
    exact this.symm

/-- Charges of all species. -/
noncomputable def charges (ps : List IPhase) (k : ℕ) : ℝ :=
  ∑ q ∈ Finset.range ps.length, phaseCharge ps q k

/-- `charges` lists the charges of the phases one after another. -/
theorem charges_at (ps : List IPhase) (n : ℕ) (p : IPhase) (k : ℕ) (h : ps[n]? = some p)
    (hk : k < p.n) : charges ps (startAt ps n + k) = p.charge k := by
  have hn : n < ps.length := (List.getElem?_eq_some_iff.1 h).1
  rw [charges, Finset.sum_eq_single n]
  · simp only [phaseCharge, h]
    rw [if_pos (by omega)]; congr 1; omega
  · intro m hm hne
    rw [Finset.mem_range] at hm
    have hp : ps[m]? = some ps[m] := List.getElem?_eq_getElem hm
    simp only [phaseCharge, hp]
    rw [if_neg]
    intro ⟨a, b⟩
    rcases lt_or_gt_of_ne hne with hlt | hgt
    · have h1 := startAt_succ ps m _ hp
      have h2 := startAt_mono ps (show m + 1 ≤ n by omega)
      omega
    · have h1 := startAt_succ ps n _ h
      have h2 := startAt_mono ps (show n + 1 ≤ m by omega)
      omega
  · intro h'; exact absurd (Finset.mem_range.2 hn) h'

theorem delta_sum (S : Finset ℕ) (g : ℕ → ℕ → ℝ) (r : Rxn) :
    r.delta (fun k => ∑ q ∈ S, g q k) = ∑ q ∈ S, r.delta (g q) := by
  classical
  induction S using Finset.induction with
  | empty => simp [Rxn.delta]
  | insert q S hq ih =>
    rw [Finset.sum_insert hq, ← ih]
    have := delta_lin r (g q) (fun k => ∑ q ∈ S, g q k) 1
    simp only [one_mul] at this
    rw [← this]
    congr 1
    funext k
    rw [Finset.sum_insert hq]

/-- C57, charge conservation: if all reactions are charge balanced, the currents into all phases add up to zero,
whatever the rates are. -/
theorem currents_cancel (hv : ∀ r ∈ rs, r.OK) (hI : IBuilt np phOf rs ops I) (ps : List IPhase)
    (hin : ∀ r ∈ rs, Rxn.InRange ps r) (hbal : ∀ r ∈ rs, r.delta (charges ps) = 0) (R : IRop) :
    ∃ c : ℕ → ℝ, (∀ q < ps.length, I.interfaceCurrent ps R q = .ok (c q)) ∧
      ∑ q ∈ Finset.range ps.length, c q = 0 := by
  refine ⟨_, fun q hq => (interface_current hv hI ps hin R q).1 hq, ?_⟩
  rw [← Finset.mul_sum, Finset.sum_comm]
  have : ∑ i : Fin rs.length, ∑ q ∈ Finset.range ps.length,
      rs[i].delta (phaseCharge ps q) * R.ropnet i = 0 := by
    refine Finset.sum_eq_zero fun i _ => ?_
    rw [← Finset.sum_mul, ← delta_sum]
    have h := hbal rs[i] (List.getElem_mem _)
    have e : charges ps = fun k => ∑ q ∈ Finset.range ps.length, phaseCharge ps q k := rfl
    rw [← e, h, zero_mul]
  rw [this, mul_zero]

/-- An electron (species 0 in the metal, phase 0) and an ion (species 1 in the electrolyte). -/
noncomputable def elecRxns : List Rxn := [⟨[(0, 1), (1, 1)], [(2, 1)], [], true, none⟩]

theorem elec_sum (f : Fin elecRxns.length → ℝ) : ∑ i, f i = f ⟨0, by simp [elecRxns]⟩ := by
  exact Fin.sum_univ_one (M := ℝ) f

noncomputable def elecPhases : List IPhase :=
  [⟨1, 0, fun _ => -1, fun _ => 0, fun _ => 0, fun _ => 1⟩,
   ⟨2, 1, fun k => if k = 0 then 1 else 0, fun _ => 0, fun _ => 0, fun _ => 1⟩]

theorem elecRxns_ok : ∀ r ∈ elecRxns, r.OK := by
  intro r hr
  simp only [elecRxns, List.mem_cons, List.not_mem_nil, or_false] at hr
  subst hr
  refine ⟨by simp, by simp, by simp, ?_, ?_⟩ <;> intro x hx <;> simp at hx <;>
    (try rcases hx with rfl | rfl) <;> norm_num [*]

theorem elec_in : ∀ r ∈ elecRxns, Rxn.InRange elecPhases r := by
  intro r hr
  simp only [elecRxns, List.mem_cons, List.not_mem_nil, or_false] at hr
  subst hr
  have c0 : ∃ n p k, elecPhases[n]? = some p ∧ k < p.n ∧ 0 = startAt elecPhases n + k :=
    ⟨0, _, 0, rfl, by norm_num, by simp [startAt]⟩
  have c1 : ∃ n p k, elecPhases[n]? = some p ∧ k < p.n ∧ 1 = startAt elecPhases n + k :=
    ⟨1, _, 0, rfl, by norm_num, by simp [startAt, elecPhases]⟩
  have c2 : ∃ n p k, elecPhases[n]? = some p ∧ k < p.n ∧ 2 = startAt elecPhases n + k :=
    ⟨1, _, 1, rfl, by norm_num, by simp [startAt, elecPhases]⟩
  intro x hx; simp at hx; rcases hx with rfl | rfl | rfl <;> assumption

theorem elec_balanced : ∀ r ∈ elecRxns, r.delta (charges elecPhases) = 0 := by
  intro r hr
  simp only [elecRxns, List.mem_cons, List.not_mem_nil, or_false] at hr
  subst hr
  simp [Rxn.delta, charges, elecPhases, Finset.sum_range_succ, phaseCharge, startAt]

example : ∃ I, IBuilt 2 (fun k => if k = 0 then 0 else 1) elecRxns [] I ∧
    I.interfaceCurrent elecPhases ⟨fun _ => 0, fun _ => 0, fun _ => 0, fun _ => 1⟩ 0 = .ok faraday ∧
    I.interfaceCurrent elecPhases ⟨fun _ => 0, fun _ => 0, fun _ => 0, fun _ => 1⟩ 1 = .ok (-faraday) ∧
    ∀ R : IRop, ∃ c : ℕ → ℝ, (∀ q < 2, I.interfaceCurrent elecPhases R q = .ok (c q)) ∧
      ∑ q ∈ Finset.range 2, c q = 0 := by
  obtain ⟨I, hI⟩ := ibuilt_exists 2 (fun k => if k = 0 then 0 else 1) elecRxns elecRxns_ok []
  have h := interface_current elecRxns_ok hI elecPhases elec_in
    ⟨fun _ => 0, fun _ => 0, fun _ => 0, fun _ => 1⟩
  refine ⟨I, hI, ?_, ?_, fun R => currents_cancel elecRxns_ok hI elecPhases elec_in elec_balanced R⟩
  · rw [(h 0).1 (by simp [elecPhases])]
    rw [elec_sum]
    norm_num [elecRxns, Rxn.delta, phaseCharge, elecPhases, startAt]
  · rw [(h 1).1 (by simp [elecPhases])]
    rw [elec_sum]
    norm_num [elecRxns, Rxn.delta, phaseCharge, elecPhases, startAt]

/-- The phase at another electric potential. -/
def IPhase.withPhi (p : IPhase) (phi : ℝ) : IPhase := { p with phi := phi }

/-- C57: a reaction that moves no charge into any phase does not depend on the electric potentials: changing
the potentials of the phases in any way leaves its equilibrium constant unchanged. -/
theorem potential_independent (ps : List IPhase) (r : Rxn) (hin : Rxn.InRange ps r)
    (hz : ∀ q < ps.length, r.delta (phaseCharge ps q) = 0) (phi : ℕ → ℝ) (RT : ℝ) (old old' : ℕ → ℝ) :
    r.delta (muKc (ps.zipIdx.map (fun x => IPhase.withPhi x.1 (phi x.2))) RT old) =
      r.delta (muKc ps RT old') := by
  set ps' := ps.zipIdx.map (fun x => IPhase.withPhi x.1 (phi x.2)) with hps
  have hget : ∀ n (p : IPhase), ps[n]? = some p → ps'[n]? = some (p.withPhi (phi n)) := by
    intro n p h
    rw [hps, List.getElem?_map, List.getElem?_zipIdx, h]
    simp
  have hst : ∀ n, startAt ps' n = startAt ps n := by
    intro n
    rw [startAt, startAt, hps, ← List.map_take, List.map_map]
    congr 1
    have : (IPhase.n ∘ fun x : IPhase × ℕ => x.1.withPhi (phi x.2)) =
        fun x : IPhase × ℕ => x.1.n := rfl
    rw [this]
    apply List.ext_getElem?
    intro j
    simp only [List.getElem?_map, List.getElem?_take, List.getElem?_zipIdx]
    split_ifs
    · cases ps[j]? <;> simp
    · simp
  have key : ∀ x ∈ r.reactants ++ r.products, muKc ps' RT old x.1 = muKc ps RT old' x.1 +
      faraday * ∑ q ∈ Finset.range ps.length,
        (phi q - (ps[q]?.map IPhase.phi).getD 0) * phaseCharge ps q x.1 := by
    intro x hx
    obtain ⟨n, p, k, h1, h2, h3⟩ := hin x hx
    have hn : n < ps.length := (List.getElem?_eq_some_iff.1 h1).1
    have hm := muKc_at ps' RT old n _ (hget n p h1) k h2
    rw [hst] at hm
    rw [h3, hm, muKc_at ps RT old' n p h1 k h2, Finset.sum_eq_single n]
    · have := charges_at ps n p k h1 h2
      simp only [phaseCharge, h1]
      rw [if_pos (by omega), show startAt ps n + k - startAt ps n = k by omega]
      simp only [Option.map_some, Option.getD_some, IPhase.withPhi]
      ring
    · intro m hm hne
      rw [Finset.mem_range] at hm
      have hp : ps[m]? = some ps[m] := List.getElem?_eq_getElem hm
      simp only [phaseCharge, hp]
      rw [if_neg, mul_zero]
      intro ⟨a, b⟩
      rcases lt_or_gt_of_ne hne with hlt | hgt
      · have h1 := startAt_succ ps m _ hp
        have h2 := startAt_mono ps (show m + 1 ≤ n by omega)
        omega
      · have h1 := startAt_succ ps n _ h1
        have h2 := startAt_mono ps (show n + 1 ≤ m by omega)
        omega
    · intro h'; exact absurd (Finset.mem_range.2 hn) h'
  rw [delta_congr r _ (fun j => muKc ps RT old' j + faraday * ∑ q ∈ Finset.range ps.length,
        (phi q - (ps[q]?.map IPhase.phi).getD 0) * phaseCharge ps q j) key, delta_lin, delta_sum]
  have h0 : ∀ q ∈ Finset.range ps.length,
      r.delta (fun k => (phi q - (ps[q]?.map IPhase.phi).getD 0) * phaseCharge ps q k) = 0 := by
    intro q hq
    have := delta_lin r (fun _ => 0) (phaseCharge ps q) (phi q - (ps[q]?.map IPhase.phi).getD 0)
    simp only [zero_add] at this
    rw [this, hz q (Finset.mem_range.1 hq)]
    simp [Rxn.delta]
  rw [Finset.sum_eq_zero h0, mul_zero, add_zero]

example : (⟨[(1, 1)], [(1, 1)], [], true, none⟩ : Rxn).delta (muKc elecPhases 1 (fun _ => 0)) = 0 ∧
    ∀ phi : ℕ → ℝ, (⟨[(1, 1)], [(1, 1)], [], true, none⟩ : Rxn).delta
      (muKc (elecPhases.zipIdx.map (fun x => IPhase.withPhi x.1 (phi x.2))) 1 (fun _ => 0)) = 0 := by
  have e : ∀ g, (⟨[(1, 1)], [(1, 1)], [], true, none⟩ : Rxn).delta g = 0 := fun g => by simp [Rxn.delta]
  refine ⟨e _, fun phi => ?_⟩
  rw [potential_independent elecPhases _ (by
    intro x hx; simp at hx; subst hx
    exact ⟨1, _, 0, rfl, by norm_num, by simp [startAt, elecPhases]⟩) (fun q _ => e _) phi 1 (fun _ => 0) (fun _ => 0)]
  exact e _

/-! ### C58 -/

theorem coeff_zero (l : List (ℕ × ℝ)) (k : ℕ) (h : ∀ x ∈ l, x.1 ≠ k) : coeff l k = 0 := by
  induction l with
  | nil => simp [coeff]
  | cons x l ih =>
    rw [coeff, List.map_cons, List.sum_cons, if_neg (h x (by simp)), zero_add]
    exact ih fun y hy => h y (by simp [hy])

theorem coeff_nonneg (l : List (ℕ × ℝ)) (k : ℕ) (h : ∀ x ∈ l, 0 ≤ x.2) : 0 ≤ coeff l k := by
  refine List.sum_nonneg ?_
  intro y hy
  obtain ⟨x, hx, rfl⟩ := List.mem_map.1 hy
  split_ifs
  · exact h x hx
  · exact le_rfl

theorem powProd_nonneg (l : List (ℕ × ℝ)) (c : ℕ → ℝ) (h : ∀ x ∈ l, 0 ≤ c x.1) : 0 ≤ powProd l c := by
  rw [powProd]
  refine List.prod_nonneg ?_
  intro y hy
  obtain ⟨x, hx, rfl⟩ := List.mem_map.1 hy
  exact Real.rpow_nonneg (h x hx) _

/-- Signs of the checked net rate of one reaction. -/
theorem exist_sign (np : ℕ) (ex st isR isP : ℕ → Bool) (t : Tri) (hn : t.net = t.f - t.r)
    (hf : 0 ≤ t.f) (hr : 0 ≤ t.r) :
    (0 < (exist np ex st isR isP t).net → ¬ Blocked np ex st isR isP) ∧
    ((exist np ex st isR isP t).net < 0 → ¬ Blocked np ex st isP isR) ∧
    (¬ Blocked np ex st isR isP → ¬ Blocked np ex st isP isR → exist np ex st isR isP t = t) := by
  rw [exist_eq]
  refine ⟨?_, ?_, ?_⟩
  · by_cases a : t.r > t.f ∧ t.r > 0 ∧ Blocked np ex st isP isR
    · rw [if_pos a]; simp
    by_cases b : t.f > t.r ∧ t.f > 0 ∧ Blocked np ex st isR isP
    · rw [if_neg a, if_pos b]; simp
    · rw [if_neg a, if_neg b]
      intro h hb
      rw [hn] at h
      exact b ⟨by linarith, by linarith, hb⟩
  · by_cases a : t.r > t.f ∧ t.r > 0 ∧ Blocked np ex st isP isR
    · rw [if_pos a]; simp
    by_cases b : t.f > t.r ∧ t.f > 0 ∧ Blocked np ex st isR isP
    · rw [if_neg a, if_pos b]; simp
    · rw [if_neg a, if_neg b]
      intro h hb
      rw [hn] at h
      exact a ⟨by linarith, by linarith, hb⟩
  · intro h1 h2
    rw [if_neg (fun h => h2 h.2.2), if_neg (fun h => h1 h.2.2)]

/-- Hypotheses on the evaluated state: admissible concentrations and non-negative rate constants. -/
def StateOK (rs : List Rxn) (act rfn perturb : ℕ → ℝ) : Prop :=
  ∀ i r, rs[i]? = some r → r.ConcOK act ∧ 0 ≤ rfn i * perturb i

theorem checked (hv : ∀ r ∈ rs, r.OK) (hI : IBuilt np phOf rs ops I) (hch : I.check ≠ 0) (RT : ℝ)
    (mu act rfn perturb : ℕ → ℝ) (hs : StateOK rs act rfn perturb) (R : IRop)
    (hR : I.updateROP RT mu act rfn perturb = .ok R) (i : ℕ) (r : Rxn) (hr : rs[i]? = some r) :
    (0 < R.ropnet i → ∀ p < np, ¬ ((∃ x ∈ r.reactants, phOf x.1 = p) ∧ I.ex p = false) ∧
      ¬ ((∃ x ∈ r.products, phOf x.1 = p) ∧ I.st p = false)) ∧
    (R.ropnet i < 0 → ∀ p < np, ¬ ((∃ x ∈ r.products, phOf x.1 = p) ∧ I.ex p = false) ∧
      ¬ ((∃ x ∈ r.reactants, phOf x.1 = p) ∧ I.st p = false)) ∧
    ((∀ x ∈ r.reactants ++ r.products, I.ex (phOf x.1) = true ∧ I.st (phOf x.1) = true) →
      R.ropf i = fwdRate r (rfn i * perturb i) act ∧
      R.ropr i = revRate r (rfn i * perturb i) RT mu act) := by
  obtain ⟨-, hnp, -, hrow⟩ := ibuilt_facts hI
  obtain ⟨R', hR', h⟩ := rop_values hv hI RT mu act rfn perturb
  rw [hR] at hR'; cases hR'
  obtain ⟨-, t, hn, -, ht, he⟩ := h i r hr
  obtain ⟨hc, hk⟩ := hs i r hr
  obtain ⟨h1, h2⟩ := ht hc
  have hf : 0 ≤ t.f := by
    rw [h1, fwdRate]
    refine mul_nonneg hk (powProd_nonneg _ _ fun x hx => ?_)
    rcases hc.1 x hx with h | h
    · exact h.le
    · exact h.1.ge
  have hrr : 0 ≤ t.r := by
    rw [h2, revRate]
    split_ifs
    · exact mul_nonneg (mul_nonneg hk (Real.exp_pos _).le) (powProd_nonneg _ _ hc.2)
    · exact le_rfl
  rw [if_pos hch] at he
  obtain ⟨s1, s2, s3⟩ := exist_sign I.np I.ex I.st (I.isReac i) (I.isProd i) t hn hf hrr
  have e3 := congrArg Tri.net he
  simp only at e3
  rw [← e3] at s1 s2
  obtain ⟨row1, row2⟩ := hrow i r hr
  refine ⟨?_, ?_, ?_⟩
  · intro hp p hpn
    have := s1 hp
    refine ⟨fun ⟨a, b⟩ => this ⟨p, by omega, Or.inl ⟨(row1 p).2 a, b⟩⟩,
      fun ⟨a, b⟩ => this ⟨p, by omega, Or.inr ⟨(row2 p).2 a, b⟩⟩⟩
  · intro hp p hpn
    have := s2 hp
    refine ⟨fun ⟨a, b⟩ => this ⟨p, by omega, Or.inl ⟨(row2 p).2 a, b⟩⟩,
      fun ⟨a, b⟩ => this ⟨p, by omega, Or.inr ⟨(row1 p).2 a, b⟩⟩⟩
  · intro hall
    have b1 : ¬ Blocked I.np I.ex I.st (I.isReac i) (I.isProd i) := by
      rintro ⟨p, -, ⟨a, b⟩ | ⟨a, b⟩⟩
      · obtain ⟨x, hx, rfl⟩ := (row1 p).1 a
        rw [(hall x (by simp [hx])).1] at b; simp at b
      · obtain ⟨x, hx, rfl⟩ := (row2 p).1 a
        rw [(hall x (by simp [hx])).2] at b; simp at b
    have b2 : ¬ Blocked I.np I.ex I.st (I.isProd i) (I.isReac i) := by
      rintro ⟨p, -, ⟨a, b⟩ | ⟨a, b⟩⟩
      · obtain ⟨x, hx, rfl⟩ := (row2 p).1 a
        rw [(hall x (by simp [hx])).1] at b; simp at b
      · obtain ⟨x, hx, rfl⟩ := (row1 p).1 a
        rw [(hall x (by simp [hx])).2] at b; simp at b
    rw [s3 b1 b2] at he
    have e1 := congrArg Tri.f he
    have e2 := congrArg Tri.r he
    simp only at e1 e2
    rw [e1, e2, h1, h2]
    exact ⟨rfl, rfl⟩

/-- C58: a reaction all of whose phases exist and are stable keeps its rates, even if other phases do not
exist. -/
theorem other_phases_irrelevant (hv : ∀ r ∈ rs, r.OK) (hI : IBuilt np phOf rs ops I) (RT : ℝ)
    (mu act rfn perturb : ℕ → ℝ) (hs : StateOK rs act rfn perturb) (R : IRop)
    (hR : I.updateROP RT mu act rfn perturb = .ok R) (i : ℕ) (r : Rxn) (hr : rs[i]? = some r)
    (hall : ∀ x ∈ r.reactants ++ r.products, I.ex (phOf x.1) = true ∧ I.st (phOf x.1) = true) :
    R.ropf i = rfn i * perturb i * powProd r.effOrders act ∧
    R.ropr i = (if r.reversible then
        rfn i * perturb i * Real.exp (r.delta mu / RT) * powProd r.products act else 0) := by
  by_cases hch : I.check = 0
  · obtain ⟨R', hR', h⟩ := rop_values hv hI RT mu act rfn perturb
    rw [hR] at hR'; cases hR'
    obtain ⟨-, t, hn, -, ht, he⟩ := h i r hr
    obtain ⟨h1, h2⟩ := ht (hs i r hr).1
    rw [if_neg (by simpa using hch)] at he
    have e1 := congrArg Tri.f he
    have e2 := congrArg Tri.r he
    simp only at e1 e2
    rw [e1, e2, h1, h2]
    exact ⟨rfl, rfl⟩
  · exact (checked hv hI hch RT mu act rfn perturb hs R hR i r hr).2.2 hall

/-- C58: a species of a phase that does not exist is never consumed. -/
theorem missing_not_consumed (hv : ∀ r ∈ rs, r.OK) (hI : IBuilt np phOf rs ops I) (RT : ℝ)
    (mu act rfn perturb : ℕ → ℝ) (hs : StateOK rs act rfn perturb) (R : IRop)
    (hR : I.updateROP RT mu act rfn perturb = .ok R) (k : ℕ) (hp : phOf k < np)
    (hex : I.ex (phOf k) = false) : 0 ≤ I.K.getNetProductionRates R.ropnet k := by
  obtain ⟨hK, -, -, -⟩ := ibuilt_facts hI
  have hch : I.check ≠ 0 := by
    rw [exists_check_counts hI, Ne, Nat.cast_eq_zero, Finset.card_eq_zero]
    intro h
    rw [Finset.filter_eq_empty_iff] at h
    exact h (Finset.mem_range.2 hp) hex
  rw [(species_rates rs hv I.K hK R.ropf (fun _ => 0) (fun _ _ _ _ => rfl) k).2.2 R.ropnet]
  refine Finset.sum_nonneg fun i _ => ?_
  obtain ⟨c1, c2, -⟩ := checked hv hI hch RT mu act rfn perturb hs R hR i rs[i] (by simp)
  have ok := hv rs[i] (List.getElem_mem _)
  have n1 := coeff_nonneg rs[i].products k ok.pnonneg
  have n2 := coeff_nonneg rs[i].reactants k ok.rnonneg
  rcases lt_trichotomy (R.ropnet i) 0 with h | h | h
  · have := (c2 h _ hp).1
    have z : coeff rs[i].products k = 0 := coeff_zero _ _ fun x hx e => this ⟨⟨x, hx, by rw [e]⟩, hex⟩
    rw [z]; nlinarith
  · rw [h]; simp
  · have := (c1 h _ hp).1
    have z : coeff rs[i].reactants k = 0 := coeff_zero _ _ fun x hx e => this ⟨⟨x, hx, by rw [e]⟩, hex⟩
    rw [z]; nlinarith

/-- C58, partial: a species of an unstable phase is never formed, provided some phase does not exist. Without that
proviso the flag has no effect (`stability_ignored`). -/
theorem unstable_not_formed_partial (hv : ∀ r ∈ rs, r.OK) (hI : IBuilt np phOf rs ops I)
    (hmiss : ∃ q < np, I.ex q = false) (RT : ℝ)
    (mu act rfn perturb : ℕ → ℝ) (hs : StateOK rs act rfn perturb) (R : IRop)
    (hR : I.updateROP RT mu act rfn perturb = .ok R) (k : ℕ) (hp : phOf k < np)
    (hst : I.st (phOf k) = false) : I.K.getNetProductionRates R.ropnet k ≤ 0 := by
  obtain ⟨hK, -, -, -⟩ := ibuilt_facts hI
  have hch : I.check ≠ 0 := by
    rw [exists_check_counts hI, Ne, Nat.cast_eq_zero, Finset.card_eq_zero]
    intro h
    rw [Finset.filter_eq_empty_iff] at h
    obtain ⟨q, hq, hx⟩ := hmiss
    exact h (Finset.mem_range.2 hq) hx
  rw [(species_rates rs hv I.K hK R.ropf (fun _ => 0) (fun _ _ _ _ => rfl) k).2.2 R.ropnet]
  refine Finset.sum_nonpos fun i _ => ?_
  obtain ⟨c1, c2, -⟩ := checked hv hI hch RT mu act rfn perturb hs R hR i rs[i] (by simp)
  have ok := hv rs[i] (List.getElem_mem _)
  have n1 := coeff_nonneg rs[i].products k ok.pnonneg
  have n2 := coeff_nonneg rs[i].reactants k ok.rnonneg
  rcases lt_trichotomy (R.ropnet i) 0 with h | h | h
  · have := (c2 h _ hp).2
    have z : coeff rs[i].reactants k = 0 := coeff_zero _ _ fun x hx e => this ⟨⟨x, hx, by rw [e]⟩, hst⟩
    rw [z]; nlinarith
  · rw [h]; simp
  · have := (c1 h _ hp).2
    have z : coeff rs[i].products k = 0 := coeff_zero _ _ fun x hx e => this ⟨⟨x, hx, by rw [e]⟩, hst⟩
    rw [z]; nlinarith

/-- C58: after `setPhaseExistence(p, false)`, with no later call for that phase, species of the phase are neither
formed nor consumed. -/
theorem switched_off (hv : ∀ r ∈ rs, r.OK) (hI : IBuilt np phOf rs ops I) (RT : ℝ)
    (mu act rfn perturb : ℕ → ℝ) (hs : StateOK rs act rfn perturb) (k : ℕ) (hp : phOf k < np)
    (J : IK) (hJ : I.setPhaseExistence (phOf k) false = .ok J) (R : IRop)
    (hR : J.updateROP RT mu act rfn perturb = .ok R) : J.K.getNetProductionRates R.ropnet k = 0 := by
  have hJb : IBuilt np phOf rs (ops ++ [.existence (phOf k) false]) J := by
    obtain ⟨I0, h0, rfl⟩ := hI
    refine ⟨I0, h0, ?_⟩
    have e : I0.run (ops ++ [.existence (phOf k) false]) = (I0.run ops).step (.existence (phOf k) false) := by
      simp [IK.run]
    rw [e]
    simp only [IK.step, hJ]
  obtain ⟨-, hnp, -, -⟩ := ibuilt_facts hI
  have hfl : J.ex (phOf k) = false ∧ J.st (phOf k) = false := by
    rw [IK.setPhaseExistence, if_neg (by omega)] at hJ
    simp only [Bool.false_eq_true, if_false, Outcome.ok.injEq] at hJ
    subst hJ
    refine ⟨?_, by simp⟩
    simp only
    split_ifs with h
    · simp
    · simpa using h
  exact le_antisymm
    (unstable_not_formed_partial hv hJb ⟨_, hp, hfl.1⟩ RT mu act rfn perturb hs R hR k hp hfl.2)
    (missing_not_consumed hv hJb RT mu act rfn perturb hs R hR k hp hfl.1)

/-- C58: switching a phase off and on again restores the object. -/
theorem existence_restored (I J : IK) (p : ℕ) (hex : I.ex p = true) (hst : I.st p = true)
    (hc : 0 ≤ I.check) (hJ : I.setPhaseExistence p false = .ok J) :
    J.setPhaseExistence p true = .ok I := by
  by_cases hp : I.np ≤ p
  · rw [IK.setPhaseExistence, if_pos hp] at hJ; cases hJ
  · rw [IK.setPhaseExistence, if_neg hp] at hJ
    simp only [Bool.false_eq_true, if_false, hex, if_true, Outcome.ok.injEq] at hJ
    subst hJ
    rw [IK.setPhaseExistence, if_neg hp]
    simp only [if_true, Function.update_self, Function.update_idem, Outcome.ok.injEq]
    have e1 : Function.update I.ex p true = I.ex := by rw [← hex]; simp
    have e2 : Function.update I.st p true = I.st := by rw [← hst]; simp
    rw [e1, e2]
    have e3 : max (I.check + 1 - 1) 0 = I.check := by omega
    rw [e3]

theorem surf_state : StateOK surfRxns (fun _ => 1) (fun _ => 3) (fun _ => 2) := by
  intro i r hr
  exact ⟨surf_conc r (List.mem_of_getElem? hr), by norm_num⟩

/-- Rate of formation of species 2 of the example with and without its phase. -/
example : ∃ I J R R', IBuilt 2 surfPh surfRxns [] I ∧ I.setPhaseExistence 1 false = .ok J ∧
    I.updateROP 1 (fun _ => 0) (fun _ => 1) (fun _ => 3) (fun _ => 2) = .ok R ∧
    J.updateROP 1 (fun _ => 0) (fun _ => 1) (fun _ => 3) (fun _ => 2) = .ok R' ∧
    I.K.getNetProductionRates R.ropnet 2 = 12 ∧ J.K.getNetProductionRates R'.ropnet 2 = 0 ∧
    J.setPhaseExistence 1 true = .ok I := by
  obtain ⟨I0, h0⟩ := ik_addAll_ok surfPh surfRxns surfRxns_ok (IK.new 2)
  have hI : IBuilt 2 surfPh surfRxns [] I0 := ⟨I0, h0, rfl⟩
  obtain ⟨-, h2, h3, h4, h5, -, -⟩ := ik_addAll _ _ _ _ h0
  obtain ⟨R, hR, h⟩ := interface_rates surfRxns_ok hI (fun p _ => by rw [h3]; rfl) 1 (fun _ => 0)
    (fun _ => 1) (fun _ => 3) (fun _ => 2)
  have hJ : ∃ J, I0.setPhaseExistence 1 false = .ok J := by
    rw [IK.setPhaseExistence, if_neg (by rw [h2]; simp [IK.new])]
    exact ⟨_, rfl⟩
  obtain ⟨J, hJ⟩ := hJ
  have hJb : IBuilt 2 surfPh surfRxns [.existence 1 false] J :=
    ⟨I0, h0, by simp [IK.run, IK.step, hJ]⟩
  obtain ⟨R', hR', -⟩ := rop_values surfRxns_ok hJb 1 (fun _ => 0) (fun _ => 1) (fun _ => 3) (fun _ => 2)
  refine ⟨I0, J, R, R', hI, hJ, hR, hR', ?_, ?_, ?_⟩
  · obtain ⟨hK, -, -, -⟩ := ibuilt_facts hI
    rw [(species_rates surfRxns surfRxns_ok I0.K hK R.ropf (fun _ => 0) (fun _ _ _ _ => rfl) 2).2.2 R.ropnet]
    obtain ⟨a1, a2, a3⟩ := h 0 _ rfl (surf_conc _ (by simp [surfRxns]))
    obtain ⟨b1, b2, b3⟩ := h 1 _ rfl (surf_conc _ (by simp [surfRxns]))
    rw [surf_sum]
    have x0 : R.ropnet 0 = 0 := by
      rw [a3, a1, a2]; norm_num [powProd, Rxn.effOrders, Rxn.delta]
    have x1 : R.ropnet 1 = 6 := by
      rw [b3, b1, b2]; norm_num [powProd, Rxn.effOrders, Rxn.delta]
    simp only [x0, x1]
    norm_num [coeff, surfRxns]
  · exact switched_off surfRxns_ok hI 1 (fun _ => 0) (fun _ => 1) (fun _ => 3) (fun _ => 2) surf_state 2
      (by simp [surfPh]) J hJ R' hR'
  · exact existence_restored I0 J 1 (by rw [h3]; rfl) (by rw [h4]; rfl) (by rw [h5]; simp [IK.new]) hJ

/-- A phase of which no species takes part in the reactions does not exist: the rates stay. -/
example : ∃ I R, IBuilt 3 surfPh surfRxns [.existence 2 false] I ∧ I.ex 2 = false ∧
    I.updateROP 1 (fun _ => 0) (fun _ => 1) (fun _ => 3) (fun _ => 2) = .ok R ∧ R.ropf 1 = 6 := by
  obtain ⟨I0, h0⟩ := ik_addAll_ok surfPh surfRxns surfRxns_ok (IK.new 3)
  obtain ⟨-, h2, h3, h4, h5, -, -⟩ := ik_addAll _ _ _ _ h0
  have hI : IBuilt 3 surfPh surfRxns [.existence 2 false] (I0.run [.existence 2 false]) := ⟨I0, h0, rfl⟩
  obtain ⟨R, hR, -⟩ := rop_values surfRxns_ok hI 1 (fun _ => 0) (fun _ => 1) (fun _ => 3) (fun _ => 2)
  have hx : I0.ex = fun _ => true := h3
  have hs : I0.st = fun _ => true := h4
  have hn : I0.np = 3 := h2
  refine ⟨_, R, hI, ?_, hR, ?_⟩
  · simp [IK.run, IK.step, IK.setPhaseExistence, hn, hx]
  · rw [(other_phases_irrelevant surfRxns_ok hI _ _ _ _ _ surf_state R hR 1 _ rfl ?_).1]
    · norm_num [powProd, Rxn.effOrders, surfRxns]
    · intro x hx'
      have : surfPh x.1 ≠ 2 := by rw [surfPh]; split_ifs <;> omega
      simp [IK.run, IK.step, IK.setPhaseExistence, hn, hx, hs, Function.update_apply, this]

/-- With the surface missing, the bulk species is not formed although it could be (reaction 1 is blocked), and
a species of a missing phase that is declared stable may only be formed. -/
example : ∃ I R, IBuilt 2 surfPh surfRxns [.existence 0 false, .stability 0 true] I ∧
    I.updateROP 1 (fun _ => 0) (fun _ => 1) (fun _ => 3) (fun _ => 2) = .ok R ∧
    I.ex 0 = false ∧ I.st 0 = true ∧ 0 ≤ I.K.getNetProductionRates R.ropnet 0 := by
  obtain ⟨I0, h0⟩ := ik_addAll_ok surfPh surfRxns surfRxns_ok (IK.new 2)
  obtain ⟨-, h2, h3, h4, h5, -, -⟩ := ik_addAll _ _ _ _ h0
  have hI : IBuilt 2 surfPh surfRxns [.existence 0 false, .stability 0 true]
    (I0.run [.existence 0 false, .stability 0 true]) := ⟨I0, h0, rfl⟩
  obtain ⟨R, hR, -⟩ := rop_values surfRxns_ok hI 1 (fun _ => 0) (fun _ => 1) (fun _ => 3) (fun _ => 2)
  have hx : I0.ex = fun _ => true := h3
  have hn : I0.np = 2 := h2
  have e : (I0.run [.existence 0 false, .stability 0 true]).ex 0 = false := by
    simp [IK.run, IK.step, IK.setPhaseExistence, IK.setPhaseStability, hn, hx]
  refine ⟨_, R, hI, hR, e, ?_, ?_⟩
  · simp [IK.run, IK.step, IK.setPhaseExistence, IK.setPhaseStability, hn, hx]
  · exact missing_not_consumed surfRxns_ok hI _ _ _ _ _ surf_state R hR 0 (by simp [surfPh])
      (by simpa [surfPh] using e)

/-- C58, negation: `setPhaseStability(p, false)` alone has no effect on the rates: as long as all phases exist the
flags are not consulted, and a species of the unstable phase is formed (compare InterfaceKinetics.h:245-262). -/
theorem stability_ignored : ∃ (rs : List Rxn) (I J : IK) (R : IRop), (∀ r ∈ rs, r.OK) ∧
    IBuilt 2 surfPh rs [] I ∧ I.setPhaseStability 1 false = .ok J ∧ J.st 1 = false ∧
    StateOK rs (fun _ => 1) (fun _ => 3) (fun _ => 2) ∧
    J.updateROP 1 (fun _ => 0) (fun _ => 1) (fun _ => 3) (fun _ => 2) = .ok R ∧
    surfPh 2 = 1 ∧ J.K.getNetProductionRates R.ropnet 2 = 12 := by
  obtain ⟨I0, h0⟩ := ik_addAll_ok surfPh surfRxns surfRxns_ok (IK.new 2)
  have hI : IBuilt 2 surfPh surfRxns [] I0 := ⟨I0, h0, rfl⟩
  obtain ⟨-, h2, h3, h4, h5, -, -⟩ := ik_addAll _ _ _ _ h0
  have hJ : I0.setPhaseStability 1 false = .ok { I0 with st := Function.update I0.st 1 false } := by
    rw [IK.setPhaseStability, if_neg (by rw [h2]; simp [IK.new])]
  have hJb : IBuilt 2 surfPh surfRxns [.stability 1 false] { I0 with st := Function.update I0.st 1 false } :=
    ⟨I0, h0, by simp only [IK.run, List.foldl_cons, List.foldl_nil, IK.step, hJ]⟩
  obtain ⟨R, hR, h⟩ := interface_rates surfRxns_ok hJb (fun p _ => by simp only [h3]; rfl) 1 (fun _ => 0)
    (fun _ => 1) (fun _ => 3) (fun _ => 2)
  refine ⟨surfRxns, I0, _, R, surfRxns_ok, hI, hJ, by simp, surf_state, hR, by simp [surfPh], ?_⟩
  obtain ⟨hK, -, -, -⟩ := ibuilt_facts hJb
  rw [(species_rates surfRxns surfRxns_ok _ hK R.ropf (fun _ => 0) (fun _ _ _ _ => rfl) 2).2.2 R.ropnet]
  obtain ⟨a1, a2, a3⟩ := h 0 _ rfl (surf_conc _ (by simp [surfRxns]))
  obtain ⟨b1, b2, b3⟩ := h 1 _ rfl (surf_conc _ (by simp [surfRxns]))
  rw [surf_sum]
  have x0 : R.ropnet 0 = 0 := by
    rw [a3, a1, a2]; norm_num [powProd, Rxn.effOrders, Rxn.delta]
  have x1 : R.ropnet 1 = 6 := by
    rw [b3, b1, b2]; norm_num [powProd, Rxn.effOrders, Rxn.delta]
  simp only [x0, x1]
  norm_num [coeff, surfRxns]

end

end Verif.Kinetics.Interface
