import Verif.Kinetics.InterfaceLemmas
import Mathlib.Algebra.BigOperators.Ring.Finset
import Mathlib.Algebra.Order.BigOperators.Group.Finset

/-!
# C57: rates of progress of interface reactions; C58: phase existence and stability

Every theorem quantifies over all lists of well-formed reactions added to a new object, followed by
any sequence of calls of `setPhaseExistence` and `setPhaseStability`.
-/

namespace Verif.Kinetics.Interface

open Verif Verif.Stoich Verif.Kinetics

/-- `I` has `np` phases, was filled with the reactions `rs` (`phOf` maps species to phases) and then
received the calls `ops`. -/
def IBuilt (np : ℕ) (phOf : ℕ → ℕ) (rs : List Rxn) (ops : List POp) (I : IK) : Prop :=
  ∃ I0, (IK.new np).addAll phOf rs = .ok I0 ∧ I = I0.run ops

theorem ibuilt_exists (np : ℕ) (phOf : ℕ → ℕ) (rs : List Rxn) (hv : ∀ r ∈ rs, r.OK) (ops : List POp) :
    ∃ I, IBuilt np phOf rs ops I := by
  obtain ⟨I0, h⟩ := ik_addAll_ok phOf rs hv (IK.new np)
  exact ⟨_, I0, h, rfl⟩

/-- Number of phases flagged as not existing. -/
def IK.missing (I : IK) : ℕ := ((Finset.range I.np).filter (fun p => I.ex p = false)).card

theorem missing_set (I : IK) (p : ℕ) (hp : p < I.np) (h : I.ex p = false) :
    ({ I with ex := Function.update I.ex p true } : IK).missing + 1 = I.missing := by
  simp only [IK.missing]
  have : (Finset.range I.np).filter (fun q => I.ex q = false) =
      insert p ((Finset.range I.np).filter (fun q => Function.update I.ex p true q = false)) := by
    ext q
    simp only [Finset.mem_filter, Finset.mem_range, Finset.mem_insert, Function.update_apply]
    by_cases e : q = p
    · subst e; simp [hp, h]
    · simp [e]
  rw [this, Finset.card_insert_of_notMem]
  simp

theorem missing_clear (I : IK) (p : ℕ) (hp : p < I.np) (h : I.ex p = true) :
    ({ I with ex := Function.update I.ex p false } : IK).missing = I.missing + 1 := by
  simp only [IK.missing]
  have : (Finset.range I.np).filter (fun q => Function.update I.ex p false q = false) =
      insert p ((Finset.range I.np).filter (fun q => I.ex q = false)) := by
    ext q
    simp only [Finset.mem_filter, Finset.mem_range, Finset.mem_insert, Function.update_apply]
    by_cases e : q = p
    · subst e; simp [hp]
    · simp [e]
  rw [this, Finset.card_insert_of_notMem]
  simp [h]

theorem step_inv (I : IK) (h : I.check = I.missing) (o : POp) :
    (I.step o).check = (I.step o).missing ∧ (I.step o).K = I.K ∧ (I.step o).np = I.np ∧
      (I.step o).isReac = I.isReac ∧ (I.step o).isProd = I.isProd := by
  cases o with
  | existence p e =>
    by_cases hp : I.np ≤ p
    · simp [IK.step, IK.setPhaseExistence, hp, h]
    · have hp' : p < I.np := by omega
      cases e with
      | true =>
        cases hx : I.ex p with
        | false =>
          have := missing_set I p hp' hx
          simp only [IK.missing] at this h ⊢
          simp only [IK.step, IK.setPhaseExistence, hp, hx, if_true, if_false, and_self,
            and_true]
          omega
        | true =>
          simp only [IK.missing] at h ⊢
          simp [IK.step, IK.setPhaseExistence, hp, hx, h]
      | false =>
        cases hx : I.ex p with
        | true =>
          have := missing_clear I p hp' hx
          simp only [IK.missing] at this h ⊢
          simp only [IK.step, IK.setPhaseExistence, hp, hx, if_true, if_false, Bool.false_eq_true,
            and_self, and_true]
          omega
        | false =>
          simp only [IK.missing] at h ⊢
          simp [IK.step, IK.setPhaseExistence, hp, hx, h]
  | stability p s =>
    by_cases hp : I.np ≤ p
    · simp [IK.step, IK.setPhaseStability, hp, h]
    · simp only [IK.missing] at h ⊢
      simp [IK.step, IK.setPhaseStability, hp, h]

theorem run_inv (ops : List POp) (I : IK) (h : I.check = I.missing) :
    (I.run ops).check = (I.run ops).missing ∧ (I.run ops).K = I.K ∧ (I.run ops).np = I.np ∧
      (I.run ops).isReac = I.isReac ∧ (I.run ops).isProd = I.isProd := by
  induction ops generalizing I with
  | nil => exact ⟨h, rfl, rfl, rfl, rfl⟩
  | cons o ops ih =>
    obtain ⟨h1, h2, h3, h4, h5⟩ := step_inv I h o
    obtain ⟨g1, g2, g3, g4, g5⟩ := ih (I.step o) h1
    exact ⟨g1, g2.trans h2, g3.trans h3, g4.trans h4, g5.trans h5⟩

section
variable {np : ℕ} {phOf : ℕ → ℕ} {rs : List Rxn} {ops : List POp} {I : IK}

theorem ibuilt_facts (hI : IBuilt np phOf rs ops I) :
    Built I.K rs ∧ I.np = np ∧ I.check = I.missing ∧
    ∀ i r, rs[i]? = some r →
      (∀ p, I.isReac i p = true ↔ ∃ x ∈ r.reactants, phOf x.1 = p) ∧
      (∀ p, I.isProd i p = true ↔ ∃ x ∈ r.products, phOf x.1 = p) := by
  obtain ⟨I0, h0, rfl⟩ := hI
  obtain ⟨h1, h2, h3, h4, h5, h6, h7⟩ := ik_addAll phOf rs _ _ h0
  have hm : I0.check = I0.missing := by
    rw [h5]; simp only [IK.missing, h3, IK.new]; simp
  obtain ⟨g1, g2, g3, g4, g5⟩ := run_inv ops I0 hm
  refine ⟨by rw [g2]; exact h1, by rw [g3, h2]; rfl, g1, ?_⟩
  intro i r hr
  have := h7 i r hr
  simp only [IK.new, Kin.empty, zero_add] at this
  rw [g4, g5, this.1, this.2]
  exact ⟨phaseRow_true _ _, phaseRow_true _ _⟩

/-- C58: `m_phaseExistsCheck` is the number of phases that do not exist, after any sequence of calls
(InterfaceKinetics.h:433-439). -/
theorem exists_check_counts (hI : IBuilt np phOf rs ops I) :
    I.check = ((Finset.range np).filter (fun p => I.ex p = false)).card := by
  obtain ⟨-, h2, h3, -⟩ := ibuilt_facts hI
  rw [h3, IK.missing, h2]

example : ∃ I, IBuilt 3 (fun k => k) exampleRxns
    [.existence 1 false, .existence 1 false, .existence 7 false, .existence 2 false, .existence 2 true] I ∧
    I.check = 1 ∧ I.ex 1 = false ∧ I.ex 2 = true := by
  obtain ⟨I0, h0⟩ := ik_addAll_ok (fun k => k) exampleRxns exampleRxns_ok (IK.new 3)
  obtain ⟨-, h2, h3, h4, h5, -⟩ := ik_addAll _ _ _ _ h0
  refine ⟨_, ⟨I0, h0, rfl⟩, ?_⟩
  simp [IK.run, IK.step, IK.setPhaseExistence, h2, h3, h5, IK.new]

/-- Forward rate of progress without regard to phase existence. -/
noncomputable def fwdRate (r : Rxn) (k : ℝ) (act : ℕ → ℝ) : ℝ := k * powProd r.effOrders act

/-- Reverse rate of progress without regard to phase existence. -/
noncomputable def revRate (r : Rxn) (k RT : ℝ) (mu act : ℕ → ℝ) : ℝ :=
  if r.reversible then k * Real.exp (r.delta mu / RT) * powProd r.products act else 0

/-- The vectors of `updateROP` before and after the phase existence logic. -/
theorem rop_values (hv : ∀ r ∈ rs, r.OK) (hI : IBuilt np phOf rs ops I) (RT : ℝ)
    (mu act rfn perturb : ℕ → ℝ) :
    ∃ R, I.updateROP RT mu act rfn perturb = .ok R ∧ ∀ i r, rs[i]? = some r →
      R.rkcn i = (if r.reversible then Real.exp (r.delta mu / RT) else 0) ∧
      ∃ t : Tri, t.net = t.f - t.r ∧
        (r.reversible = false → t.r = 0) ∧
        (r.ConcOK act → t.f = fwdRate r (rfn i * perturb i) act ∧
          t.r = revRate r (rfn i * perturb i) RT mu act) ∧
        (⟨R.ropf i, R.ropr i, R.ropnet i⟩ : Tri) =
          if I.check ≠ 0 then exist I.np I.ex I.st (I.isReac i) (I.isProd i) t else t := by
  obtain ⟨hK, -, -, -⟩ := ibuilt_facts hI
  obtain ⟨w, hw, hwi⟩ := rkcnI_value rs hv I.K hK RT mu
  rw [IK.updateROP, hw]
  simp only [Outcome.bind_ok, Outcome.pure_eq]
  refine ⟨_, rfl, ?_⟩
  intro i r hr
  have hrm := rev_mul rs hv I.K hK act (fun i => rfn i * perturb i * w i) i r hr
  refine ⟨hwi i r hr, ⟨I.K.reac.multiply act (fun i => rfn i * perturb i) i,
    I.K.revProd.multiply act (fun i => rfn i * perturb i * w i) i, _⟩, rfl, ?_, ?_, rfl⟩
  · intro hrev
    simp only
    rw [hrm.1 hrev, hwi i r hr, hrev]; simp
  · intro hc
    simp only
    rw [reac_mul rs hv I.K hK act _ i r hr hc.1, fwdRate, revRate]
    refine ⟨rfl, ?_⟩
    cases hrev : r.reversible with
    | false => rw [hrm.1 hrev, hwi i r hr, hrev]; simp
    | true => rw [hrm.2 hrev hc.2, hwi i r hr, hrev]; simp

/-- C57: with all phases existing, `updateROP` computes mass action: forward rate constant times
activity concentrations to the declared orders, reverse rate from the reciprocal equilibrium constant,
zero for irreversible reactions. -/
theorem interface_rates (hv : ∀ r ∈ rs, r.OK) (hI : IBuilt np phOf rs ops I)
    (hex : ∀ p < np, I.ex p = true) (RT : ℝ) (mu act rfn perturb : ℕ → ℝ) :
    ∃ R, I.updateROP RT mu act rfn perturb = .ok R ∧ ∀ i r, rs[i]? = some r → r.ConcOK act →
      R.ropf i = rfn i * perturb i * powProd r.effOrders act ∧
      R.ropr i = (if r.reversible then
        rfn i * perturb i * Real.exp (r.delta mu / RT) * powProd r.products act else 0) ∧
      R.ropnet i = R.ropf i - R.ropr i := by
  obtain ⟨R, hR, h⟩ := rop_values hv hI RT mu act rfn perturb
  refine ⟨R, hR, ?_⟩
  intro i r hr hc
  obtain ⟨-, t, hn, -, ht, he⟩ := h i r hr
  have hch : I.check = 0 := by
    rw [exists_check_counts hI, Nat.cast_eq_zero, Finset.card_eq_zero, Finset.filter_eq_empty_iff]
    intro p hp
    simp [hex p (Finset.mem_range.1 hp)]
  rw [if_neg (by simpa using hch)] at he
  obtain ⟨h1, h2⟩ := ht hc
  have e1 : R.ropf i = t.f := congrArg Tri.f he
  have e2 : R.ropr i = t.r := congrArg Tri.r he
  have e3 : R.ropnet i = t.net := congrArg Tri.net he
  rw [e1, e2, e3, h1, h2, hn, h1, h2]
  exact ⟨rfl, rfl, rfl⟩

/-- Two reactions between a surface (species 0, 1; phase 0) and a bulk phase (species 2; phase 1). -/
noncomputable def surfRxns : List Rxn :=
  [⟨[(0, 1), (2, 1)], [(1, 1)], [], true, none⟩, ⟨[(1, 2)], [(0, 2), (2, 2)], [], false, none⟩]

def surfPh (k : ℕ) : ℕ := if k < 2 then 0 else 1

theorem surfRxns_ok : ∀ r ∈ surfRxns, r.OK := by
  intro r hr
  simp only [surfRxns, List.mem_cons, List.not_mem_nil, or_false] at hr
  rcases hr with rfl | rfl <;>
    refine ⟨by simp, by simp, by simp, ?_, ?_⟩ <;> intro x hx <;> simp at hx <;>
    (try rcases hx with rfl | rfl) <;> norm_num [*]

theorem surf_conc : ∀ r ∈ surfRxns, r.ConcOK (fun _ => 1) := by
  intro r _
  exact ⟨fun x _ => Or.inl one_pos, fun x _ => zero_le_one⟩

example : ∃ I R, IBuilt 2 surfPh surfRxns [] I ∧
    I.updateROP 1 (fun _ => 0) (fun _ => 1) (fun _ => 3) (fun _ => 2) = .ok R ∧
    R.ropf 0 = 6 ∧ R.ropr 0 = 6 ∧ R.ropnet 0 = 0 ∧ R.ropf 1 = 6 ∧ R.ropr 1 = 0 ∧ R.ropnet 1 = 6 := by
  obtain ⟨I0, h0⟩ := ik_addAll_ok surfPh surfRxns surfRxns_ok (IK.new 2)
  have hI : IBuilt 2 surfPh surfRxns [] I0 := ⟨I0, h0, rfl⟩
  have hx := (ik_addAll _ _ _ _ h0).2.2.1
  obtain ⟨R, hR, h⟩ := interface_rates surfRxns_ok hI (fun p _ => by rw [hx]; rfl) 1 (fun _ => 0)
    (fun _ => 1) (fun _ => 3) (fun _ => 2)
  refine ⟨I0, R, hI, hR, ?_⟩
  have a := h 0 _ rfl (surf_conc _ (by simp [surfRxns]))
  have b := h 1 _ rfl (surf_conc _ (by simp [surfRxns]))
  obtain ⟨a1, a2, a3⟩ := a
  obtain ⟨b1, b2, b3⟩ := b
  rw [a3, b3, a1, a2, b1, b2]
  norm_num [powProd, Rxn.effOrders, Rxn.delta]

/-! ### Equilibrium constants -/

/-- C57: `getEquilibriumConstants` returns `exp(-Δμ/RT)` of the (electrochemical, concentration based)
standard potentials for every reaction; for reversible reactions it is the reciprocal of the stored
`m_rkcn`, and both variants of `getRevRateConstants` agree. For an irreversible reaction the default
variant returns zero. -/
theorem equilibrium_constants (hv : ∀ r ∈ rs, r.OK) (hI : IBuilt np phOf rs ops I) (RT : ℝ)
    (mu act rfn perturb : ℕ → ℝ) (R : IRop) (hR : I.updateROP RT mu act rfn perturb = .ok R)
    (i : ℕ) (r : Rxn) (hr : rs[i]? = some r) :
    Kin.kcI I.K RT mu i = Real.exp (-(r.delta mu) / RT) ∧
    (r.reversible = true → R.rkcn i * Kin.kcI I.K RT mu i = 1 ∧
      I.revConst RT mu rfn perturb R true i = I.revConst RT mu rfn perturb R false i) ∧
    (r.reversible = false → I.revConst RT mu rfn perturb R false i = 0) := by
  obtain ⟨hK, -, -, -⟩ := ibuilt_facts hI
  have hd := (reaction_delta rs hv I.K hK mu i r hr).1
  obtain ⟨R', hR', h⟩ := rop_values hv hI RT mu act rfn perturb
  rw [hR] at hR'; cases hR'
  have hk : Kin.kcI I.K RT mu i = Real.exp (-(r.delta mu) / RT) := by
    rw [Kin.kcI, hd, mul_one_div]
  refine ⟨hk, ?_, ?_⟩
  · intro hrev
    have h1 := (h i r hr).1
    rw [if_pos hrev] at h1
    have h2 : Real.exp (-(r.delta mu) / RT) = (Real.exp (r.delta mu / RT))⁻¹ := by
      rw [← Real.exp_neg]; congr 1; ring
    refine ⟨?_, ?_⟩
    · rw [h1, hk, h2, mul_inv_cancel₀ (Real.exp_pos _).ne']
    · simp only [IK.revConst, if_true, Bool.false_eq_true, if_false]
      rw [h1, hk, h2, div_inv_eq_mul]
  · intro hrev
    have h1 := (h i r hr).1
    rw [hrev] at h1
    simp only [Bool.false_eq_true, if_false] at h1
    simp only [IK.revConst, Bool.false_eq_true, if_false, h1, mul_zero]

example : ∃ I R, IBuilt 2 surfPh surfRxns [] I ∧
    I.updateROP 1 (fun k => if k = 1 then 1 else 0) (fun _ => 1) (fun _ => 3) (fun _ => 2) = .ok R ∧
    Kin.kcI I.K 1 (fun k => if k = 1 then 1 else 0) 0 = Real.exp (-1) ∧
    I.revConst 1 (fun k => if k = 1 then 1 else 0) (fun _ => 3) (fun _ => 2) R true 0 =
      I.revConst 1 (fun k => if k = 1 then 1 else 0) (fun _ => 3) (fun _ => 2) R false 0 := by
  obtain ⟨I, hI⟩ := ibuilt_exists 2 surfPh surfRxns surfRxns_ok []
  obtain ⟨R, hR, -⟩ := rop_values surfRxns_ok hI 1 (fun k => if k = 1 then 1 else 0) (fun _ => 1)
    (fun _ => 3) (fun _ => 2)
  have := equilibrium_constants surfRxns_ok hI _ _ _ _ _ R hR 0 _ rfl
  refine ⟨I, R, hI, hR, ?_, (this.2.1 rfl).2⟩
  rw [this.1]; norm_num [Rxn.delta]

/-! ### Electrochemical detailed balance -/

/-- Global species vector given per phase. -/
def IsGather (ps : List IPhase) (f : ℕ → IPhase → ℕ → ℝ) (v : ℕ → ℝ) : Prop :=
  ∀ n p k, ps[n]? = some p → k < p.n → v (startAt ps n + k) = f n p k

/-- Species indices of the reaction are valid. -/
def Rxn.InRange (ps : List IPhase) (r : Rxn) : Prop :=
  ∀ x ∈ r.reactants ++ r.products, ∃ n p k, ps[n]? = some p ∧ k < p.n ∧ x.1 = startAt ps n + k

theorem powProd_exp (l : List (ℕ × ℝ)) (c : ℕ → ℝ) (hc : ∀ x ∈ l, 0 < c x.1) :
    powProd l c = Real.exp ((l.map (fun x => x.2 * Real.log (c x.1))).sum) := by
  induction l with
  | nil => simp [powProd]
  | cons x l ih =>
    rw [powProd, List.map_cons, List.prod_cons, ← powProd, ih (fun y hy => hc y (by simp [hy])),
      List.map_cons, List.sum_cons, Real.exp_add, Real.rpow_def_of_pos (hc x (by simp))]
    congr 2; ring

theorem delta_congr (r : Rxn) (g h : ℕ → ℝ) (e : ∀ x ∈ r.reactants ++ r.products, g x.1 = h x.1) :
    r.delta g = r.delta h := by
  have e1 : r.products.map (fun x => x.2 * g x.1) = r.products.map (fun x => x.2 * h x.1) :=
    List.map_congr_left fun x hx => by rw [e x (by simp [hx])]
  have e2 : r.reactants.map (fun x => x.2 * g x.1) = r.reactants.map (fun x => x.2 * h x.1) :=
    List.map_congr_left fun x hx => by rw [e x (by simp [hx])]
  simp only [Rxn.delta, e1, e2]

theorem sum_lin (l : List (ℕ × ℝ)) (g h : ℕ → ℝ) (c : ℝ) :
    (l.map (fun x => x.2 * (g x.1 + c * h x.1))).sum =
      (l.map (fun x => x.2 * g x.1)).sum + c * (l.map (fun x => x.2 * h x.1)).sum := by
  induction l with
  | nil => simp
  | cons x l ih => simp only [List.map_cons, List.sum_cons, ih]; ring

theorem delta_lin (r : Rxn) (g h : ℕ → ℝ) (c : ℝ) :
    r.delta (fun k => g k + c * h k) = r.delta g + c * r.delta h := by
  simp only [Rxn.delta, sum_lin]; ring

/-- Ratio of the two unchecked rates in terms of electrochemical potentials. -/
theorem ratio (ps : List IPhase) (r : Rxn) (hr : Rxn.InRange ps r) (hrev : r.reversible = true)
    (hord : r.orders = []) (RT k : ℝ) (hRT : 0 < RT) (old old' : ℕ → ℝ) (a : ℕ → ℕ → ℝ)
    (ha : ∀ n j, 0 < a n j)
    (hact : ∀ n p j, ps[n]? = some p → j < p.n → p.act j = Real.exp (p.logc0 j) * a n j)
    (mt : ℕ → ℝ) (hmt : IsGather ps
      (fun n p j => p.mu0 j + RT * Real.log (a n j) + faraday * p.phi * p.charge j) mt) :
    fwdRate r k (gather ps IPhase.act old) =
      Real.exp (-(r.delta mt) / RT) *
        revRate r k RT (muKc ps RT old') (gather ps IPhase.act old) := by
  have hpos : ∀ x ∈ r.reactants ++ r.products, 0 < gather ps IPhase.act old x.1 := by
    intro x hx
    obtain ⟨n, p, j, h1, h2, h3⟩ := hr x hx
    rw [h3, gather_at ps _ _ n p h1 j h2, hact n p j h1 h2]
    exact mul_pos (Real.exp_pos _) (ha n j)
  have hlog : ∀ x ∈ r.reactants ++ r.products, mt x.1 =
      muKc ps RT old' x.1 + RT * Real.log (gather ps IPhase.act old x.1) := by
    intro x hx
    obtain ⟨n, p, j, h1, h2, h3⟩ := hr x hx
    rw [h3, hmt n p j h1 h2, muKc_at ps RT old' n p h1 j h2, gather_at ps _ _ n p h1 j h2,
      hact n p j h1 h2, Real.log_mul (Real.exp_pos _).ne' (ha n j).ne', Real.log_exp]
    ring
  have hd := delta_congr r mt (fun k => muKc ps RT old' k + RT * Real.log (gather ps IPhase.act old k)) hlog
  rw [delta_lin] at hd
  have heff : r.effOrders = r.reactants := by
    rw [Rxn.effOrders, hord]; simp
  rw [fwdRate, revRate, if_pos hrev, heff,
    powProd_exp r.reactants _ (fun x hx => hpos x (by simp [hx])),
    powProd_exp r.products _ (fun x hx => hpos x (by simp [hx])), hd]
  have hexp : Real.exp ((r.reactants.map (fun x => x.2 * Real.log (gather ps IPhase.act old x.1))).sum) =
      Real.exp (-(r.delta (muKc ps RT old') +
        RT * r.delta (fun k => Real.log (gather ps IPhase.act old k))) / RT) *
      (Real.exp (r.delta (muKc ps RT old') / RT) *
        Real.exp ((r.products.map (fun x => x.2 * Real.log (gather ps IPhase.act old x.1))).sum)) := by
    rw [← Real.exp_add, ← Real.exp_add]
    congr 1
    have : r.delta (fun k => Real.log (gather ps IPhase.act old k)) =
      (r.products.map (fun x => x.2 * Real.log (gather ps IPhase.act old x.1))).sum -
      (r.reactants.map (fun x => x.2 * Real.log (gather ps IPhase.act old x.1))).sum := rfl
    rw [this]
    field_simp
    ring
  rw [hexp]; ring

/-- Rates are admissible at positive activities. -/
theorem conc_ok (ps : List IPhase) (r : Rxn) (hr : Rxn.InRange ps r) (hord : r.orders = [])
    (old : ℕ → ℝ) (a : ℕ → ℕ → ℝ) (ha : ∀ n j, 0 < a n j)
    (hact : ∀ n p j, ps[n]? = some p → j < p.n → p.act j = Real.exp (p.logc0 j) * a n j) :
    r.ConcOK (gather ps IPhase.act old) := by
  have hpos : ∀ x ∈ r.reactants ++ r.products, 0 < gather ps IPhase.act old x.1 := by
    intro x hx
    obtain ⟨n, p, j, h1, h2, h3⟩ := hr x hx
    rw [h3, gather_at ps _ _ n p h1 j h2, hact n p j h1 h2]
    exact mul_pos (Real.exp_pos _) (ha n j)
  have heff : r.effOrders = r.reactants := by
    rw [Rxn.effOrders, hord]; simp
  refine ⟨?_, ?_⟩
  · rw [heff]; intro x hx; exact Or.inl (hpos x (by simp [hx]))
  · intro x hx; exact (hpos x (by simp [hx])).le

/-- C57, electrochemical detailed balance: for every reversible reaction between any phases at any electric
potentials, with activities `a`, activity concentrations `c_k = c°_k a_k` and electrochemical
potentials `μ°_k + RT ln a_k + F z_k φ`, forward over reverse rate is `exp(-Δ/RT)` with Δ the change of
the electrochemical potentials. -/
theorem electrochemical_detailed_balance (hv : ∀ r ∈ rs, r.OK) (hI : IBuilt np phOf rs ops I)
    (hex : ∀ p < np, I.ex p = true) (ps : List IPhase) (i : ℕ) (r : Rxn) (hr : rs[i]? = some r)
    (hin : Rxn.InRange ps r) (hrev : r.reversible = true) (hord : r.orders = [])
    (RT : ℝ) (hRT : 0 < RT) (old old' rfn perturb : ℕ → ℝ) (a : ℕ → ℕ → ℝ) (ha : ∀ n j, 0 < a n j)
    (hact : ∀ n p j, ps[n]? = some p → j < p.n → p.act j = Real.exp (p.logc0 j) * a n j)
    (mt : ℕ → ℝ) (hmt : IsGather ps
      (fun n p j => p.mu0 j + RT * Real.log (a n j) + faraday * p.phi * p.charge j) mt) :
    ∃ R, I.updateROP RT (muKc ps RT old') (gather ps IPhase.act old) rfn perturb = .ok R ∧
      R.ropf i = Real.exp (-(r.delta mt) / RT) * R.ropr i := by
  obtain ⟨R, hR, h⟩ := interface_rates hv hI hex RT (muKc ps RT old') (gather ps IPhase.act old)
    rfn perturb
  obtain ⟨h1, h2, -⟩ := h i r hr (conc_ok ps r hin hord old a ha hact)
  refine ⟨R, hR, ?_⟩
  have := ratio ps r hin hrev hord RT (rfn i * perturb i) hRT old old' a ha hact mt hmt
  rw [h1, h2]
  exact this

/-- C57 and C58, second law: whatever phases exist or are stable, with a non-negative rate
constant the net rate of a reversible reaction never has the sign of the change of the electrochemical potentials, and
vanishes when that change is zero. -/
theorem no_uphill_rate (hv : ∀ r ∈ rs, r.OK) (hI : IBuilt np phOf rs ops I)
    (ps : List IPhase) (i : ℕ) (r : Rxn) (hr : rs[i]? = some r)
    (hin : Rxn.InRange ps r) (hrev : r.reversible = true) (hord : r.orders = [])
    (RT : ℝ) (hRT : 0 < RT) (old old' rfn perturb : ℕ → ℝ) (hk : 0 ≤ rfn i * perturb i)
    (a : ℕ → ℕ → ℝ) (ha : ∀ n j, 0 < a n j)
    (hact : ∀ n p j, ps[n]? = some p → j < p.n → p.act j = Real.exp (p.logc0 j) * a n j)
    (mt : ℕ → ℝ) (hmt : IsGather ps
      (fun n p j => p.mu0 j + RT * Real.log (a n j) + faraday * p.phi * p.charge j) mt) :
    ∃ R, I.updateROP RT (muKc ps RT old') (gather ps IPhase.act old) rfn perturb = .ok R ∧
      R.ropnet i * r.delta mt ≤ 0 ∧ (r.delta mt = 0 → R.ropnet i = 0) := by
  obtain ⟨R, hR, h⟩ := rop_values hv hI RT (muKc ps RT old') (gather ps IPhase.act old) rfn perturb
  refine ⟨R, hR, ?_⟩
  have hc := conc_ok ps r hin hord old a ha hact
  obtain ⟨-, t, hn, -, ht, he⟩ := h i r hr
  obtain ⟨h1, h2⟩ := ht hc
  have hq := ratio ps r hin hrev hord RT (rfn i * perturb i) hRT old old' a ha hact mt hmt
  rw [← h1, ← h2] at hq
  have hr0 : 0 ≤ t.r := by
    rw [h2, revRate, if_pos hrev]
    refine mul_nonneg (mul_nonneg hk (Real.exp_pos _).le) ?_
    rw [powProd]
    refine List.prod_nonneg ?_
    intro y hy
    obtain ⟨x, hx, rfl⟩ := List.mem_map.1 hy
    exact Real.rpow_nonneg (hc.2 x hx) _
  have e3 : R.ropnet i = (if I.check ≠ 0 then exist I.np I.ex I.st (I.isReac i) (I.isProd i) t else t).net :=
    congrArg Tri.net he
  have hnet : R.ropnet i = t.net ∨ R.ropnet i = 0 := by
    rw [e3]
    split_ifs
    · rw [exist_eq]
      split_ifs <;> simp
    · exact Or.inl rfl
  have hu : t.net * r.delta mt ≤ 0 ∧ (r.delta mt = 0 → t.net = 0) := by
    rw [hn, hq]
    refine ⟨?_, ?_⟩
    · rcases le_total (r.delta mt) 0 with hd | hd
      · have : 1 ≤ Real.exp (-(r.delta mt) / RT) :=
          Real.one_le_exp (div_nonneg (by linarith) hRT.le)
        have h0 : 0 ≤ Real.exp (-(r.delta mt) / RT) * t.r - t.r := by nlinarith
        exact mul_nonpos_of_nonneg_of_nonpos h0 hd
      · have : Real.exp (-(r.delta mt) / RT) ≤ 1 :=
          Real.exp_le_one_iff.2 (div_nonpos_of_nonpos_of_nonneg (by linarith) hRT.le)
        have h0 : Real.exp (-(r.delta mt) / RT) * t.r - t.r ≤ 0 := by nlinarith
        exact mul_nonpos_of_nonpos_of_nonneg h0 hd
    · intro hd; rw [hd]; simp
  rcases hnet with e | e
  · rw [e]; exact hu
  · rw [e]; simp

/-- Two phases: a surface with two neutral species and a bulk with one ion at potential 2. -/
noncomputable def exPhases : List IPhase :=
  [⟨2, 0, fun _ => 0, fun _ => 1, fun _ => 0, fun _ => 1⟩,
   ⟨1, 2, fun _ => -1, fun _ => 5, fun _ => Real.log 3, fun _ => 6⟩]

theorem exPhases_in : ∀ r ∈ surfRxns, Rxn.InRange exPhases r := by
  intro r hr
  simp only [surfRxns, List.mem_cons, List.not_mem_nil, or_false] at hr
  have c0 : ∃ n p k, exPhases[n]? = some p ∧ k < p.n ∧ 0 = startAt exPhases n + k :=
    ⟨0, _, 0, rfl, by norm_num, by simp [startAt]⟩
  have c1 : ∃ n p k, exPhases[n]? = some p ∧ k < p.n ∧ 1 = startAt exPhases n + k :=
    ⟨0, _, 1, rfl, by norm_num, by simp [startAt]⟩
  have c2 : ∃ n p k, exPhases[n]? = some p ∧ k < p.n ∧ 2 = startAt exPhases n + k :=
    ⟨1, _, 0, rfl, by norm_num, by simp [startAt, exPhases]⟩
  rcases hr with rfl | rfl <;> intro x hx <;> simp at hx <;> rcases hx with rfl | rfl | rfl <;>
    assumption

theorem exPhases_act : ∀ n p j, exPhases[n]? = some p → j < p.n →
    p.act j = Real.exp (p.logc0 j) * (if n = 0 then 1 else 2) := by
  intro n p j h hj
  match n with
  | 0 => simp [exPhases] at h; subst h; simp
  | 1 =>
    simp [exPhases] at h; subst h
    simp only [Real.exp_log (show (0:ℝ) < 3 by norm_num)]; norm_num
  | n + 2 => simp [exPhases] at h

/-- Electrochemical potentials of the example. -/
noncomputable def exMt (k : ℕ) : ℝ := if k < 2 then 1 else 5 + 1 * Real.log 2 + faraday * 2 * (-1)

theorem exMt_gather : IsGather exPhases (fun n p j => p.mu0 j + 1 * Real.log (if n = 0 then 1 else 2) +
      faraday * p.phi * p.charge j) exMt := by
  intro n p k h hk
  match n with
  | 0 =>
    simp [exPhases] at h; subst h
    simp only [startAt, List.take_zero, List.map_nil, List.sum_nil, zero_add] at hk ⊢
    have : ¬ 1 < k := by omega
    simp [exMt, this]
  | 1 =>
    simp [exPhases] at h; subst h
    have : k = 0 := by simp at hk; exact hk
    subst this
    simp [exMt, startAt, exPhases]
  | n + 2 => simp [exPhases] at h

example : ∃ I R, IBuilt 2 surfPh surfRxns [.existence 1 false] I ∧
    I.updateROP 1 (muKc exPhases 1 (fun _ => 0)) (gather exPhases IPhase.act (fun _ => 0))
      (fun _ => 3) (fun _ => 1) = .ok R ∧ R.ropnet 0 * surfRxns[0].delta exMt ≤ 0 := by
  obtain ⟨I, hI⟩ := ibuilt_exists 2 surfPh surfRxns surfRxns_ok [.existence 1 false]
  obtain ⟨R, hR, h, -⟩ := no_uphill_rate surfRxns_ok hI exPhases 0 _ rfl
    (exPhases_in _ (by simp [surfRxns])) rfl rfl 1 one_pos (fun _ => 0) (fun _ => 0) (fun _ => 3)
    (fun _ => 1) (by norm_num) (fun n _ => if n = 0 then 1 else 2)
    (fun n _ => by split_ifs <;> norm_num) exPhases_act exMt exMt_gather
  exact ⟨I, R, hI, hR, h⟩

/-- Without missing phases the two rates are in the ratio given by the potentials. -/
example : ∃ I R, IBuilt 2 surfPh surfRxns [] I ∧
    I.updateROP 1 (muKc exPhases 1 (fun _ => 0)) (gather exPhases IPhase.act (fun _ => 0))
      (fun _ => 3) (fun _ => 1) = .ok R ∧
    R.ropf 0 = Real.exp (5 + Real.log 2 - faraday * 2) * R.ropr 0 := by
  obtain ⟨I0, h0⟩ := ik_addAll_ok surfPh surfRxns surfRxns_ok (IK.new 2)
  have hI : IBuilt 2 surfPh surfRxns [] I0 := ⟨I0, h0, rfl⟩
  have hx := (ik_addAll _ _ _ _ h0).2.2.1
  obtain ⟨R, hR, h⟩ := electrochemical_detailed_balance surfRxns_ok hI (fun p _ => by rw [hx]; rfl)
    exPhases 0 _ rfl
    (exPhases_in _ (by simp [surfRxns])) rfl rfl 1 one_pos (fun _ => 0) (fun _ => 0) (fun _ => 3)
    (fun _ => 1) (fun n _ => if n = 0 then 1 else 2)
    (fun n _ => by split_ifs <;> norm_num) exPhases_act exMt exMt_gather
  refine ⟨I0, R, hI, hR, ?_⟩
  rw [h]
  congr 2
  norm_num [Rxn.delta, exMt]
  ring

end

end Verif.Kinetics.Interface
