import Verif.Kinetics.InterfaceFlow
import Verif.Kinetics.DensDerivProps

/-!
# C61: composition derivatives of interface reactions and the flags guarding them

Source: src/kinetics/InterfaceKinetics.cpp:380-470, 606-690.

Simplifications: of a rate only what decides the flags is kept; a settings map is given by its three
optional entries, all of the right type.
-/

namespace Verif.Kinetics.Interface

open Verif Verif.Stoich Verif.Kinetics

/-! ### Flags -/

/-- What `addReaction` asks a rate and its reaction. -/
structure RateInfo where
  /-- `StickingRate` instead of `InterfaceRate` -/
  sticking : Bool
  /-- coverage dependencies are present -/
  deps : Bool
  /-- `Reaction::usesElectrochemistry` -/
  electro : Bool

/-- `ReactionRate::compositionDependent` (ReactionRate.h:209-211): only `InterfaceRate` overrides
`addCoverageDependence` to set it (InterfaceRate.h:443-448). -/
def RateInfo.compositionDependent (r : RateInfo) : Bool := r.deps && !r.sticking

/-- Members (InterfaceKinetics.h:484-494) and the rates of the reactions. -/
structure JState where
  skipCov : Bool
  skipEl : Bool
  rtol : ℝ
  hasCov : Bool
  hasEl : Bool
  rates : List RateInfo

/-- Entries of a settings map. -/
@[ext] structure JSettings where
  cov : Option Bool
  el : Option Bool
  rtol : Option ℝ

/-- `settings.empty()`. -/
def JSettings.isEmpty (s : JSettings) : Bool := s.cov.isNone && s.el.isNone && s.rtol.isNone

/-- New object: the constructor calls `setDerivativeSettings(AnyMap())` (l. 19-23). -/
noncomputable def JState.new : JState := ⟨false, false, 1e-8, false, false, []⟩

/-- `setDerivativeSettings` (l. 646-661). -/
noncomputable def JState.set (s : JState) (m : JSettings) : JState :=
  let force := m.isEmpty
  let s := if force || m.cov.isSome then { s with skipCov := m.cov.getD false } else s
  let s := if force || m.el.isSome then { s with skipEl := m.el.getD false } else s
  if force || m.rtol.isSome then { s with rtol := m.rtol.getD 1e-8 } else s

/-- `getDerivativeSettings` (l. 663-668). -/
def JState.get (s : JState) : JSettings := ⟨some s.skipEl, some s.skipCov, some s.rtol⟩

/-- Flags in `addReaction` (l. 433-441). -/
def JState.add (s : JState) (r : RateInfo) : JState :=
  { s with
    hasCov := if r.compositionDependent then true else s.hasCov
    hasEl := if r.electro then true else s.hasEl
    rates := s.rates ++ [r] }

/-- `modifyReaction` (l. 446-470) for a valid index. -/
def JState.modify (s : JState) (i : ℕ) (r : RateInfo) : JState := { s with rates := s.rates.set i r }

/-- `assertDerivativesValid` (l. 679-686): whether it returns. -/
def JState.valid (s : JState) : Bool :=
  if !s.skipCov && s.hasCov then false else if !s.skipEl && s.hasEl then false else true

/-- Calls on the object. -/
inductive JOp where
  | set (m : JSettings)
  | add (r : RateInfo)
  | modify (i : ℕ) (r : RateInfo)

noncomputable def JState.step (s : JState) : JOp → JState
  | .set m => s.set m
  | .add r => s.add r
  | .modify i r => s.modify i r

noncomputable def JState.run (s : JState) (ops : List JOp) : JState := ops.foldl JState.step s

/-! ### Matrices -/

/-- `calculateCompositionDerivatives` (l. 670-677). -/
noncomputable def compDeriv (m : Mgr) (act inp : Vec) : Jac := m.derivatives act inp

/-- `fwdRatesOfProgress_ddCi` (l. 606-614). -/
noncomputable def IK.fwdJac (I : IK) (J : JState) (act rfn perturb : Vec) : Outcome Jac :=
  if J.valid = false then .throw else .ok (compDeriv I.K.reac act (fwdConst rfn perturb))

/-- `revRatesOfProgress_ddCi` (l. 616-625); `applyEquilibriumConstants` is l. 688-695. -/
noncomputable def IK.revJac (I : IK) (J : JState) (rkcn act rfn perturb : Vec) : Outcome Jac :=
  if J.valid = false then .throw
  else .ok (compDeriv I.K.revProd act (fun i => fwdConst rfn perturb i * rkcn i))

/-- `netRatesOfProgress_ddCi` (l. 627-644). -/
noncomputable def IK.netJac (I : IK) (J : JState) (rkcn act rfn perturb : Vec) : Outcome Jac :=
  if J.valid = false then .throw
  else .ok (fun i k => compDeriv I.K.reac act (fwdConst rfn perturb) i k -
    compDeriv I.K.revProd act (fun i => fwdConst rfn perturb i * rkcn i) i k)

/-! ### Theorems -/

section
variable {np : ℕ} {phOf : ℕ → ℕ} {rs : List Rxn} {ops : List POp} {I : IK}

/-- C61: with all phases existing and rate constants independent of composition, the three matrices hold
the exact partial derivatives of the forward, reverse and net rates of progress with respect to the
activity concentrations. -/
theorem interface_jacobian (hv : ∀ r ∈ rs, r.OK) (hI : IBuilt np phOf rs ops I)
    (hex : ∀ p < np, I.ex p = true) (S : JState) (hS : S.valid = true) (RT : ℝ)
    (mu act rfn perturb : ℕ → ℝ) (hpos : ∀ j, 0 < act j) :
    ∃ (R : IRop) (Jf Jr Jn : Jac), I.updateROP RT mu act rfn perturb = .ok R ∧
      I.fwdJac S act rfn perturb = .ok Jf ∧ I.revJac S R.rkcn act rfn perturb = .ok Jr ∧
      I.netJac S R.rkcn act rfn perturb = .ok Jn ∧
      ∀ k, ∃ F : ℝ → IRop,
        (∀ x, I.updateROP RT mu (Function.update act k x) rfn perturb = .ok (F x)) ∧
        ∀ i < rs.length, HasDerivAt (fun x => (F x).ropf i) (Jf i k) (act k) ∧
          HasDerivAt (fun x => (F x).ropr i) (Jr i k) (act k) ∧
          HasDerivAt (fun x => (F x).ropnet i) (Jn i k) (act k) := by
  obtain ⟨hK, -, -, -⟩ := ibuilt_facts hI
  obtain ⟨w, hw, -⟩ := rkcnI_value rs hv I.K hK RT mu
  have hch : I.check = 0 := by
    rw [exists_check_counts hI, Nat.cast_eq_zero, Finset.card_eq_zero, Finset.filter_eq_empty_iff]
    intro p hp
    simp [hex p (Finset.mem_range.1 hp)]
  have hrop : ∀ a : ℕ → ℝ, I.updateROP RT mu a rfn perturb = .ok
      ⟨w, I.K.reac.multiply a (fun i => rfn i * perturb i),
        I.K.revProd.multiply a (fun i => rfn i * perturb i * w i),
        fun j => I.K.reac.multiply a (fun i => rfn i * perturb i) j -
          I.K.revProd.multiply a (fun i => rfn i * perturb i * w i) j⟩ := by
    intro a
    rw [IK.updateROP, hw]
    simp only [Outcome.bind_ok, Outcome.pure_eq, hch, ne_eq, not_true_eq_false, if_false]
  have hSf : ¬ (S.valid = false) := by simp [hS]
  refine ⟨_, _, _, _, hrop act, by rw [IK.fwdJac, if_neg hSf], by rw [IK.revJac, if_neg hSf],
    by rw [IK.netJac, if_neg hSf], ?_⟩
  intro k
  refine ⟨_, fun x => hrop _, ?_⟩
  intro i hi
  obtain ⟨r, hr⟩ : ∃ r, rs[i]? = some r := ⟨rs[i], List.getElem?_eq_getElem hi⟩
  obtain ⟨-, -, h1⟩ := reac_row rs I.K i r hv hK hr
  obtain ⟨-, -, h2⟩ := rev_row rs I.K i r hv hK hr
  have d1 := h1 act (fwdConst rfn perturb) k (fun x _ => hpos x.1)
  have d2 := h2 act (fun i => fwdConst rfn perturb i * w i) k (fun x _ => hpos x.1)
  simp only [Mgr.mul_eq, Pi.mul_apply]
  exact ⟨d1, d2, d1.sub d2⟩

example : ∃ (I : IK) (Jn : Jac) (R : IRop), IBuilt 2 surfPh surfRxns [] I ∧
    I.updateROP 1 (fun _ => 0) (fun _ => 1) (fun _ => 3) (fun _ => 2) = .ok R ∧
    I.netJac JState.new R.rkcn (fun _ => 1) (fun _ => 3) (fun _ => 2) = .ok Jn := by
  obtain ⟨I0, h0⟩ := ik_addAll_ok surfPh surfRxns surfRxns_ok (IK.new 2)
  have hI : IBuilt 2 surfPh surfRxns [] I0 := ⟨I0, h0, rfl⟩
  have hx := (ik_addAll _ _ _ _ h0).2.2.1
  obtain ⟨R, -, -, Jn, hR, -, -, hn, -⟩ := interface_jacobian surfRxns_ok hI
    (fun p _ => by rw [hx]; rfl) JState.new (by simp [JState.new, JState.valid]) 1 (fun _ => 0)
    (fun _ => 1) (fun _ => 3) (fun _ => 2) (fun _ => one_pos)
  exact ⟨I0, Jn, R, hI, hR, hn⟩

/-- C61: without the phase existence hypothesis the entries need not be derivatives: the matrices ignore
the logic of `updateROP`. Witness: `A(s) + B → C(s)` with the bulk phase of `B` switched off. The rate is
zero for all positive concentrations of `A(s)`, the reported derivative is one. -/
theorem jacobian_ignores_existence :
    ∃ (rs : List Rxn) (I : IK) (R : IRop) (Jf : Jac), (∀ r ∈ rs, r.OK) ∧
      IBuilt 2 surfPh rs [.existence 1 false] I ∧
      I.updateROP 1 (fun _ => 0) (fun _ => 1) (fun _ => 1) (fun _ => 1) = .ok R ∧
      (∀ x : ℝ, 0 < x → ∀ R', I.updateROP 1 (fun _ => 0) (Function.update (fun _ => 1) 0 x) (fun _ => 1)
        (fun _ => 1) = .ok R' → R'.ropf 0 = 0) ∧
      I.fwdJac JState.new (fun _ => 1) (fun _ => 1) (fun _ => 1) = .ok Jf ∧ Jf 0 0 = 1 := by
  set r : Rxn := ⟨[(0, 1), (2, 1)], [(1, 1)], [], false, none⟩ with hrdef
  have hv : ∀ r' ∈ [r], r'.OK := by
    intro r' hr'
    rw [List.mem_singleton.1 hr']
    refine ⟨by simp [hrdef], by simp [hrdef], by simp [hrdef], ?_, ?_⟩ <;> intro x hx <;>
      simp [hrdef] at hx <;> (try rcases hx with rfl | rfl) <;> norm_num [*]
  obtain ⟨I0, h0⟩ := ik_addAll_ok surfPh [r] hv (IK.new 2)
  obtain ⟨-, g2, g3, -, g5, -, g7⟩ := ik_addAll surfPh [r] _ _ h0
  have hI : IBuilt 2 surfPh [r] [.existence 1 false] (I0.run [.existence 1 false]) := ⟨I0, h0, rfl⟩
  generalize hIdef : I0.run [.existence 1 false] = I at hI
  have hex : I.ex 1 = false ∧ I.ex 0 = true ∧ I.check = 1 ∧ I.np = 2 := by
    rw [← hIdef]
    simp [IK.run, IK.step, IK.setPhaseExistence, g2, g3, g5, IK.new]
  obtain ⟨hK, -, -, hfl⟩ := ibuilt_facts hI
  have hr0 : [r][0]? = some r := rfl
  obtain ⟨f1, f2⟩ := hfl 0 r hr0
  have a0 : I.isReac 0 0 = true := (f1 0).2 ⟨(0, 1), by simp [hrdef], by simp [surfPh]⟩
  have a1 : I.isReac 0 1 = true := (f1 1).2 ⟨(2, 1), by simp [hrdef], by simp [surfPh]⟩
  have b1 : I.isProd 0 1 = false := by
    rw [← Bool.not_eq_true, f2]; simp [hrdef, surfPh]
  obtain ⟨R, hR, -⟩ := rop_values hv hI 1 (fun _ => 0) (fun _ => 1) (fun _ => 1) (fun _ => 1)
  have hSf : ¬ ((JState.new).valid = false) := by simp [JState.new, JState.valid]
  refine ⟨[r], I, R, _, hv, hI, hR, ?_, by rw [IK.fwdJac, if_neg hSf], ?_⟩
  · intro x hx R' hR'
    obtain ⟨R2, hR2, h⟩ := rop_values hv hI 1 (fun _ => 0) (Function.update (fun _ => 1) 0 x)
      (fun _ => 1) (fun _ => 1)
    rw [hR'] at hR2; cases hR2
    obtain ⟨-, t, hn, hirr, hval, he⟩ := h 0 r hr0
    have hconc : r.ConcOK (Function.update (fun _ => (1 : ℝ)) 0 x) := by
      refine ⟨fun y _ => Or.inl ?_, fun y _ => ?_⟩
      · by_cases e : y.1 = 0
        · rw [e]; simpa using hx
        · rw [Function.update_of_ne e]; exact one_pos
      · by_cases e : y.1 = 0
        · rw [e]; simpa using hx.le
        · rw [Function.update_of_ne e]; exact zero_le_one
    obtain ⟨v1, -⟩ := hval hconc
    have v2 := hirr rfl
    have hf : t.f = x := by
      rw [v1]; simp [fwdRate, powProd, Rxn.effOrders, hrdef]
    rw [if_pos (by rw [hex.2.2.1]; norm_num)] at he
    have hw := congrArg Tri.f he
    simp only at hw
    rw [hw, exist, if_neg (by rw [hf, v2]; intro h; exact absurd h.2 (lt_irrefl _)),
      if_pos (by rw [hf, v2]; exact ⟨hx, hx⟩), hex.2.2.2]
    have hr2 : List.range 2 = [0, 1] := rfl
    rw [hr2]
    cases c1 : I.isProd 0 0 <;> cases c2 : I.st 0 <;>
      simp [fwdStep, a0, a1, b1, c1, c2, hex.1, hex.2.1, v2]
  · obtain ⟨-, -, h1⟩ := reac_row [r] I.K 0 r hv hK hr0
    have d1 := h1 (fun _ => 1) (fwdConst (fun _ => 1) (fun _ => 1)) 0 (fun _ _ => one_pos)
    have d2 : HasDerivAt (fun x : ℝ => fwdConst (fun _ => 1) (fun _ => 1) 0 *
        I.K.reac.fac (Function.update (fun _ => 1) 0 x) 0) 1 1 := by
      refine (hasDerivAt_id (1 : ℝ)).congr_of_eventuallyEq ?_
      filter_upwards [lt_mem_nhds (show (0 : ℝ) < 1 from one_pos)] with x hx
      rw [reac_fac_value hv hK 0 r hr0]
      · simp [fwdConst, powProd, Rxn.effOrders, hrdef]
      · intro y _
        by_cases e : y.1 = 0
        · rw [e]; simpa using hx
        · rw [Function.update_of_ne e]; exact one_pos
    exact d1.unique d2

end

/-! ### Guard -/

theorem run_append (s : JState) (a b : List JOp) : s.run (a ++ b) = (s.run a).run b := by
  simp [JState.run]

theorem set_has (s : JState) (m : JSettings) :
    (s.set m).hasCov = s.hasCov ∧ (s.set m).hasEl = s.hasEl ∧ (s.set m).rates = s.rates := by
  simp only [JState.set]
  split_ifs <;> exact ⟨rfl, rfl, rfl⟩

/-- Rates passed to `addReaction`. -/
def addedRates : List JOp → List RateInfo
  | [] => []
  | .add r :: ops => r :: addedRates ops
  | _ :: ops => addedRates ops

theorem run_flags (ops : List JOp) (s : JState) :
    (s.run ops).hasCov = (s.hasCov || (addedRates ops).any (·.compositionDependent)) ∧
    (s.run ops).hasEl = (s.hasEl || (addedRates ops).any (·.electro)) := by
  induction ops generalizing s with
  | nil => simp [JState.run, addedRates]
  | cons o ops ih =>
    obtain ⟨i1, i2⟩ := ih (s.step o)
    have e : s.run (o :: ops) = (s.step o).run ops := rfl
    rw [e, i1, i2]
    cases o with
    | set m => simp [JState.step, set_has, addedRates]
    | modify i r => simp [JState.step, JState.modify, addedRates]
    | add r =>
      simp only [JState.step, JState.add, addedRates, List.any_cons]
      constructor
      · cases r.compositionDependent <;> simp
      · cases r.electro <;> simp

/-- C61: after any sequence of calls, derivatives are refused exactly if some rate ever added (not the
rates now present) depends on coverages resp. is electrochemical and the matching skip flag is off.
Rates of a replaced reaction still count, replacing rates never do. -/
theorem derivative_guard (ops : List JOp) :
    ((JState.new.run ops).valid = true ↔
      ((JState.new.run ops).skipCov = true ∨ ∀ r ∈ addedRates ops, r.compositionDependent = false) ∧
      ((JState.new.run ops).skipEl = true ∨ ∀ r ∈ addedRates ops, r.electro = false)) := by
  obtain ⟨h1, h2⟩ := run_flags ops JState.new
  have n1 : (JState.new).hasCov = false := rfl
  have n2 : (JState.new).hasEl = false := rfl
  rw [n1, Bool.false_or] at h1
  rw [n2, Bool.false_or] at h2
  have e1 : (∀ r ∈ addedRates ops, r.compositionDependent = false) ↔ (JState.new.run ops).hasCov = false := by
    rw [h1, List.any_eq_false]; simp
  have e2 : (∀ r ∈ addedRates ops, r.electro = false) ↔ (JState.new.run ops).hasEl = false := by
    rw [h2, List.any_eq_false]; simp
  rw [e1, e2, JState.valid]
  cases (JState.new.run ops).skipCov <;> cases (JState.new.run ops).hasCov <;>
    cases (JState.new.run ops).skipEl <;> cases (JState.new.run ops).hasEl <;> simp

example : (JState.new.run [.add ⟨false, true, false⟩]).valid = false ∧
    (JState.new.run [.add ⟨false, true, false⟩, .set ⟨some true, none, none⟩]).valid = true ∧
    (JState.new.run [.add ⟨false, true, false⟩, .set ⟨some true, none, none⟩, .set ⟨none, none, none⟩]).valid =
      false := by
  simp [JState.run, JState.step, JState.set, JState.add, JState.new, JState.valid, JSettings.isEmpty,
    RateInfo.compositionDependent]

/-- Calls replacing no rate, with no coverage-dependent sticking rate. -/
def Plain : JOp → Prop
  | .modify _ _ => False
  | .add r => r.sticking = true → r.deps = false
  | .set _ => True

theorem run_rates (ops : List JOp) (h : ∀ o ∈ ops, Plain o) (s : JState) :
    (s.run ops).rates = s.rates ++ addedRates ops := by
  induction ops generalizing s with
  | nil => simp [JState.run, addedRates]
  | cons o ops ih =>
    have e : s.run (o :: ops) = (s.step o).run ops := rfl
    rw [e, ih (fun o ho => h o (by simp [ho]))]
    cases o with
    | set m => simp [JState.step, set_has, addedRates]
    | modify i r => exact absurd (h (.modify i r) (by simp)) id
    | add r => simp [JState.step, JState.add, addedRates]

/-- C61 (partial: no `modifyReaction`, no coverage-dependent sticking rate): derivatives are refused
exactly if a present rate depends on coverages or potentials and the dependence is not to be skipped. -/
theorem derivative_guard_partial (ops : List JOp) (h : ∀ o ∈ ops, Plain o) :
    ((JState.new.run ops).valid = true ↔
      ((JState.new.run ops).skipCov = true ∨ ∀ r ∈ (JState.new.run ops).rates, r.deps = false) ∧
      ((JState.new.run ops).skipEl = true ∨ ∀ r ∈ (JState.new.run ops).rates, r.electro = false)) := by
  rw [derivative_guard]
  have hr := run_rates ops h JState.new
  have n : (JState.new).rates = [] := rfl
  rw [n, List.nil_append] at hr
  rw [hr]
  have hp : ∀ r ∈ addedRates ops, r.sticking = true → r.deps = false := by
    clear hr
    induction ops with
    | nil => simp [addedRates]
    | cons o ops ih =>
      cases o with
      | set m => exact ih (fun o ho => h o (by simp [ho]))
      | modify i r => exact absurd (h (.modify i r) (by simp)) id
      | add r =>
        intro q hq
        simp only [addedRates, List.mem_cons] at hq
        rcases hq with rfl | hq
        · exact h (.add q) (by simp)
        · exact ih (fun o ho => h o (by simp [ho])) q hq
  have : (∀ r ∈ addedRates ops, r.compositionDependent = false) ↔ ∀ r ∈ addedRates ops, r.deps = false := by
    refine forall₂_congr fun r hr => ?_
    have := hp r hr
    rw [RateInfo.compositionDependent]
    cases hs : r.sticking <;> cases hd : r.deps <;> simp_all
  rw [this]

example : ∀ o ∈ [JOp.add ⟨true, false, false⟩, .add ⟨false, true, true⟩, .set ⟨some true, some true, none⟩],
    Plain o := by
  simp [Plain]

/-- C61: the unrestricted statement fails: a coverage-dependent sticking rate passes the guard, and so
does a coverage-dependent rate installed by `modifyReaction`. -/
theorem guard_misses :
    (∃ ops, (JState.new.run ops).valid = true ∧ (JState.new.run ops).skipCov = false ∧
      (∀ o ∈ ops, ∀ i r, o ≠ .modify i r) ∧ ∃ r ∈ (JState.new.run ops).rates, r.deps = true) ∧
    (∃ ops, (JState.new.run ops).valid = true ∧ (JState.new.run ops).skipCov = false ∧
      ∃ r ∈ (JState.new.run ops).rates, r.deps = true ∧ r.sticking = false) ∧
    (∃ ops, (JState.new.run ops).valid = false ∧ ∀ r ∈ (JState.new.run ops).rates,
      r.deps = false ∧ r.electro = false) := by
  refine ⟨⟨[.add ⟨true, true, false⟩], ?_⟩, ⟨[.add ⟨false, false, false⟩, .modify 0 ⟨false, true, false⟩], ?_⟩,
    ⟨[.add ⟨false, true, false⟩, .modify 0 ⟨false, false, false⟩], ?_⟩⟩ <;>
  simp [JState.run, JState.step, JState.add, JState.modify, JState.new, JState.valid,
    RateInfo.compositionDependent]

/-! ### Settings -/

/-- C61: after `setDerivativeSettings`, each flag has the value of its entry, absent entries are left
alone, and an empty map restores the defaults. -/
theorem settings_applied (s : JState) (m : JSettings) :
    (∀ b, m.cov = some b → (s.set m).skipCov = b) ∧ (∀ b, m.el = some b → (s.set m).skipEl = b) ∧
    (∀ b, m.rtol = some b → (s.set m).rtol = b) ∧
    (m.isEmpty = false → (m.cov = none → (s.set m).skipCov = s.skipCov) ∧
      (m.el = none → (s.set m).skipEl = s.skipEl) ∧ (m.rtol = none → (s.set m).rtol = s.rtol)) ∧
    (m.isEmpty = true → (s.set m).skipCov = false ∧ (s.set m).skipEl = false ∧ (s.set m).rtol = 1e-8) := by
  obtain ⟨c, e, t⟩ := m
  cases c <;> cases e <;> cases t <;> simp [JState.set, JSettings.isEmpty]

example : ((JState.new.set ⟨some true, none, none⟩).set ⟨none, some true, none⟩).skipCov = true := by
  simp [JState.set, JState.new, JSettings.isEmpty]

/-- C61: `getDerivativeSettings` reports each skip flag under the key of the other one; writing back
what was read exchanges the flags. Reading is faithful exactly if the flags agree. -/
theorem settings_swapped (s : JState) :
    s.get = ⟨some s.skipEl, some s.skipCov, some s.rtol⟩ ∧
    (s.set s.get).skipCov = s.skipEl ∧ (s.set s.get).skipEl = s.skipCov ∧ (s.set s.get).rtol = s.rtol ∧
    (s.get = ⟨some s.skipCov, some s.skipEl, some s.rtol⟩ ↔ s.skipCov = s.skipEl) := by
  refine ⟨rfl, by simp [JState.set, JState.get], by simp [JState.set, JState.get],
    by simp [JState.set, JState.get], ?_⟩
  simp only [JState.get, JSettings.mk.injEq, Option.some.injEq, and_true]
  exact ⟨fun h => h.2, fun h => ⟨h.symm, h⟩⟩

example : ∃ s : JState, s.get.cov ≠ some s.skipCov ∧ (s.set s.get).skipCov ≠ s.skipCov :=
  ⟨JState.new.set ⟨some true, some false, none⟩, by
    simp [JState.set, JState.new, JState.get, JSettings.isEmpty]⟩

end Verif.Kinetics.Interface
