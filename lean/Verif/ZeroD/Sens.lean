import Mathlib.Data.Real.Basic
import Mathlib.Tactic.Ring
import Mathlib.Tactic.NormNum
import Mathlib.Tactic.Linarith
import Mathlib.Data.List.Nodup
import Mathlib.Logic.Function.Basic
import Verif.Basic

/-!
# Sensitivity parameters of reactor networks (C50)

`ReactorNet::eval` perturbs the rate multipliers and standard enthalpies of the phases of each
reactor before evaluating its equations and restores them afterwards.  Modelled:
src/zeroD/Reactor.cpp:399-425, 491-532, src/zeroD/ReactorSurface.cpp:88-113,
src/zeroD/ReactorNet.cpp:357-378, 518-530, src/numerics/FuncEval.cpp:7-37.

Not modelled: the equations themselves (an oracle says whether their evaluation throws), the
invalidation of caches (Reactor.cpp:507-510, 528-531), the bounds on reaction and species numbers.
-/

namespace Verif.ZeroD.Sens

/-- What a parameter perturbs: the multiplier of a reaction of a `Kinetics` object, or the standard
enthalpy of a species of a `ThermoPhase` object (`SensParameterType`,
include/cantera/zeroD/ReactorBase.h:29-32).  The objects are numbered; in the code they are the pointers `m_kin`,
`m_thermo` of the reactor or `m_kinetics` of the surface. -/
inductive Target
  | reaction (kin i : ℕ)
  | enthalpy (thermo k : ℕ)
  deriving DecidableEq

/-- The mutable contents of the phases: multipliers (Kinetics.h:1366-1378) and standard enthalpies
(e.g. ConstCpPoly.cpp:87-107). -/
structure Store where
  mult : ℕ → ℕ → ℝ
  hf : ℕ → ℕ → ℝ

/-- `Kinetics::multiplier` or `ThermoPhase::Hf298SS`. -/
def Store.get (s : Store) : Target → ℝ
  | .reaction q i => s.mult q i
  | .enthalpy q k => s.hf q k

/-- `Kinetics::setMultiplier` or `ThermoPhase::modifyOneHf298SS`. -/
def Store.set (s : Store) (t : Target) (v : ℝ) : Store :=
  match t with
  | .reaction q i => { s with mult := fun a b => if a = q ∧ b = i then v else s.mult a b }
  | .enthalpy q k => { s with hf := fun a b => if a = q ∧ b = k then v else s.hf a b }

/-- `SensitivityParameter` (include/cantera/zeroD/ReactorBase.h:34-40), with the object resolved. -/
structure Param where
  tgt : Target
  glob : ℕ
  val : ℝ

/-- The parameters of a reactor, `m_sensParams`, and of its surfaces, `m_params`. -/
structure Rx where
  sens : List Param
  surfs : List (List Param)

/-- Loop of `Reactor::applySensitivity` (Reactor.cpp:496-503) and
`ReactorSurface::setSensitivityParameters` (ReactorSurface.cpp:102-105). -/
def applyList (ps : ℕ → ℝ) : List Param → Store → Store × List Param
  | [], s => (s, [])
  | p :: l, s =>
    match p.tgt with
    | .reaction q i =>
      let v := s.get (.reaction q i)
      let r := applyList ps l (s.set (.reaction q i) (v * ps p.glob))
      (r.1, { p with val := v } :: r.2)
    | .enthalpy q k =>
      let r := applyList ps l (s.set (.enthalpy q k) (p.val + ps p.glob))
      (r.1, p :: r.2)

/-- Reactor.cpp:504-506. -/
def applySurfs (ps : ℕ → ℝ) : List (List Param) → Store → Store × List (List Param)
  | [], s => (s, [])
  | l :: ls, s =>
    let a := applyList ps l s
    let r := applySurfs ps ls a.1
    (r.1, a.2 :: r.2)

/-- `Reactor::applySensitivity` (Reactor.cpp:491-511); `none` is the null pointer. -/
def applyRx (params : Option (ℕ → ℝ)) (r : Rx) (s : Store) : Store × Rx :=
  match params with
  | none => (s, r)
  | some ps =>
    let a := applyList ps r.sens s
    let b := applySurfs ps r.surfs a.1
    (b.1, ⟨a.2, b.2⟩)

/-- Loop of `Reactor::resetSensitivity` (Reactor.cpp:518-524) and of
`ReactorSurface::resetSensitivityParameters` (ReactorSurface.cpp:110-112); `orig` are the standard
enthalpies the phases were defined with, restored by `resetHf298` (ConstCpPoly.cpp:104-107). -/
def resetList (orig : ℕ → ℕ → ℝ) : List Param → Store → Store
  | [], s => s
  | p :: l, s =>
    match p.tgt with
    | .reaction q i => resetList orig l (s.set (.reaction q i) p.val)
    | .enthalpy q k => resetList orig l (s.set (.enthalpy q k) (orig q k))

/-- Reactor.cpp:525-527. -/
def resetSurfs (orig : ℕ → ℕ → ℝ) : List (List Param) → Store → Store
  | [], s => s
  | l :: ls, s => resetSurfs orig ls (resetList orig l s)

/-- `Reactor::resetSensitivity` (Reactor.cpp:513-532). -/
def resetRx (orig : ℕ → ℕ → ℝ) (params : Option (ℕ → ℝ)) (r : Rx) (s : Store) : Store :=
  match params with
  | none => s
  | some _ => resetSurfs orig r.surfs (resetList orig r.sens s)

/-- Outcome of the loop of `ReactorNet::eval`: the phases, the reactors, whether the loop was
completed, and the phases as the equations of each reactor saw them. -/
structure Res where
  store : Store
  net : List Rx
  done : Bool
  seen : List Store

/-- Loop of `ReactorNet::eval` (ReactorNet.cpp:363-376).  `good n s` tells whether the evaluation of
reactor `n` with the phases in state `s` returns; otherwise its exception leaves the loop, and
`FuncEval::evalNoThrow` (FuncEval.cpp:9-17) catches it. -/
def evalLoop (orig : ℕ → ℕ → ℝ) (params : Option (ℕ → ℝ)) (good : ℕ → Store → Bool) :
    ℕ → List Rx → Store → Res
  | _, [], s => ⟨s, [], true, []⟩
  | n, r :: l, s =>
    let a := applyRx params r s
    if good n a.1 then
      let b := evalLoop orig params good (n + 1) l (resetRx orig params a.2 a.1)
      ⟨b.store, a.2 :: b.net, b.done, a.1 :: b.seen⟩
    else ⟨a.1, a.2 :: l, false, [a.1]⟩

/-- `ReactorNet::eval`. -/
def eval (orig : ℕ → ℕ → ℝ) (params : Option (ℕ → ℝ)) (good : ℕ → Store → Bool) (net : List Rx)
    (s : Store) : Res := evalLoop orig params good 0 net s

/-- `k` evaluations one after another. -/
def evals (orig : ℕ → ℕ → ℝ) (params : Option (ℕ → ℝ)) (good : ℕ → Store → Bool) :
    ℕ → List Rx → Store → Store × List Rx
  | 0, net, s => (s, net)
  | k + 1, net, s =>
    let r := eval orig params good net s
    evals orig params good k r.net r.store

/-! ## Registration -/

/-- Network under construction: `m_sens_params`, `m_integrator_init`, reactors. -/
structure Setup where
  values : List ℝ
  init : Bool
  net : List Rx

/-- Where a parameter is added. -/
inductive Slot
  | gas (n kin i : ℕ)
  | heat (n thermo k : ℕ)
  | surface (n m kin i : ℕ)

/-- `ReactorNet::registerSensitivityParameter` (ReactorNet.cpp:518-530) called by
`Reactor::addSensitivityReaction` (Reactor.cpp:399-410), `addSensitivitySpeciesEnthalpy`
(412-425) and `ReactorSurface::addSensitivityReaction` (ReactorSurface.cpp:88-98). -/
def add (s : Store) (S : Setup) (x : Slot) : Outcome Setup :=
  if S.init then .throw
  else
    match x with
    | .gas n q i => .ok ⟨S.values ++ [1], S.init,
        S.net.modify n fun r => { r with sens := r.sens ++ [⟨.reaction q i, S.values.length, 1⟩] }⟩
    | .heat n q k => .ok ⟨S.values ++ [0], S.init,
        S.net.modify n fun r =>
          { r with sens := r.sens ++ [⟨.enthalpy q k, S.values.length, s.hf q k⟩] }⟩
    | .surface n m q i => .ok ⟨S.values ++ [1], S.init,
        S.net.modify n fun r => { r with surfs := r.surfs.modify m fun l =>
          l ++ [⟨.reaction q i, S.values.length, 1⟩] }⟩

/-- Several parameters. -/
def addAll (s : Store) : Setup → List Slot → Outcome Setup
  | S, [] => .ok S
  | S, x :: l =>
    match add s S x with
    | .ok S' => addAll s S' l
    | .throw => .throw
    | .ub => .ub

/-! ## Facts about the store -/

theorem Store.ext_get {s s' : Store} (h : ∀ t, s.get t = s'.get t) : s = s' := by
  cases s; cases s'
  congr 1
  · funext a b; exact h (.reaction a b)
  · funext a b; exact h (.enthalpy a b)

theorem Store.get_set (s : Store) (t u : Target) (v : ℝ) :
    (s.set t v).get u = if u = t then v else s.get u := by
  cases t <;> cases u <;> simp [Store.set, Store.get]

/-- All parameters of a reactor in the order in which they are applied. -/
def Rx.all (r : Rx) : List Param := r.sens ++ r.surfs.flatten

theorem applyList_append (ps : ℕ → ℝ) (l l' : List Param) (s : Store) :
    applyList ps (l ++ l') s =
      ((applyList ps l' (applyList ps l s).1).1,
        (applyList ps l s).2 ++ (applyList ps l' (applyList ps l s).1).2) := by
  induction l generalizing s with
  | nil => rfl
  | cons p l ih =>
    rw [List.cons_append, applyList.eq_def, applyList.eq_def ps (p :: l)]
    rcases p with ⟨t, g, v⟩
    cases t <;> simp [ih]

theorem applySurfs_eq (ps : ℕ → ℝ) (ls : List (List Param)) (s : Store) :
    (applySurfs ps ls s).1 = (applyList ps ls.flatten s).1 ∧
      (applySurfs ps ls s).2.flatten = (applyList ps ls.flatten s).2 := by
  induction ls generalizing s with
  | nil => exact ⟨rfl, rfl⟩
  | cons l ls ih =>
    rw [applySurfs, List.flatten_cons, applyList_append]
    exact ⟨(ih _).1, by rw [List.flatten_cons, (ih _).2]⟩

theorem applyRx_eq (ps : ℕ → ℝ) (r : Rx) (s : Store) :
    (applyRx (some ps) r s).1 = (applyList ps r.all s).1 ∧
      (applyRx (some ps) r s).2.all = (applyList ps r.all s).2 := by
  rw [Rx.all, applyList_append]
  refine ⟨(applySurfs_eq _ _ _).1, ?_⟩
  simp only [applyRx, Rx.all]
  rw [(applySurfs_eq _ _ _).2]

theorem resetList_append (orig : ℕ → ℕ → ℝ) (l l' : List Param) (s : Store) :
    resetList orig (l ++ l') s = resetList orig l' (resetList orig l s) := by
  induction l generalizing s with
  | nil => rfl
  | cons p l ih =>
    rw [List.cons_append, resetList.eq_def, resetList.eq_def orig (p :: l)]
    rcases p with ⟨t, g, v⟩
    cases t <;> simp [ih]

theorem resetRx_eq (orig : ℕ → ℕ → ℝ) (ps : ℕ → ℝ) (r : Rx) (s : Store) :
    resetRx orig (some ps) r s = resetList orig r.all s := by
  have h : ∀ (ls : List (List Param)) (s : Store),
      resetSurfs orig ls s = resetList orig ls.flatten s := by
    intro ls
    induction ls with
    | nil => intro s; rfl
    | cons l ls ih => intro s; rw [resetSurfs, ih, List.flatten_cons, resetList_append]
  rw [Rx.all, resetList_append, resetRx, h]

/-- The value a phase has while the parameter is applied. -/
def Param.applied (p : Param) (ps : ℕ → ℝ) (s : Store) : ℝ :=
  match p.tgt with
  | .reaction q i => s.mult q i * ps p.glob
  | .enthalpy _ _ => p.val + ps p.glob

theorem applyList_cons (ps : ℕ → ℝ) (p : Param) (l : List Param) (s : Store) :
    (applyList ps (p :: l) s).1 = (applyList ps l (s.set p.tgt (p.applied ps s))).1 := by
  rcases p with ⟨t, g, v⟩
  cases t <;> rfl

theorem apply_other (ps : ℕ → ℝ) (l : List Param) (s : Store) (t : Target)
    (h : ∀ p ∈ l, p.tgt ≠ t) : (applyList ps l s).1.get t = s.get t := by
  induction l generalizing s with
  | nil => rfl
  | cons p l ih =>
    rw [applyList_cons, ih _ (fun q hq => h q (List.mem_cons_of_mem _ hq)), Store.get_set,
      if_neg (Ne.symm (h p (List.mem_cons_self ..)))]

theorem applied_congr (p : Param) (ps : ℕ → ℝ) (s s' : Store)
    (h : s.get p.tgt = s'.get p.tgt) : p.applied ps s = p.applied ps s' := by
  rcases p with ⟨t, g, v⟩
  cases t with
  | reaction q i => simp only [Param.applied, Store.get] at *; rw [h]
  | enthalpy q k => rfl

theorem apply_target (ps : ℕ → ℝ) (l : List Param) (s : Store) (p : Param) (hp : p ∈ l)
    (hd : (l.map Param.tgt).Nodup) : (applyList ps l s).1.get p.tgt = p.applied ps s := by
  induction l generalizing s with
  | nil => exact absurd hp (List.not_mem_nil)
  | cons q l ih =>
    rw [List.map_cons, List.nodup_cons] at hd
    rw [applyList_cons]
    rcases List.mem_cons.1 hp with rfl | hp
    · rw [apply_other _ _ _ _ ?_, Store.get_set, if_pos rfl]
      intro r hr he
      exact hd.1 (List.mem_map.2 ⟨r, hr, he⟩)
    · rw [ih _ hp hd.2]
      apply applied_congr
      rw [Store.get_set, if_neg]
      intro he
      exact hd.1 (List.mem_map.2 ⟨p, hp, he⟩)

theorem reset_other (orig : ℕ → ℕ → ℝ) (l : List Param) (s : Store) (t : Target)
    (h : ∀ p ∈ l, p.tgt ≠ t) : (resetList orig l s).get t = s.get t := by
  induction l generalizing s with
  | nil => rfl
  | cons p l ih =>
    have hl := fun q hq => h q (List.mem_cons_of_mem _ hq)
    have hp := h p (List.mem_cons_self ..)
    rw [resetList.eq_def]
    rcases p with ⟨u, g, v⟩
    cases u with
    | reaction q i =>
      exact (ih _ hl).trans (by rw [Store.get_set, if_neg (Ne.symm hp)])
    | enthalpy q k =>
      exact (ih _ hl).trans (by rw [Store.get_set, if_neg (Ne.symm hp)])

theorem apply_targets (ps : ℕ → ℝ) (l : List Param) (s : Store) :
    (applyList ps l s).2.map Param.tgt = l.map Param.tgt := by
  induction l generalizing s with
  | nil => rfl
  | cons p l ih =>
    rw [applyList.eq_def]
    rcases p with ⟨t, g, v⟩
    cases t <;> simp [ih]

/-- Applying and resetting parameters with different targets changes nothing. -/
theorem reset_apply (orig : ℕ → ℕ → ℝ) (ps : ℕ → ℝ) (l : List Param) (s0 s : Store)
    (hd : (l.map Param.tgt).Nodup) (horig : ∀ q k, .enthalpy q k ∈ l.map Param.tgt →
      s.hf q k = orig q k) (hout : ∀ t, t ∉ l.map Param.tgt → s0.get t = s.get t) :
    resetList orig (applyList ps l s).2 s0 = s := by
  induction l generalizing s0 s with
  | nil => exact Store.ext_get fun t => hout t (by simp)
  | cons p l ih =>
    have hd' := hd
    rw [List.map_cons, List.nodup_cons] at hd'
    obtain ⟨hn, hd2⟩ := hd'
    -- the remaining entries were applied to a store that differs from `s` only at `p.tgt`
    have key : ∀ x : ℝ, ∀ s1 : Store, (∀ t, t ∉ (p :: l).map Param.tgt → s1.get t = s.get t) →
        s1.get p.tgt = s.get p.tgt →
        resetList orig (applyList ps l (s.set p.tgt x)).2 s1 = s := by
      intro x s1 h1 h2
      apply Store.ext_get
      intro t
      by_cases ht : t ∈ l.map Param.tgt
      · -- reset to what it was when `l` was applied
        have hne : t ≠ p.tgt := fun e => hn (e ▸ ht)
        have hset : (s.set p.tgt x).get t = s.get t := by rw [Store.get_set, if_neg hne]
        have := ih (s1.set p.tgt x) (s.set p.tgt x) hd2 (fun q k hk => by
            have hne' : (Target.enthalpy q k) ≠ p.tgt := fun e => hn (e ▸ hk)
            have e : (s.set p.tgt x).get (.enthalpy q k) = s.get (.enthalpy q k) := by
              rw [Store.get_set, if_neg hne']
            simp only [Store.get] at e
            rw [e]
            exact horig q k (List.mem_cons_of_mem _ hk)) (fun u hu => by
            rw [Store.get_set, Store.get_set]
            by_cases hup : u = p.tgt
            · rw [if_pos hup, if_pos hup]
            · rw [if_neg hup, if_neg hup]
              exact h1 u (by simp only [List.map_cons, List.mem_cons, not_or]; exact ⟨hup, hu⟩))
        have hcomm : ∀ (l' : List Param) (a b : Store), t ∈ l'.map Param.tgt →
            (resetList orig l' a).get t = (resetList orig l' b).get t := by
          intro l'
          induction l' with
          | nil => intro a b h; simp at h
          | cons r l' ih' =>
            intro a b h
            rw [resetList.eq_def, resetList.eq_def orig (r :: l')]
            by_cases hr : t ∈ l'.map Param.tgt
            · rcases r with ⟨u, g, v⟩
              cases u <;> exact ih' _ _ hr
            · have ho : ∀ q ∈ l', q.tgt ≠ t := fun q hq e => hr (List.mem_map.2 ⟨q, hq, e⟩)
              rw [List.map_cons, List.mem_cons] at h
              have e := h.resolve_right hr
              rcases r with ⟨u, g, v⟩
              simp only at e
              subst e
              cases t <;>
              · refine (reset_other orig l' _ _ ho).trans (Eq.trans ?_
                  (reset_other orig l' _ _ ho).symm)
                rw [Store.get_set, Store.get_set, if_pos rfl, if_pos rfl]
        rw [hcomm _ s1 (s1.set p.tgt x) (by rw [apply_targets]; exact ht), this, hset]
      · rw [reset_other]
        · by_cases hp : t = p.tgt
          · rw [hp, h2]
          · exact h1 t (by simp only [List.map_cons, List.mem_cons, not_or]; exact ⟨hp, ht⟩)
        · intro r hr e
          apply ht
          have := List.mem_map.2 ⟨r, hr, e⟩
          rwa [apply_targets] at this
    rw [applyList.eq_def]
    rcases p with ⟨t, g, v⟩
    cases t with
    | reaction q i =>
      simp only [resetList]
      apply key
      · intro t ht
        rw [Store.get_set, if_neg, hout t ht]
        intro e
        exact ht (by simp [e])
      · rw [Store.get_set, if_pos rfl]
    | enthalpy q k =>
      simp only [resetList]
      apply key
      · intro t ht
        rw [Store.get_set, if_neg, hout t ht]
        intro e
        exact ht (by simp [e])
      · rw [Store.get_set, if_pos rfl]
        exact (horig q k (by simp)).symm

/-! ## C50 -/

/-- The parameters of the reactor perturb different quantities, and the enthalpies among them are
those the phases were defined with. -/
structure Proper (orig : ℕ → ℕ → ℝ) (r : Rx) (s : Store) : Prop where
  distinct : (r.all.map Param.tgt).Nodup
  standard : ∀ q k, Target.enthalpy q k ∈ r.all.map Param.tgt → s.hf q k = orig q k

theorem rx_restored (orig : ℕ → ℕ → ℝ) (params : Option (ℕ → ℝ)) (r : Rx) (s : Store)
    (h : Proper orig r s) :
    resetRx orig params (applyRx params r s).2 (applyRx params r s).1 = s := by
  cases params with
  | none => rfl
  | some ps =>
    rw [resetRx_eq, (applyRx_eq ps r s).2, (applyRx_eq ps r s).1]
    refine reset_apply orig ps r.all _ s h.distinct h.standard ?_
    intro t ht
    exact apply_other ps r.all s t fun p hp e => ht (List.mem_map.2 ⟨p, hp, e⟩)

/-- If no evaluation fails, no two parameters of one reactor perturb the same quantity, and the
enthalpies have their original values, then the phases are left as they were.  Reactors may share
phases and perturb the same quantities.  Missing because the code violates it: failing evaluations,
quantities registered twice, modified enthalpies. -/
theorem restored_partial (orig : ℕ → ℕ → ℝ) (params : Option (ℕ → ℝ)) (good : ℕ → Store → Bool)
    (net : List Rx) (s : Store) (hp : ∀ r ∈ net, Proper orig r s)
    (hdone : (eval orig params good net s).done = true) :
    (eval orig params good net s).store = s := by
  have h : ∀ (l : List Rx) (n : ℕ), (∀ r ∈ l, Proper orig r s) →
      (evalLoop orig params good n l s).done = true →
      (evalLoop orig params good n l s).store = s := by
    intro l
    induction l with
    | nil => intro n _ _; rfl
    | cons r l ih =>
      intro n hp hd
      rw [evalLoop.eq_def] at hd ⊢
      simp only at hd ⊢
      rw [rx_restored orig params r s (hp r (List.mem_cons_self ..))] at hd ⊢
      split at hd
      · rename_i hg
        rw [if_pos hg]
        exact ih _ (fun q hq => hp q (List.mem_cons_of_mem _ hq)) hd
      · simp at hd
  exact h net 0 hp hdone

/-- The phases the equations of a reactor see: each registered quantity is perturbed by its own
parameter, everything else is untouched. -/
theorem seen_perturbed (orig : ℕ → ℕ → ℝ) (ps : ℕ → ℝ) (good : ℕ → Store → Bool)
    (net : List Rx) (s : Store) (hp : ∀ r ∈ net, Proper orig r s) (n : ℕ) (r : Rx) (s' : Store)
    (hr : net[n]? = some r) (hs : (eval orig (some ps) good net s).seen[n]? = some s') :
    (∀ p ∈ r.all, s'.get p.tgt = p.applied ps s) ∧
      ∀ t, t ∉ r.all.map Param.tgt → s'.get t = s.get t := by
  have h : ∀ (l : List Rx) (m n : ℕ), (∀ r ∈ l, Proper orig r s) → l[n]? = some r →
      (evalLoop orig (some ps) good m l s).seen[n]? = some s' →
      s' = (applyRx (some ps) r s).1 := by
    intro l
    induction l with
    | nil => intro m n _ h; simp at h
    | cons q l ih =>
      intro m n hp h1 h2
      rw [evalLoop.eq_def] at h2
      simp only at h2
      rw [rx_restored orig (some ps) q s (hp q (List.mem_cons_self ..))] at h2
      cases n with
      | zero =>
        simp only [List.getElem?_cons_zero, Option.some.injEq] at h1
        subst h1
        split at h2 <;> simpa using h2.symm
      | succ n =>
        simp only [List.getElem?_cons_succ] at h1
        split at h2
        · simp only [List.getElem?_cons_succ] at h2
          exact ih _ n (fun q hq => hp q (List.mem_cons_of_mem _ hq)) h1 h2
        · simp at h2
  have e := h net 0 n hp hr hs
  have hm : r ∈ net := List.mem_of_getElem? hr
  rw [e, (applyRx_eq ps r s).1]
  refine ⟨fun p hpm => apply_target ps r.all s p hpm (hp r hm).distinct, fun t ht => ?_⟩
  exact apply_other ps r.all s t fun p hp e => ht (List.mem_map.2 ⟨p, hp, e⟩)

/-- Without parameters the phases are never touched, even if an evaluation fails. -/
theorem no_params (orig : ℕ → ℕ → ℝ) (good : ℕ → Store → Bool) (net : List Rx) (s : Store) :
    (eval orig none good net s).store = s ∧ ∀ s' ∈ (eval orig none good net s).seen, s' = s := by
  have h : ∀ (l : List Rx) (n : ℕ), (evalLoop orig none good n l s).store = s ∧
      ∀ s' ∈ (evalLoop orig none good n l s).seen, s' = s := by
    intro l
    induction l with
    | nil => intro n; exact ⟨rfl, by simp [evalLoop]⟩
    | cons r l ih =>
      intro n
      rw [evalLoop.eq_def]
      show (if good n s = true then _ else _ : Res).store = s ∧
        ∀ s' ∈ (if good n s = true then _ else _ : Res).seen, s' = s
      by_cases hg : good n s = true
      · rw [if_pos hg]
        refine ⟨(ih _).1, fun s' hs' => ?_⟩
        rcases List.mem_cons.1 hs' with e | e
        · exact e
        · exact (ih _).2 s' e
      · rw [if_neg hg]
        exact ⟨rfl, by simp [applyRx]⟩
  exact h net 0

/-! ### Registration -/

/-- Parameters have their nominal values: 1 for reactions; 0 for enthalpies, with the enthalpy of
the phase kept in the entry. -/
def Nominal (vs : List ℝ) (s : Store) (p : Param) : Prop :=
  match p.tgt with
  | .reaction _ _ => vs[p.glob]? = some 1
  | .enthalpy q k => vs[p.glob]? = some 0 ∧ p.val = s.hf q k

theorem Nominal.append {vs : List ℝ} {s : Store} {p : Param} (h : Nominal vs s p) (x : ℝ) :
    Nominal (vs ++ [x]) s p := by
  have hget : ∀ y, vs[p.glob]? = some y → (vs ++ [x])[p.glob]? = some y := by
    intro y hy
    rw [List.getElem?_append_left (List.getElem?_eq_some_iff.1 hy).1, hy]
  rcases p with ⟨t, g, v⟩
  cases t with
  | reaction q i => exact hget _ h
  | enthalpy q k => exact ⟨hget _ h.1, h.2⟩

theorem nominal_reaction (vs : List ℝ) (s : Store) (q i : ℕ) :
    Nominal (vs ++ [1]) s ⟨.reaction q i, vs.length, 1⟩ := by
  show (vs ++ [1])[vs.length]? = some 1
  simp

theorem nominal_enthalpy (vs : List ℝ) (s : Store) (q k : ℕ) :
    Nominal (vs ++ [0]) s ⟨.enthalpy q k, vs.length, s.hf q k⟩ := by
  refine ⟨?_, rfl⟩
  show (vs ++ [0])[vs.length]? = some 0
  simp

theorem mem_modify {α : Type} (l : List α) (n : ℕ) (f : α → α) (x : α) (h : x ∈ l.modify n f) :
    x ∈ l ∨ ∃ y ∈ l, x = f y := by
  induction l generalizing n with
  | nil => simp at h
  | cons a l ih =>
    cases n with
    | zero =>
      rw [List.modify_zero_cons] at h
      rcases List.mem_cons.1 h with e | e
      · exact .inr ⟨a, List.mem_cons_self .., e⟩
      · exact .inl (List.mem_cons_of_mem _ e)
    | succ n =>
      rw [List.modify_succ_cons] at h
      rcases List.mem_cons.1 h with e | e
      · exact .inl (e ▸ List.mem_cons_self ..)
      · rcases ih n e with e | ⟨y, hy, e⟩
        · exact .inl (List.mem_cons_of_mem _ e)
        · exact .inr ⟨y, List.mem_cons_of_mem _ hy, e⟩

theorem add_nominal (s : Store) (S S' : Setup) (x : Slot) (h : add s S x = .ok S')
    (hS : ∀ r ∈ S.net, ∀ p ∈ r.all, Nominal S.values s p) :
    ∀ r ∈ S'.net, ∀ p ∈ r.all, Nominal S'.values s p := by
  unfold add at h
  split at h
  · exact absurd h (by simp)
  · cases x with
    | gas n q i =>
      simp only [Outcome.ok.injEq] at h
      subst h
      intro r hr p hp
      rcases mem_modify _ _ _ _ hr with hr | ⟨r0, hr0, rfl⟩
      · exact (hS r hr p hp).append 1
      · simp only [Rx.all, List.mem_append, List.mem_singleton] at hp
        rcases hp with (hp | rfl) | hp
        · exact (hS r0 hr0 p (by simp [Rx.all, hp])).append 1
        · exact nominal_reaction _ _ _ _
        · exact (hS r0 hr0 p (List.mem_append.2 (.inr hp))).append 1
    | heat n q k =>
      simp only [Outcome.ok.injEq] at h
      subst h
      intro r hr p hp
      rcases mem_modify _ _ _ _ hr with hr | ⟨r0, hr0, rfl⟩
      · exact (hS r hr p hp).append 0
      · simp only [Rx.all, List.mem_append, List.mem_singleton] at hp
        rcases hp with (hp | rfl) | hp
        · exact (hS r0 hr0 p (by simp [Rx.all, hp])).append 0
        · exact nominal_enthalpy _ _ _ _
        · exact (hS r0 hr0 p (List.mem_append.2 (.inr hp))).append 0
    | surface n m q i =>
      simp only [Outcome.ok.injEq] at h
      subst h
      intro r hr p hp
      rcases mem_modify _ _ _ _ hr with hr | ⟨r0, hr0, rfl⟩
      · exact (hS r hr p hp).append 1
      · simp only [Rx.all, List.mem_append] at hp
        rcases hp with hp | hp
        · exact (hS r0 hr0 p (by simp [Rx.all, hp])).append 1
        · obtain ⟨l, hl, hp⟩ := List.mem_flatten.1 hp
          rcases mem_modify _ _ _ _ hl with hl | ⟨l0, hl0, rfl⟩
          · exact (hS r0 hr0 p (List.mem_append.2 (.inr
              (List.mem_flatten.2 ⟨l, hl, hp⟩)))).append 1
          · simp only [List.mem_append, List.mem_singleton] at hp
            rcases hp with hp | rfl
            · exact (hS r0 hr0 p (List.mem_append.2 (.inr
                (List.mem_flatten.2 ⟨l0, hl0, hp⟩)))).append 1
            · exact nominal_reaction _ _ _ _

theorem addAll_nominal (s : Store) (l : List Slot) (S S' : Setup) (h : addAll s S l = .ok S')
    (hS : ∀ r ∈ S.net, ∀ p ∈ r.all, Nominal S.values s p) :
    ∀ r ∈ S'.net, ∀ p ∈ r.all, Nominal S'.values s p := by
  induction l generalizing S with
  | nil =>
    simp only [addAll, Outcome.ok.injEq] at h
    subst h
    exact hS
  | cons x l ih =>
    rw [addAll] at h
    split at h
    · rename_i S1 h1
      exact ih S1 h (add_nominal s S S1 x h1 hS)
    · exact absurd h (by simp)
    · exact absurd h (by simp)

theorem apply_nominal (vs : List ℝ) (l : List Param) (s : Store)
    (h : ∀ p ∈ l, Nominal vs s p) : (applyList (fun g => vs.getD g 0) l s).1 = s := by
  induction l with
  | nil => rfl
  | cons p l ih =>
    rw [applyList_cons]
    have e : s.set p.tgt (p.applied (fun g => vs.getD g 0) s) = s := by
      apply Store.ext_get
      intro t
      rw [Store.get_set]
      split
      · rename_i ht
        subst ht
        have hp := h p (List.mem_cons_self ..)
        rcases p with ⟨u, g, v⟩
        cases u with
        | reaction q i =>
          simp only [Nominal] at hp
          simp [Param.applied, Store.get, List.getD, hp]
        | enthalpy q k =>
          simp only [Nominal] at hp
          simp [Param.applied, Store.get, List.getD, hp.1, hp.2]
      · rfl
    rw [e]
    exact ih fun q hq => h q (List.mem_cons_of_mem _ hq)

/-- However parameters are registered, at their initial values the first reactor sees the phases
unperturbed. -/
theorem registered_nominal (orig : ℕ → ℕ → ℝ) (s : Store) (net : List Rx)
    (hnet : ∀ r ∈ net, r.all = []) (slots : List Slot) (S : Setup)
    (h : addAll s ⟨[], false, net⟩ slots = .ok S) (good : ℕ → Store → Bool) (s' : Store)
    (hs : (eval orig (some fun g => S.values.getD g 0) good S.net s).seen[0]? = some s') :
    s' = s := by
  have hn := addAll_nominal s slots _ S h (by
    intro r hr p hp
    rw [hnet r hr] at hp
    simp at hp)
  cases hl : S.net with
  | nil => rw [hl] at hs; simp [eval, evalLoop] at hs
  | cons r l =>
    rw [hl] at hs
    rw [eval, evalLoop.eq_def] at hs
    have e : (applyRx (some fun g => S.values.getD g 0) r s).1 = s := by
      rw [(applyRx_eq _ r s).1]
      exact apply_nominal _ _ _ (hn r (by rw [hl]; exact List.mem_cons_self ..))
    simp only [e] at hs
    split at hs <;> simpa using hs.symm

/-- Parameters cannot be added once the integrator is initialised. -/
theorem add_late (s : Store) (S : Setup) (x : Slot) (h : S.init = true) : add s S x = .throw := by
  unfold add
  rw [if_pos h]

/-- Every parameter gets an index of its own. -/
theorem add_fresh (s : Store) (S S' : Setup) (x : Slot) (h : add s S x = .ok S') :
    S'.values.length = S.values.length + 1 := by
  unfold add at h
  split at h
  · exact absurd h (by simp)
  · cases x <;> simp only [Outcome.ok.injEq] at h <;> subst h <;> simp

/-! ### Examples -/

/-- Gas 0 with kinetics 0, surface kinetics 1. -/
def exStore : Store := ⟨fun _ _ => 2, fun _ _ => 7⟩

def exRx : Rx := ⟨[⟨.reaction 0 3, 0, 1⟩, ⟨.enthalpy 0 1, 1, 7⟩], [[⟨.reaction 1 3, 2, 1⟩]]⟩

theorem exProper : Proper (fun _ _ => 7) exRx exStore :=
  ⟨by simp [exRx, Rx.all], fun _ _ _ => rfl⟩

/-- Two reactors sharing both phases. -/
example : (eval (fun _ _ => 7) (some fun g => 3 + g) (fun _ _ => true) [exRx, exRx] exStore).store =
    exStore :=
  restored_partial _ _ _ _ _ (by simp [exProper]) (by rfl)

example (n : ℕ) (s' : Store) (h : (eval (fun _ _ => 7) (some fun g => 3 + g) (fun _ _ => true)
    [exRx] exStore).seen[n]? = some s') : s'.mult 1 3 = 10 ∧ s'.hf 0 1 = 11 ∧ s'.mult 1 2 = 2 := by
  have hn : n = 0 := by
    cases n with
    | zero => rfl
    | succ n => simp [eval, evalLoop] at h
  subst hn
  have := seen_perturbed _ _ _ _ exStore (by simp [exProper]) 0 exRx s' rfl h
  have h1 := this.1 ⟨.reaction 1 3, 2, 1⟩ (by simp [exRx, Rx.all])
  have h2 := this.1 ⟨.enthalpy 0 1, 1, 7⟩ (by simp [exRx, Rx.all])
  have h3 := this.2 (.reaction 1 2) (by simp [exRx, Rx.all])
  simp only [Param.applied, Store.get, exStore] at h1 h2 h3
  rw [h1, h2, h3]
  norm_num

example : ∃ S, addAll exStore ⟨[], false, [⟨[], [[]]⟩]⟩ [.gas 0 0 3, .heat 0 0 1, .surface 0 0 1 3] =
    .ok S ∧ S.net = [exRx] ∧ S.values = [1, 0, 1] := ⟨_, rfl, rfl, rfl⟩

/-! ### Violations -/

/-- A reactor with one reaction parameter. -/
def oneRx (v : ℝ) : Rx := ⟨[⟨.reaction 0 0, 0, v⟩], []⟩

/-- If the evaluation fails the multiplier stays perturbed, and every further failing evaluation
perturbs it again: after `k` failures it is `m · p^k`. -/
theorem failure_accumulates (orig : ℕ → ℕ → ℝ) (s : Store) (p v : ℝ) (k : ℕ) :
    (evals orig (some fun _ => p) (fun _ _ => false) k [oneRx v] s).1.mult 0 0 =
      s.mult 0 0 * p ^ k := by
  induction k generalizing s v with
  | zero => simp [evals]
  | succ k ih =>
    rw [evals]
    have e1 : (eval orig (some fun _ => p) (fun _ _ => false) [oneRx v] s).net =
        [oneRx (s.mult 0 0)] := by simp [eval, evalLoop, applyRx, applyList, applySurfs, oneRx,
          Store.get]
    have e2 : (eval orig (some fun _ => p) (fun _ _ => false) [oneRx v] s).store.mult 0 0 =
        s.mult 0 0 * p := by
      simp [eval, evalLoop, applyRx, applyList, applySurfs, oneRx, Store.get, Store.set]
    simp only [e1]
    rw [ih, e2, pow_succ]
    ring

/-- A reaction registered twice. -/
def twice (v w : ℝ) : Rx := ⟨[⟨.reaction 0 0, 0, v⟩, ⟨.reaction 0 0, 1, w⟩], []⟩

/-- A reaction registered twice keeps the first perturbation after each successful evaluation:
after `k` of them the multiplier is `m · p^k`. -/
theorem duplicate_accumulates (orig : ℕ → ℕ → ℝ) (s : Store) (p : ℕ → ℝ) (v w : ℝ) (k : ℕ) :
    (evals orig (some p) (fun _ _ => true) k [twice v w] s).1.mult 0 0 =
      s.mult 0 0 * p 0 ^ k := by
  induction k generalizing s v w with
  | zero => simp [evals]
  | succ k ih =>
    rw [evals]
    have e1 : (eval orig (some p) (fun _ _ => true) [twice v w] s).net =
        [twice (s.mult 0 0) (s.mult 0 0 * p 0)] := by
      simp [eval, evalLoop, applyRx, applyList, applySurfs, twice, Store.get, Store.set]
    have e2 : (eval orig (some p) (fun _ _ => true) [twice v w] s).store.mult 0 0 =
        s.mult 0 0 * p 0 := by
      simp [eval, evalLoop, applyRx, applyList, applySurfs, resetRx, resetList, resetSurfs,
        twice, Store.get, Store.set]
    simp only [e1]
    rw [ih, e2, pow_succ]
    ring

/-- An enthalpy modified before the parameter was registered is replaced by the original one. -/
theorem modified_lost (orig : ℕ → ℕ → ℝ) (s : Store) (p : ℕ → ℝ) :
    (eval orig (some p) (fun _ _ => true) [⟨[⟨.enthalpy 0 0, 0, s.hf 0 0⟩], []⟩] s).store.hf 0 0 =
      orig 0 0 := by
  simp [eval, evalLoop, applyRx, applyList, applySurfs, resetRx, resetList, resetSurfs, Store.set]

end Verif.ZeroD.Sens
