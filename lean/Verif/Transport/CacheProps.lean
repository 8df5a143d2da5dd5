import Verif.Transport.Cache
import Mathlib.Tactic.Linarith
import Mathlib.Tactic.NormNum

/-!
# C71: theorems on the caching of transport properties
-/

namespace Verif.Transport.Cache

/-! ## Mixture-averaged -/

namespace Mix

variable {S : Sys}

/-- Temperatures are positive. -/
def Op.Ok : Op S → Prop
  | .state T _ _ => 0 < T
  | _ => True

/-- No species is added. -/
def Op.Fixed : Op S → Prop
  | .species _ _ => False
  | _ => True

/-- Coefficients that belong to the current species: those of the object, or new fits after a species was added. -/
def coefNow (e : Env S.Comp S.Rest) (o : Obj S) : S.Coef := if o.nsp = e.n then o.coef else S.fit e.n

/-- Invariant for all histories. -/
structure Inv (s : Env S.Comp S.Rest × Obj S) : Prop where
  T : 0 < s.1.T
  tv : 0 < s.2.temp → s.2.tv = s.2.temp
  bd : s.2.bindiffOk = true → s.2.bdiff = S.bdiff s.2.coef s.2.tv
  cd : s.2.spcondOk = true → 0 < s.2.temp → s.2.cond = S.cond s.2.coef s.2.tv

/-- Invariant for histories without new species. -/
structure InvV (s : Env S.Comp S.Rest × Obj S) : Prop where
  n : s.2.nsp = s.1.n
  vis : s.2.spviscOk = true → s.2.visc = S.visc s.2.coef s.2.tv
  wt : s.2.viscwtOk = true → s.2.visc = S.visc s.2.coef s.2.tv ∧ s.2.phi = S.phi (S.visc s.2.coef s.2.tv)

theorem updateT_spec {e : Env S.Comp S.Rest} {o : Obj S} (h : Inv (e, o)) :
    (updateT e o).temp = e.T ∧ (updateT e o).tv = e.T ∧ (updateT e o).nsp = e.n ∧ (updateT e o).coef = coefNow e o ∧
    Inv (e, updateT e o) := by
  have hT : 0 < e.T := h.T
  rw [updateT, coefNow]
  split_ifs with c d d
  · have tv : o.tv = o.temp := h.tv (by show 0 < o.temp; rw [← c.1]; exact hT)
    exact ⟨c.1.symm, by rw [tv, c.1], c.2, rfl, h⟩
  · exact absurd c.2 d
  · have ne : e.T ≠ o.temp := fun q => c ⟨q, d⟩
    simp only [gasUpdateT, d, ne_eq, not_true_eq_false, if_false, if_neg ne, true_and]
    exact ⟨hT, fun _ => rfl, by simp, by simp⟩
  · have d' : e.n ≠ o.nsp := fun q => d q.symm
    simp only [gasUpdateT, if_pos d', init]
    by_cases t : e.T = o.temp
    · have tv : o.tv = o.temp := h.tv (by show 0 < o.temp; rw [← t]; exact hT)
      rw [if_pos t]
      exact ⟨t.symm, by rw [tv, t], rfl, rfl, hT, fun _ => tv, by simp, by simp⟩
    · rw [if_neg t]
      exact ⟨rfl, rfl, rfl, rfl, hT, fun _ => rfl, by simp, by simp⟩

theorem updateT_invV {e : Env S.Comp S.Rest} {o : Obj S} (h : InvV (e, o)) : InvV (e, updateT e o) := by
  have hn : o.nsp = e.n := h.n
  rw [updateT]
  split_ifs with c
  · exact h
  · have ne : e.T ≠ o.temp := fun q => c ⟨q, hn⟩
    simp only [gasUpdateT, hn, ne_eq, not_true_eq_false, if_false, if_neg ne]
    exact ⟨rfl, by simp, by simp⟩

/-- After a change of temperature nothing is kept. -/
theorem updateT_changed {e : Env S.Comp S.Rest} {o : Obj S} (ne : e.T ≠ o.temp) :
    (updateT e o).spviscOk = false ∧ (updateT e o).viscwtOk = false := by
  rw [updateT, if_neg (fun c => ne c.1)]
  simp only [gasUpdateT]
  by_cases d : e.n = o.nsp
  · simp [d, ne]
  · simp [d, ne, init]

theorem idem {e : Env S.Comp S.Rest} {o : Obj S} (t : o.temp = e.T) (n : o.nsp = e.n) : updateT e o = o := by
  rw [updateT, if_pos ⟨t.symm, n⟩]

/-- One query of the viscosity, in terms of the object after `update_T`. -/
theorem viscosity_aux {e : Env S.Comp S.Rest} {o : Obj S} (h : Inv (e, o)) :
    ∃ q : Obj S, (viscosity e o).1 = q ∧ Inv (e, q) ∧ (InvV (e, updateT e o) → InvV (e, q) ∧
      (viscosity e o).2 = S.mu (S.visc (coefNow e o) e.T) (S.phi (S.visc (coefNow e o) e.T)) (S.clip e.X)) := by
  obtain ⟨t1, t2, t3, t4, t5⟩ := updateT_spec h
  refine ⟨_, rfl, ?_, ?_⟩
  · rw [viscosity]
    simp only [updateC, updateViscosityT, updateSpeciesViscosities, Bool.false_eq_true, if_false]
    generalize updateT e o = p at *
    have idp : updateT e { p with viscOk := false, condmixOk := false, x := S.clip e.X } =
        { p with viscOk := false, condmixOk := false, x := S.clip e.X } := idem t1 t3
    rw [idp]
    by_cases c : p.viscwtOk = true <;> by_cases d : p.spviscOk = true <;> simp only [c, d, Bool.false_eq_true, if_false, if_true] <;>
      exact ⟨t5.T, t5.tv, t5.bd, t5.cd⟩
  · intro v
    rw [viscosity]
    simp only [updateC, updateViscosityT, updateSpeciesViscosities, Bool.false_eq_true, if_false]
    generalize updateT e o = p at *
    have idp : updateT e { p with viscOk := false, condmixOk := false, x := S.clip e.X } =
        { p with viscOk := false, condmixOk := false, x := S.clip e.X } := idem t1 t3
    rw [idp]
    have w := v.wt
    have s := v.vis
    simp only at w s
    rw [t2, t4] at w s
    by_cases c : p.viscwtOk = true
    · obtain ⟨w1, w2⟩ := w c
      simp only [c, if_true]
      exact ⟨⟨v.n, v.vis, fun _ => v.wt c⟩, by simp only [w1, w2]⟩
    · by_cases d : p.spviscOk = true
      · have s1 := s d
        simp only [c, d, Bool.false_eq_true, if_false, if_true]
        refine ⟨⟨v.n, fun _ => v.vis d, fun _ => ⟨v.vis d, ?_⟩⟩, by simp only [s1]⟩
        simp only [s1, t2, t4]
      · simp only [c, d, Bool.false_eq_true, if_false]
        exact ⟨⟨v.n, fun _ => rfl, fun _ => ⟨rfl, rfl⟩⟩, by simp only [t2, t4]⟩

theorem conductivity_aux {e : Env S.Comp S.Rest} {o : Obj S} (h : Inv (e, o)) :
    Inv (e, (conductivity e o).1) ∧ (InvV (e, updateT e o) → InvV (e, (conductivity e o).1)) ∧
      (conductivity e o).2 = S.lam (S.cond (coefNow e o) e.T) (S.clip e.X) := by
  obtain ⟨t1, t2, t3, t4, t5⟩ := updateT_spec h
  rw [conductivity]
  simp only [conductivityAfter, updateC]
  generalize updateT e o = p at *
  have cd := t5.cd
  simp only [t1] at cd
  have cd' := fun k => cd k t5.T
  by_cases hp : p.spcondOk = true
  swap
  · simp only [hp, Bool.false_eq_true, if_false]
    refine ⟨⟨t5.T, t5.tv, t5.bd, fun _ _ => rfl⟩, fun v => ⟨v.n, v.vis, v.wt⟩, by rw [t2, t4]⟩
  · have c := cd' hp
    simp only [hp, Bool.false_eq_true, if_false, if_true]
    exact ⟨⟨t5.T, t5.tv, t5.bd, fun _ _ => c⟩, fun v => ⟨v.n, v.vis, v.wt⟩, by rw [c, t2, t4]⟩

theorem diff_aux {e : Env S.Comp S.Rest} {p : Obj S} (t1 : p.temp = e.T) (t2 : p.tv = e.T) (t3 : p.nsp = e.n) (t5 : Inv (e, p)) :
    Inv (e, if p.bindiffOk then p else updateDiffT e p) ∧ (InvV (e, p) → InvV (e, if p.bindiffOk then p else updateDiffT e p)) ∧
      (if p.bindiffOk then p else updateDiffT e p).bdiff = S.bdiff p.coef e.T ∧
      (if p.bindiffOk then p else updateDiffT e p).x = p.x := by
  split_ifs with c
  · exact ⟨t5, id, by rw [← t2]; exact t5.bd c, rfl⟩
  · simp only [updateDiffT, idem t1 t3]
    exact ⟨⟨t5.T, t5.tv, fun _ => rfl, t5.cd⟩, fun v => ⟨v.n, v.vis, v.wt⟩, by rw [t2], trivial⟩

theorem binary_aux {e : Env S.Comp S.Rest} {o : Obj S} (h : Inv (e, o)) :
    Inv (e, (binary e o).1) ∧ (InvV (e, updateT e o) → InvV (e, (binary e o).1)) ∧
      (binary e o).2 = S.binary (S.bdiff (coefNow e o) e.T) e.rest := by
  obtain ⟨t1, t2, t3, t4, t5⟩ := updateT_spec h
  obtain ⟨d1, d2, d3, _⟩ := diff_aux t1 t2 t3 t5
  rw [binary]
  exact ⟨d1, d2, by simp only [d3, t4]⟩

theorem mixDiff_aux {e : Env S.Comp S.Rest} {o : Obj S} (h : Inv (e, o)) :
    Inv (e, (mixDiff e o).1) ∧ (InvV (e, updateT e o) → InvV (e, (mixDiff e o).1)) ∧
      (mixDiff e o).2 = S.dmix (S.bdiff (coefNow e o) e.T) (S.clip e.X) e.rest := by
  obtain ⟨t1, t2, t3, t4, t5⟩ := updateT_spec h
  have t5' : Inv (e, updateC e (updateT e o)) := ⟨t5.T, t5.tv, t5.bd, t5.cd⟩
  obtain ⟨d1, d2, d3, d4⟩ := diff_aux (p := updateC e (updateT e o)) t1 t2 t3 t5'
  rw [mixDiff]
  refine ⟨d1, fun v => d2 ⟨v.n, v.vis, v.wt⟩, ?_⟩
  simp only [d3, d4, show (updateC e (updateT e o)).coef = coefNow e o from t4,
    show (updateC e (updateT e o)).x = S.clip e.X from rfl]

theorem step_inv {s : Env S.Comp S.Rest × Obj S} (h : Inv s) {op : Op S} (ho : op.Ok) : Inv (step s op) := by
  obtain ⟨e, o⟩ := s
  cases op with
  | state T X r => exact ⟨ho, h.tv, h.bd, h.cd⟩
  | species X r => exact ⟨h.T, h.tv, h.bd, h.cd⟩
  | poly f =>
    refine ⟨h.T, ?_, by simp [step, invalidate], ?_⟩
    · simp only [step, invalidate]; intro q; norm_num at q
    · simp only [step, invalidate]; intro _ q; norm_num at q
  | viscosity =>
    obtain ⟨q, q1, q2, _⟩ := viscosity_aux h
    simp only [step, q1]; exact q2
  | conductivity => exact (conductivity_aux h).1
  | binary => exact (binary_aux h).1
  | mixDiff => exact (mixDiff_aux h).1

theorem step_invV {s : Env S.Comp S.Rest × Obj S} (h : Inv s) (v : InvV s) {op : Op S} (hf : op.Fixed) : InvV (step s op) := by
  obtain ⟨e, o⟩ := s
  cases op with
  | state T X r => exact ⟨v.n, v.vis, v.wt⟩
  | species X r => exact absurd hf (by simp [Op.Fixed])
  | poly f => exact ⟨v.n, by simp [step, invalidate], by simp [step, invalidate]⟩
  | viscosity =>
    obtain ⟨q, q1, _, q3⟩ := viscosity_aux h
    simp only [step, q1]; exact (q3 (updateT_invV v)).1
  | conductivity => exact (conductivity_aux h).2.1 (updateT_invV v)
  | binary => exact (binary_aux h).2.1 (updateT_invV v)
  | mixDiff => exact (mixDiff_aux h).2.1 (updateT_invV v)

/-- Objects reached from a new one. -/
theorem reach {e : Env S.Comp S.Rest} (hT : 0 < e.T) (v0 : S.Vis) (p0 : S.Phi) (b0 : S.Bd) (c0 : S.Cond) (x0 : S.Comp) (w0 : S.Val)
    {h : List (Op S)} (hk : ∀ op ∈ h, op.Ok) : Inv (h.foldl step (e, fresh e.n v0 p0 b0 c0 x0 w0)) ∧
      ((∀ op ∈ h, op.Fixed) → InvV (h.foldl step (e, fresh e.n v0 p0 b0 c0 x0 w0))) := by
  have i0 : Inv (e, fresh e.n v0 p0 b0 c0 x0 w0) :=
    ⟨hT, by simp only [fresh]; intro q; norm_num at q, by simp [fresh], by simp [fresh]⟩
  have j0 : InvV (e, fresh e.n v0 p0 b0 c0 x0 w0) := ⟨rfl, by simp [fresh], by simp [fresh]⟩
  generalize (e, fresh e.n v0 p0 b0 c0 x0 w0) = s at *
  induction h generalizing s with
  | nil => exact ⟨i0, fun _ => j0⟩
  | cons op h ih =>
    rw [List.foldl_cons]
    have ok := hk op (by simp)
    by_cases f : op.Fixed
    · obtain ⟨a, b⟩ := ih (fun o ho => hk o (by simp [ho])) _ (step_inv i0 ok) (step_invV i0 j0 f)
      exact ⟨a, fun hf => b fun o ho => hf o (by simp [ho])⟩
    · have key : ∀ (h : List (Op S)) (s : Env S.Comp S.Rest × Obj S), (∀ op ∈ h, op.Ok) → Inv s → Inv (h.foldl step s) := by
        intro h
        induction h with
        | nil => intro s _ i; exact i
        | cons op h ih =>
          intro s hk i
          rw [List.foldl_cons]
          exact ih _ (fun o ho => hk o (by simp [ho])) (step_inv i (hk op (by simp)))
      exact ⟨key h _ (fun o ho => hk o (by simp [ho])) (step_inv i0 ok), fun hf => absurd (hf op (by simp)) f⟩

section
variable {e₀ : Env S.Comp S.Rest} (hT : 0 < e₀.T) (v0 : S.Vis) (p0 : S.Phi) (b0 : S.Bd) (c0 : S.Cond) (x0 : S.Comp) (w0 : S.Val)
  {h : List (Op S)} (hk : ∀ op ∈ h, op.Ok) {e : Env S.Comp S.Rest} {o : Obj S}
  (hr : h.foldl step (e₀, fresh e₀.n v0 p0 b0 c0 x0 w0) = (e, o))
include hT hk hr

/-- The conductivity depends only on the current state, species and fits, whatever was done before. -/
theorem conductivity_current : (conductivity e o).2 =
    S.lam (S.cond (if o.nsp = e.n then o.coef else S.fit e.n) e.T) (S.clip e.X) := by
  have i := (reach hT v0 p0 b0 c0 x0 w0 hk).1
  rw [hr] at i
  exact (conductivity_aux i).2.2

/-- So do the binary diffusion coefficients. -/
theorem binary_current : (binary e o).2 = S.binary (S.bdiff (if o.nsp = e.n then o.coef else S.fit e.n) e.T) e.rest := by
  have i := (reach hT v0 p0 b0 c0 x0 w0 hk).1
  rw [hr] at i
  exact (binary_aux i).2.2

/-- And the mixture-averaged ones. -/
theorem mixDiff_current : (mixDiff e o).2 =
    S.dmix (S.bdiff (if o.nsp = e.n then o.coef else S.fit e.n) e.T) (S.clip e.X) e.rest := by
  have i := (reach hT v0 p0 b0 c0 x0 w0 hk).1
  rw [hr] at i
  exact (mixDiff_aux i).2.2

/-- The viscosity too if no species was added. -/
theorem viscosity_current (hf : ∀ op ∈ h, op.Fixed) : (viscosity e o).2 =
    S.mu (S.visc o.coef e.T) (S.phi (S.visc o.coef e.T)) (S.clip e.X) := by
  obtain ⟨i, j⟩ := reach hT v0 p0 b0 c0 x0 w0 hk
  have j := j hf
  rw [hr] at i j
  obtain ⟨_, _, _, q⟩ := viscosity_aux i
  have := (q (updateT_invV j)).2
  rwa [coefNow, if_pos (show o.nsp = e.n from j.n)] at this

/-- With new species the viscosity is right if the temperature is not that of the previous query. -/
theorem viscosity_changed (ht : o.temp ≠ e.T) : (viscosity e o).2 =
    S.mu (S.visc (if o.nsp = e.n then o.coef else S.fit e.n) e.T)
      (S.phi (S.visc (if o.nsp = e.n then o.coef else S.fit e.n) e.T)) (S.clip e.X) := by
  have i := (reach hT v0 p0 b0 c0 x0 w0 hk).1
  rw [hr] at i
  obtain ⟨_, _, _, q⟩ := viscosity_aux i
  obtain ⟨c1, c2⟩ := updateT_changed (o := o) (Ne.symm ht)
  exact (q ⟨(updateT_spec i).2.2.1, by simp [c1], by simp [c2]⟩).2

end

/-- Results that show what they were computed from: the resized arrays are marked. -/
abbrev trace : Sys where
  Comp := ℕ
  Rest := Unit
  Coef := ℕ
  Vis := ℕ × ℝ × Bool
  Phi := (ℕ × ℝ × Bool) × Bool
  Bd := ℕ × ℝ
  Cond := ℕ × ℝ
  Val := (ℕ × ℝ × Bool) × ((ℕ × ℝ × Bool) × Bool) × ℕ
  fit := id
  visc := fun c t => (c, t, false)
  phi := fun v => (v, false)
  bdiff := fun c t => (c, t)
  cond := fun c t => (c, t)
  clip := id
  mu := fun v p x => (v, p, x)
  lam := fun c x => ((c.1, c.2, false), ((c.1, c.2, false), false), x)
  binary := fun b _ => ((b.1, b.2, false), ((b.1, b.2, false), false), 0)
  dmix := fun b x _ => ((b.1, b.2, false), ((b.1, b.2, false), false), x)
  resizeVis := fun v => (v.1, v.2.1, true)
  resizePhi := fun p => (p.1, true)
  resizeBd := id
  resizeCond := id

/-- A new object of these. -/
def traceObj (n : ℕ) : Obj trace := fresh n (0, 0, false) ((0, 0, false), false) (0, 0) (0, 0) 0 ((0, 0, false), ((0, 0, false), false), 0)

/-- The viscosity after a species was added at the same temperature is computed from the resized arrays of the smaller set of
species: fits for two species (first component), entries at wrong places (`true`). -/
theorem viscosity_stale : ∃ (e : Env ℕ Unit) (o : Obj trace),
    ([.viscosity, .species (7 : ℕ) ()] : List (Op trace)).foldl step ((⟨300, (5 : ℕ), (), 2⟩ : Env ℕ Unit), traceObj 2) = (e, o) ∧ e.n = 3 ∧
    (viscosity e o).2 = ((2, 300, true), (((2, 300, false), true), 7)) := by
  refine ⟨_, _, rfl, rfl, ?_⟩
  simp only [viscosity, updateC, updateT, gasUpdateT, updateViscosityT,
    updateSpeciesViscosities, init, traceObj, fresh, trace]
  norm_num

/-- The right value would be this one. -/
example : trace.mu (trace.visc (trace.fit 3) 300) (trace.phi (trace.visc (trace.fit 3) 300)) (trace.clip (7 : ℕ)) =
    ((3, 300, false), (((3, 300, false), false), 7)) := rfl

/-- Histories as in the theorems exist. -/
example : ∃ (h : List (Op trace)), (∀ op ∈ h, op.Ok) ∧ (∀ op ∈ h, op.Fixed) ∧ h.length = 4 :=
  ⟨[.viscosity, .state 400 (1 : ℕ) (), .poly (fun c : ℕ => c + 1), .conductivity], by simp [Op.Ok], by simp [Op.Fixed], rfl⟩

end Mix

/-! ## Multicomponent -/

namespace Multi

variable {S : Sys}

/-- Temperatures are positive and no species is added. -/
def Op.Ok : Op S → Prop
  | .state T _ _ => 0 < T
  | .species _ _ => False
  | _ => True

/-- Solution of the L matrix equation for the current state. -/
def fullSol (c : S.Coef) (T : ℝ) (X : S.Comp) : S.Sol :=
  S.sol T (S.visc c T) (S.off c T) (S.diagTherm T (S.visc c T) (S.star c T T)) (S.star c T T) X

/-- Invariant for all histories. -/
structure Inv (s : Env S.Comp S.Rest × Obj S) : Prop where
  T : 0 < s.1.T
  n : s.2.nsp = s.1.n
  tv : 0 < s.2.temp → s.2.tv = s.2.temp
  vis : s.2.spviscOk = true → s.2.visc = S.visc s.2.coef s.2.tv
  wt : s.2.viscwtOk = true → s.2.visc = S.visc s.2.coef s.2.tv ∧ s.2.phi = S.phi (S.visc s.2.coef s.2.tv)
  bd : s.2.bindiffOk = true → s.2.off = S.off s.2.coef s.2.tv ∧ (s.2.diag = S.diagFit s.2.coef s.2.tv ∨
    s.2.diag = S.diagTherm s.2.tv (S.visc s.2.coef s.2.tv) (S.star s.2.coef s.2.tv s.2.tv))

/-- Invariant for histories that keep the thermal arrays: they belong to the temperature `m_thermal_tlast`. -/
structure Keep (o : Obj S) : Prop where
  th : 0 < o.tlast → o.temp = o.tlast ∧ o.tv = o.tlast ∧ o.visc = S.visc o.coef o.tlast ∧ o.off = S.off o.coef o.tlast ∧
    o.star = S.star o.coef o.tlast o.tlast ∧
    o.diag = S.diagTherm o.tlast (S.visc o.coef o.tlast) (S.star o.coef o.tlast o.tlast) ∧ o.bindiffOk = true
  sol : o.solnOk = true → 0 < o.tlast ∧ o.sol = fullSol o.coef o.tlast o.xlast ∧ o.bx = o.xlast

theorem idem {e : Env S.Comp S.Rest} {o : Obj S} (t : o.temp = e.T) (n : o.nsp = e.n) : updateT e o = o := by
  rw [updateT, if_pos ⟨t, n⟩]

/-- `update_T` at another temperature. -/
theorem updateT_new {e : Env S.Comp S.Rest} {o : Obj S} (n : o.nsp = e.n) (t : o.temp ≠ e.T) :
    updateT e o = { o with temp := e.T, tv := e.T, spviscOk := false, viscwtOk := false, bindiffOk := false, solnOk := false } := by
  rw [updateT, if_neg (fun c => t c.1)]
  simp [gasUpdateT, n, Ne.symm t]

theorem updateT_spec {e : Env S.Comp S.Rest} {o : Obj S} (h : Inv (e, o)) :
    (updateT e o).temp = e.T ∧ (updateT e o).tv = e.T ∧ (updateT e o).nsp = e.n ∧ (updateT e o).coef = o.coef ∧
    Inv (e, updateT e o) := by
  have hT : 0 < e.T := h.T
  have hn : o.nsp = e.n := h.n
  by_cases c : o.temp = e.T
  · rw [idem c hn]
    have tv : o.tv = o.temp := h.tv (by show 0 < o.temp; rw [c]; exact hT)
    exact ⟨c, by rw [tv, c], hn, rfl, h⟩
  · rw [updateT_new hn c]
    exact ⟨rfl, rfl, hn, rfl, hT, hn, fun _ => rfl, by simp, by simp, by simp⟩

theorem updateC_spec {e : Env S.Comp S.Rest} {o : Obj S} (h : Inv (e, o)) :
    ∃ p, updateC e o = .ok p ∧ Inv (e, p) ∧ p.x = S.clip e.X ∧ p.temp = o.temp ∧ p.tv = o.tv ∧ p.coef = o.coef ∧
      p.tlast = o.tlast ∧ (Keep o → Keep p) ∧ (p.solnOk = true → p.xlast = S.clip e.X) ∧
      p = { o with x := p.x, solnOk := p.solnOk } ∧ (o.solnOk = false → p.solnOk = false) := by
  classical
  have hn : o.nsp = e.n := h.n
  have hu : updateC e o = .ok { o with x := S.clip e.X, solnOk := if S.clip e.X ≠ o.xlast then false else o.solnOk } := by
    rw [updateC, if_neg (by omega)]
  refine ⟨_, hu, ⟨h.T, h.n, h.tv, h.vis, h.wt, h.bd⟩, rfl, rfl, rfl, rfl, rfl, ?_, ?_, rfl, ?_⟩
  · intro k
    refine ⟨k.th, ?_⟩
    simp only
    split_ifs
    · simp
    · exact k.sol
  · simp only
    split_ifs with c
    · simp
    · intro _; exact (not_not.1 c).symm
  · intro q; simp only [q]; split_ifs <;> rfl

/-- `updateSpeciesViscosities` and `updateDiff_T` one after the other. -/
theorem thermal_new {e : Env S.Comp S.Rest} {o : Obj S} (h : Inv (e, o)) (t : o.tlast ≠ e.T) :
    let p := updateThermalT e o
    Inv (e, p) ∧ p.temp = e.T ∧ p.tv = e.T ∧ p.coef = o.coef ∧ p.tlast = e.T ∧ p.visc = S.visc o.coef e.T ∧
    p.off = S.off o.coef e.T ∧ p.star = S.star o.coef e.T e.T ∧
    p.diag = S.diagTherm e.T (S.visc o.coef e.T) (S.star o.coef e.T e.T) ∧ p.bindiffOk = true ∧
    p.solnOk = (updateT e o).solnOk ∧ p.x = (updateT e o).x ∧ p.xlast = (updateT e o).xlast ∧ p.phi = (updateT e o).phi ∧
    p.spviscOk = true := by
  obtain ⟨t1, t2, t3, t4, t5⟩ := updateT_spec h
  simp only [updateThermalT, if_neg t, updateDiffT, updateSpeciesViscosities]
  generalize updateT e o = p at *
  have idp : updateT e { p with visc := S.visc p.coef p.tv, spviscOk := true } =
      { p with visc := S.visc p.coef p.tv, spviscOk := true } := idem t1 t3
  rw [idp]
  simp only [t2, t4, t1, and_true]
  refine ⟨h.T, t3, fun _ => rfl, fun _ => rfl, fun w => ?_,
    fun _ => ⟨rfl, Or.inr rfl⟩⟩
  obtain ⟨w1, w2⟩ := t5.wt w
  refine ⟨rfl, ?_⟩
  simp only [t2, t4] at w2 ⊢
  exact w2

theorem thermal_inv {e : Env S.Comp S.Rest} {o : Obj S} (h : Inv (e, o)) : Inv (e, updateThermalT e o) := by
  by_cases c : o.tlast = e.T
  · rw [updateThermalT, if_pos c]; exact h
  · exact (thermal_new h c).1

/-- Histories in which the thermal arrays stay valid: other queries only at the temperature of the last thermal query (or
before the first one), and flux queries only before the first thermal query. -/
def Safe (s : Env S.Comp S.Rest × Obj S) : Op S → Prop
  | .viscosity => s.2.tlast = s.1.T ∨ s.2.tlast ≤ 0
  | .binary => s.2.tlast = s.1.T ∨ s.2.tlast ≤ 0
  | .fluxes th => th = false ∧ s.2.tlast ≤ 0
  | _ => True

theorem thermal_keep {e : Env S.Comp S.Rest} {o : Obj S} (h : Inv (e, o)) (k : Keep o) :
    Keep (updateThermalT e o) ∧ (updateThermalT e o).tlast = e.T := by
  have hT : 0 < e.T := h.T
  by_cases c : o.tlast = e.T
  · rw [updateThermalT, if_pos c]; exact ⟨k, c⟩
  · obtain ⟨p1, p2, p3, p4, p5, p6, p7, p8, p9, p10, p11, p12, p13, p14, p15⟩ := thermal_new h c
    have so : (updateT e o).solnOk = false := by
      by_cases d : o.temp = e.T
      · rw [idem d h.n]
        by_contra q
        rw [Bool.not_eq_false] at q
        obtain ⟨q1, _⟩ := k.sol q
        have := (k.th q1).1
        exact c (this.symm.trans d)
      · rw [updateT_new h.n d]
    refine ⟨⟨fun _ => ?_, fun q => ?_⟩, p5⟩
    · rw [p5, p4]; exact ⟨p2, p3, p6, p7, p8, p9, p10⟩
    · rw [p11, so] at q; simp at q

theorem solveL_inv {e : Env S.Comp S.Rest} {o : Obj S} (h : Inv (e, o)) : ∃ p, solveL e o = .ok p ∧ Inv (e, p) ∧ p.x = S.clip e.X ∧
    p.coef = o.coef ∧ (Keep o → Keep p ∧ p.sol = fullSol o.coef e.T (S.clip e.X) ∧ p.bx = S.clip e.X) ∧
    (o.tlast ≠ e.T → o.temp ≠ e.T → p.sol = fullSol o.coef e.T (S.clip e.X) ∧ p.bx = S.clip e.X) ∧
    p.off = (updateThermalT e o).off ∧ p.temp = (updateThermalT e o).temp := by
  have hT : 0 < e.T := h.T
  have cq : (updateThermalT e o).coef = o.coef := by
    by_cases c : o.tlast = e.T
    · rw [updateThermalT, if_pos c]
    · exact (thermal_new h c).2.2.2.1
  obtain ⟨q, q1, q2, q3, q4, q5, q6, q7, q8, q9, q10, q11⟩ := updateC_spec (thermal_inv h)
  rw [solveL, q1]
  simp only [Outcome.bind]
  cases so : q.solnOk
  · simp only [Bool.false_eq_true, if_false]
    refine ⟨_, rfl, ⟨q2.T, q2.n, q2.tv, q2.vis, q2.wt, q2.bd⟩, q3, q6.trans cq, ?_, ?_, by rw [q10], q4⟩
    · intro k
      obtain ⟨k1, k2⟩ := thermal_keep h k
      have k3 := q8 k1
      obtain ⟨r1, r2, r3, r4, r5, r6, r7⟩ := k3.th (by rw [q7, k2]; exact hT)
      rw [q7, k2, q6, cq] at r6 r5 r4 r3
      rw [q7, k2] at r1 r2
      have e1 : S.sol q.temp q.visc q.off q.diag q.star q.x = fullSol o.coef e.T (S.clip e.X) := by
        rw [fullSol, r1, r3, r4, r5, r6, q3]
      refine ⟨⟨k3.th, fun _ => ⟨by simp only [q7, k2]; exact hT, ?_, rfl⟩⟩, e1, q3⟩
      show S.sol q.temp q.visc q.off q.diag q.star q.x = fullSol q.coef q.tlast q.x
      rw [e1, q7, k2, q6, cq, q3]
    · intro c d
      obtain ⟨p1, p2, p3, p4, p5, p6, p7, p8, p9, _⟩ := thermal_new h c
      have : q.visc = (updateThermalT e o).visc ∧ q.off = (updateThermalT e o).off ∧ q.star = (updateThermalT e o).star ∧
        q.diag = (updateThermalT e o).diag := by rw [q10]; exact ⟨rfl, rfl, rfl, rfl⟩
      obtain ⟨a1, a2, a3, a4⟩ := this
      refine ⟨?_, q3⟩
      simp only
      rw [fullSol, a1, a2, a3, a4, q4, q3, p2, p6, p7, p8, p9]
  · simp only [if_true]
    refine ⟨_, rfl, q2, q3, q6.trans cq, ?_, ?_, by rw [q10], q4⟩
    · intro k
      obtain ⟨k1, k2⟩ := thermal_keep h k
      have k3 := q8 k1
      obtain ⟨s1, s2, s3⟩ := k3.sol so
      refine ⟨k3, ?_, by rw [s3, q9 so]⟩
      rw [s2, q7, k2, q6, cq, q9 so]
    · intro c d
      exfalso
      have := (thermal_new h c).2.2.2.2.2.2.2.2.2.2.1
      rw [updateT_new h.n d] at this
      rw [q11 this] at so
      simp at so

/-- The conductivity if nothing disturbed the thermal arrays. -/
theorem conductivity_aux {e : Env S.Comp S.Rest} {o : Obj S} (h : Inv (e, o)) :
    ∃ p, conductivity e o = .ok p ∧ Inv (e, p.1) ∧ (Keep o → Keep p.1 ∧ p.2 = S.lam (fullSol o.coef e.T (S.clip e.X)) (S.clip e.X)) ∧
    (o.tlast ≠ e.T → o.temp ≠ e.T → p.2 = S.lam (fullSol o.coef e.T (S.clip e.X)) (S.clip e.X)) := by
  obtain ⟨p, p1, p2, p3, p4, p5, p6, p7⟩ := solveL_inv h
  refine ⟨(p, S.lam p.sol p.bx), by rw [conductivity, p1]; rfl, p2, fun k => ?_, fun c d => ?_⟩
  · obtain ⟨a, b, c⟩ := p5 k
    exact ⟨a, by rw [b, c]⟩
  · obtain ⟨b, c⟩ := p6 c d
    simp only [b, c]

theorem thermalDiff_aux {e : Env S.Comp S.Rest} {o : Obj S} (h : Inv (e, o)) :
    ∃ p, thermalDiff e o = .ok p ∧ Inv (e, p.1) ∧ p.1.x = S.clip e.X ∧
    p.1.off = (updateThermalT e o).off ∧ p.1.temp = (updateThermalT e o).temp ∧
    (Keep o → Keep p.1 ∧ p.2 = S.dtherm (fullSol o.coef e.T (S.clip e.X)) (S.clip e.X)) ∧
    (o.tlast ≠ e.T → o.temp ≠ e.T → p.2 = S.dtherm (fullSol o.coef e.T (S.clip e.X)) (S.clip e.X)) := by
  obtain ⟨p, p1, p2, p3, p4, p5, p6, p7, p8⟩ := solveL_inv h
  refine ⟨(p, S.dtherm p.sol p.x), by rw [thermalDiff, p1]; rfl, p2, p3, p7, p8, fun k => ?_, fun c d => ?_⟩
  · obtain ⟨a, b, c⟩ := p5 k
    exact ⟨a, by rw [b, p3]⟩
  · obtain ⟨b, c⟩ := p6 c d
    simp only [b, p3]

theorem viscosity_aux {e : Env S.Comp S.Rest} {o : Obj S} (h : Inv (e, o)) :
    ∃ p, viscosity e o = .ok p ∧ Inv (e, p.1) ∧
      p.2 = S.mu (S.visc o.coef e.T) (S.phi (S.visc o.coef e.T)) (S.clip e.X) ∧
      (Keep o → (o.tlast = e.T ∨ o.tlast ≤ 0) → Keep p.1) := by
  have hT : 0 < e.T := h.T
  obtain ⟨t1, t2, t3, t4, t5⟩ := updateT_spec h
  obtain ⟨q, q1, q2, q3, q4, q5, q6, q7, q8, q9, q10, q11⟩ := updateC_spec t5
  rw [t1] at q4; rw [t2] at q5; rw [t4] at q6
  have kq : Keep o → (o.tlast = e.T ∨ o.tlast ≤ 0) → Keep q := by
    intro k c
    refine q8 ?_
    by_cases d : o.temp = e.T
    · rw [idem d h.n]; exact k
    · rw [updateT_new h.n d]
      refine ⟨fun c0 => ?_, by simp⟩
      rcases c with c | c
      · exact absurd ((k.th c0).1.trans c) d
      · exact absurd c (not_le.2 c0)
  rw [viscosity, q1]
  simp only [Outcome.bind, updateViscosityT, updateSpeciesViscosities, idem q4 q2.n]
  have w := q2.wt
  have s := q2.vis
  simp only at w s
  rw [q5, q6] at w s
  cases cw : q.viscwtOk
  · cases cs : q.spviscOk
    · simp only [Bool.false_eq_true, if_false]
      refine ⟨_, rfl, ⟨q2.T, q2.n, q2.tv, fun _ => rfl, fun _ => ⟨rfl, rfl⟩, q2.bd⟩, by simp only [q5, q6, q3], fun k c => ?_⟩
      have k' := kq k c
      refine ⟨fun c0 => ?_, k'.sol⟩
      obtain ⟨r1, r2, r3, r4⟩ := k'.th c0
      exact ⟨r1, r2, by simp only [r2], r4⟩
    · simp only [Bool.false_eq_true, if_false, if_true]
      have s1 := s cs
      refine ⟨_, rfl, ⟨q2.T, q2.n, q2.tv, q2.vis, fun _ => ⟨q2.vis cs, ?_⟩, q2.bd⟩, by simp only [s1, q3], fun k c => ?_⟩
      · simp only [s1, q5, q6]
      · have k' := kq k c
        exact ⟨k'.th, k'.sol⟩
  · simp only [if_true]
    obtain ⟨w1, w2⟩ := w cw
    exact ⟨_, rfl, q2, by simp only [w1, w2, q3], kq⟩

theorem updateDiff_spec {e : Env S.Comp S.Rest} {o : Obj S} (h : Inv (e, o)) : Inv (e, updateDiffT e o) ∧
    (updateDiffT e o).off = S.off o.coef e.T ∧ (updateDiffT e o).temp = e.T ∧ (updateDiffT e o).coef = o.coef ∧
    (updateDiffT e o).diag = S.diagFit o.coef e.T ∧ (updateDiffT e o).tlast = (updateT e o).tlast ∧
    (updateDiffT e o).x = (updateT e o).x ∧ (updateDiffT e o).solnOk = (updateT e o).solnOk := by
  obtain ⟨t1, t2, t3, t4, t5⟩ := updateT_spec h
  simp only [updateDiffT]
  exact ⟨⟨t5.T, t5.n, t5.tv, t5.vis, t5.wt, fun _ => ⟨rfl, Or.inl rfl⟩⟩, by rw [t2, t4], t1, t4, by rw [t2, t4], trivial, trivial, trivial⟩

theorem binary_aux {e : Env S.Comp S.Rest} {o : Obj S} (h : Inv (e, o)) :
    ∃ p, binary e o = .ok p ∧ Inv (e, p.1) ∧ (p.2 = S.binary (S.off o.coef e.T) (S.diagFit o.coef e.T) e.rest ∨
      p.2 = S.binary (S.off o.coef e.T) (S.diagTherm e.T (S.visc o.coef e.T) (S.star o.coef e.T e.T)) e.rest) ∧
      (Keep o → (o.tlast = e.T ∨ o.tlast ≤ 0) → Keep p.1) := by
  have hT : 0 < e.T := h.T
  obtain ⟨t1, t2, t3, t4, t5⟩ := updateT_spec h
  simp only [binary]
  refine ⟨_, rfl, ?_⟩
  have kq : Keep o → (o.tlast = e.T ∨ o.tlast ≤ 0) → Keep (updateT e o) ∧ (0 < o.tlast → (updateT e o).bindiffOk = true) ∧
      (updateT e o).tlast = o.tlast := by
    intro k c
    by_cases d : o.temp = e.T
    · rw [idem d h.n]; exact ⟨k, fun c0 => (k.th c0).2.2.2.2.2.2, rfl⟩
    · rw [updateT_new h.n d]
      refine ⟨⟨fun c0 => ?_, by simp⟩, fun c0 => ?_, rfl⟩ <;>
      · rcases c with c | c
        · exact absurd ((k.th c0).1.trans c) d
        · exact absurd c (not_le.2 c0)
  cases cb : (updateT e o).bindiffOk
  · simp only [Bool.false_eq_true, if_false]
    obtain ⟨d1, d2, d3, d4, d5, d6, d7, d8⟩ := updateDiff_spec t5
    rw [t4] at d2 d5
    refine ⟨d1, Or.inl (by rw [d2, d5]), fun k c => ?_⟩
    obtain ⟨k1, k2, k3⟩ := kq k c
    have : ¬ 0 < o.tlast := fun c0 => by rw [k2 c0] at cb; simp at cb
    rw [idem t1 t3] at d6 d8
    refine ⟨fun c0 => ?_, fun c0 => ?_⟩
    · rw [d6, k3] at c0; exact absurd c0 this
    · rw [d8] at c0
      have := (k1.sol c0).1
      rw [k3] at this
      contradiction
  · simp only [if_true]
    obtain ⟨b1, b2⟩ := t5.bd cb
    simp only at b1 b2
    rw [t2, t4] at b1 b2
    refine ⟨t5, ?_, fun k c => (kq k c).1⟩
    rcases b2 with b2 | b2
    · exact Or.inl (by rw [b1, b2])
    · exact Or.inr (by rw [b1, b2])

theorem multiDiff_aux {e : Env S.Comp S.Rest} {o : Obj S} (h : Inv (e, o)) :
    ∃ p, multiDiff e o = .ok p ∧ Inv (e, p.1) ∧ (Keep o ∨ o.tlast ≠ e.T → p.2 = S.multi e.T (S.off o.coef e.T)
      (S.diagTherm e.T (S.visc o.coef e.T) (S.star o.coef e.T e.T)) (S.clip e.X) e.rest) ∧ (Keep o → Keep p.1) := by
  have hT : 0 < e.T := h.T
  obtain ⟨q, q1, q2, q3, q4, q5, q6, q7, q8, q9, q10, q11⟩ := updateC_spec h
  obtain ⟨t1, t2, t3, t4, t5⟩ := updateT_spec q2
  rw [q6] at t4
  have tl : (updateT e q).tlast = o.tlast ∧ (updateT e q).x = q.x := by
    by_cases d : q.temp = e.T
    · rw [idem d q2.n]; exact ⟨q7, rfl⟩
    · rw [updateT_new q2.n d]; exact ⟨q7, rfl⟩
  rw [multiDiff, q1]
  simp only [Outcome.bind]
  refine ⟨_, rfl, ?_, ?_, ?_⟩
  · have := thermal_inv t5
    exact ⟨this.T, this.n, this.tv, this.vis, this.wt, this.bd⟩
  · intro c
    by_cases d : o.tlast = e.T
    · have k : Keep o := by
        rcases c with c | c
        · exact c
        · exact absurd d c
      have d' : (updateT e q).tlast = e.T := tl.1.trans d
      simp only [updateThermalT, if_pos d']
      have d0 : 0 < q.tlast := by rw [q7, d]; exact hT
      obtain ⟨r1, r2, r3, r4, r5, r6, r7⟩ := (q8 k).th d0
      rw [q7, d] at r1 r4 r6
      rw [q6] at r4 r6
      rw [idem r1 q2.n, r1, r4, r6, q3]
    · have d' : (updateT e q).tlast ≠ e.T := by rw [tl.1]; exact d
      obtain ⟨p1, p2, p3, p4, p5, p6, p7, p8, p9, p10, p11, p12, p13, p14, p15⟩ := thermal_new t5 d'
      rw [p2, p7, p9, p12, t4, idem t1 t3, tl.2, q3]
  · intro k
    by_cases d : q.temp = e.T
    · rw [idem d q2.n]
      obtain ⟨a, _⟩ := thermal_keep q2 (q8 k)
      exact ⟨a.th, by simp⟩
    · have d0 : (updateT e q).tlast ≠ e.T ∨ (updateT e q).tlast = e.T := ne_or_eq _ _
      rcases d0 with d0 | d0
      · obtain ⟨p1, p2, p3, p4, p5, p6, p7, p8, p9, p10, p11, p12, p13, p14, p15⟩ := thermal_new t5 d0
        refine ⟨fun _ => ?_, by simp⟩
        simp only
        rw [p5, p4]
        exact ⟨p2, p3, p6, p7, p8, p9, p10⟩
      · exfalso
        have d1 : q.tlast = e.T := by rw [q7, ← tl.1]; exact d0
        exact d (((q8 k).th (by rw [d1]; exact hT)).1.trans d1)

/-- Fluxes without temperature gradient: binary coefficients of the current temperature, mole fractions as stored by the last
query that updated them. -/
theorem fluxes_iso {e : Env S.Comp S.Rest} {o : Obj S} (h : Inv (e, o)) :
    ∃ p, fluxes false e o = .ok p ∧ Inv (e, p.1) ∧ p.2 = S.flux (S.off o.coef e.T) o.x e.T none e.rest ∧
      (Keep o → o.tlast ≤ 0 → Keep p.1) := by
  obtain ⟨t1, t2, t3, t4, t5⟩ := updateT_spec h
  obtain ⟨d1, d2, d3, d4, d5, d6, d7, d8⟩ := updateDiff_spec t5
  have tx : (updateT e o).x = o.x ∧ (updateT e o).tlast = o.tlast ∧ (o.solnOk = false → (updateT e o).solnOk = false) := by
    by_cases d : o.temp = e.T
    · rw [idem d h.n]; exact ⟨rfl, rfl, id⟩
    · rw [updateT_new h.n d]; exact ⟨rfl, rfl, fun _ => rfl⟩
  simp only [fluxes, Bool.false_eq_true, if_false]
  refine ⟨_, rfl, d1, by rw [d2, d3, d7, idem t1 t3, tx.1, t4], fun k c => ?_⟩
  rw [idem t1 t3] at d6 d8
  have so : o.solnOk = false := by
    by_contra q
    rw [Bool.not_eq_false] at q
    exact absurd (k.sol q).1 (not_lt.2 c)
  refine ⟨fun c0 => ?_, fun c0 => ?_⟩
  · rw [d6, tx.2.1] at c0; exact absurd c0 (not_lt.2 c)
  · rw [d8, tx.2.2 so] at c0; simp at c0

/-- Fluxes with temperature gradient use the current mole fractions. -/
theorem fluxes_thermal {e : Env S.Comp S.Rest} {o : Obj S} (h : Inv (e, o)) :
    ∃ p d, fluxes true e o = .ok p ∧ Inv (e, p.1) ∧ p.2 = S.flux (S.off o.coef e.T) (S.clip e.X) e.T (some d) e.rest := by
  obtain ⟨t1, t2, t3, t4, t5⟩ := updateT_spec h
  obtain ⟨d1, d2, d3, d4, d5, d6, d7, d8⟩ := updateDiff_spec t5
  obtain ⟨p, p1, p2, p3, p4, p5, _⟩ := thermalDiff_aux d1
  have th : (updateThermalT e (updateDiffT e (updateT e o))).off = S.off o.coef e.T ∧
      (updateThermalT e (updateDiffT e (updateT e o))).temp = e.T := by
    by_cases c : (updateDiffT e (updateT e o)).tlast = e.T
    · rw [updateThermalT, if_pos c]; exact ⟨d2.trans (by rw [t4]), d3⟩
    · obtain ⟨r1, r2, r3, r4, r5, r6, r7, _⟩ := thermal_new d1 c
      exact ⟨by rw [r7, d4, t4], r2⟩
  simp only [fluxes, if_true, p1, Outcome.bind]
  exact ⟨_, p.2, rfl, p2, by simp only [p4, p5, th.1, th.2, p3]⟩

theorem step_inv {s : Env S.Comp S.Rest × Obj S} (h : Inv s) {op : Op S} (ho : op.Ok) : ∃ s', step s op = .ok s' ∧ Inv s' ∧
    (Keep s.2 → Safe s op → Keep s'.2) := by
  obtain ⟨e, o⟩ := s
  cases op with
  | state T X r => exact ⟨_, rfl, ⟨ho, h.n, h.tv, h.vis, h.wt, h.bd⟩, fun k _ => k⟩
  | species X r => exact absurd ho (by simp [Op.Ok])
  | poly f =>
    refine ⟨_, rfl, ⟨h.T, h.n, ?_, by simp [invalidate], by simp [invalidate], by simp [invalidate]⟩, fun _ _ => ⟨?_, ?_⟩⟩
    · simp only [invalidate]; intro q; norm_num at q
    · simp only [invalidate]; intro q; norm_num at q
    · simp [invalidate]
  | viscosity =>
    obtain ⟨p, p1, p2, _, p4⟩ := viscosity_aux h
    exact ⟨(e, p.1), by simp only [step, p1, Outcome.bind], p2, p4⟩
  | conductivity =>
    obtain ⟨p, p1, p2, p3, _⟩ := conductivity_aux h
    exact ⟨(e, p.1), by simp only [step, p1, Outcome.bind], p2, fun k _ => (p3 k).1⟩
  | thermalDiff =>
    obtain ⟨p, p1, p2, _, _, _, p3, _⟩ := thermalDiff_aux h
    exact ⟨(e, p.1), by simp only [step, p1, Outcome.bind], p2, fun k _ => (p3 k).1⟩
  | binary =>
    obtain ⟨p, p1, p2, _, p4⟩ := binary_aux h
    exact ⟨(e, p.1), by simp only [step, p1, Outcome.bind], p2, p4⟩
  | multiDiff =>
    obtain ⟨p, p1, p2, _, p4⟩ := multiDiff_aux h
    exact ⟨(e, p.1), by simp only [step, p1, Outcome.bind], p2, fun k _ => p4 k⟩
  | fluxes th =>
    cases th
    · obtain ⟨p, p1, p2, _, p4⟩ := fluxes_iso h
      exact ⟨(e, p.1), by simp only [step, p1, Outcome.bind], p2, fun k f => p4 k f.2⟩
    · obtain ⟨p, d, p1, p2, _⟩ := fluxes_thermal h
      exact ⟨(e, p.1), by simp only [step, p1, Outcome.bind], p2, fun _ f => absurd f.1 (by simp)⟩

/-- All calls of a sequence are safe in the state in which they are made. -/
def SafeRun : Env S.Comp S.Rest × Obj S → List (Op S) → Prop
  | _, [] => True
  | s, op :: h => Safe s op ∧ ∀ s', step s op = .ok s' → SafeRun s' h

theorem run_inv {s : Env S.Comp S.Rest × Obj S} (i : Inv s) {h : List (Op S)} (hk : ∀ op ∈ h, op.Ok) :
    ∃ s', run s h = .ok s' ∧ Inv s' ∧ (Keep s.2 → SafeRun s h → Keep s'.2) := by
  induction h generalizing s with
  | nil => exact ⟨s, rfl, i, fun k _ => k⟩
  | cons op h ih =>
    obtain ⟨s1, a, b, c⟩ := step_inv i (hk op (by simp))
    obtain ⟨s2, d, f, g⟩ := ih b (fun o ho => hk o (by simp [ho]))
    exact ⟨s2, by simp only [run, a, Outcome.bind, d], f, fun k r => g (c k r.1) (r.2 s1 a)⟩

section
variable {e₀ : Env S.Comp S.Rest} (hT : 0 < e₀.T) (v0 : S.Vis) (p0 : S.Phi) (f0 : S.Off) (g0 : S.Dg) (r0 : S.Star) (x0 : S.Comp)
  (s0 : S.Sol)

theorem fresh_inv (hT : 0 < e₀.T) : Inv (e₀, fresh e₀.n v0 p0 f0 g0 r0 x0 s0) ∧ Keep (fresh e₀.n v0 p0 f0 g0 r0 x0 s0) := by
  refine ⟨⟨hT, rfl, ?_, by simp [fresh], by simp [fresh], by simp [fresh]⟩, ?_, by simp [fresh]⟩
  · simp only [fresh]; intro q; norm_num at q
  · simp only [fresh]; intro q; norm_num at q

variable {h : List (Op S)} (hk : ∀ op ∈ h, op.Ok)
include hT hk

/-- Without new species no sequence of calls fails. -/
theorem run_ok : ∃ s, run (e₀, fresh e₀.n v0 p0 f0 g0 r0 x0 s0) h = .ok s :=
  let ⟨s, a, _⟩ := run_inv (fresh_inv v0 p0 f0 g0 r0 x0 s0 hT).1 hk
  ⟨s, a⟩

variable {e : Env S.Comp S.Rest} {o : Obj S} (hr : run (e₀, fresh e₀.n v0 p0 f0 g0 r0 x0 s0) h = .ok (e, o))
include hr

/-- The viscosity depends only on the current state, whatever was done before. -/
theorem viscosity_current : ∃ q, viscosity e o = .ok (q, S.mu (S.visc o.coef e.T) (S.phi (S.visc o.coef e.T)) (S.clip e.X)) := by
  obtain ⟨s, a, b, _⟩ := run_inv (fresh_inv v0 p0 f0 g0 r0 x0 s0 hT).1 hk
  rw [hr] at a; cases a
  obtain ⟨p, p1, _, p3, _⟩ := viscosity_aux b
  exact ⟨p.1, by rw [p1, ← p3]⟩

/-- The binary coefficients of different species too; the self-diffusion coefficients are one of two values. -/
theorem binary_current : ∃ q d, binary e o = .ok (q, S.binary (S.off o.coef e.T) d e.rest) ∧
    (d = S.diagFit o.coef e.T ∨ d = S.diagTherm e.T (S.visc o.coef e.T) (S.star o.coef e.T e.T)) := by
  obtain ⟨s, a, b, _⟩ := run_inv (fresh_inv v0 p0 f0 g0 r0 x0 s0 hT).1 hk
  rw [hr] at a; cases a
  obtain ⟨p, p1, _, p3, _⟩ := binary_aux b
  rcases p3 with p3 | p3
  · exact ⟨p.1, _, by rw [p1, ← p3], Or.inl rfl⟩
  · exact ⟨p.1, _, by rw [p1, ← p3], Or.inr rfl⟩

/-- After any sequence of calls the conductivity is right if the temperature differs from the temperature of the last thermal
query and from the temperature of the last query. -/
theorem conductivity_changed (h1 : o.tlast ≠ e.T) (h2 : o.temp ≠ e.T) :
    ∃ q, conductivity e o = .ok (q, S.lam (fullSol o.coef e.T (S.clip e.X)) (S.clip e.X)) := by
  obtain ⟨s, a, b, _⟩ := run_inv (fresh_inv v0 p0 f0 g0 r0 x0 s0 hT).1 hk
  rw [hr] at a; cases a
  obtain ⟨p, p1, _, _, p4⟩ := conductivity_aux b
  exact ⟨p.1, by rw [p1, ← p4 h1 h2]⟩

/-- The multicomponent diffusion coefficients are right if the temperature differs from that of the last thermal query. -/
theorem multiDiff_changed (h1 : o.tlast ≠ e.T) : ∃ q, multiDiff e o = .ok (q, S.multi e.T (S.off o.coef e.T)
    (S.diagTherm e.T (S.visc o.coef e.T) (S.star o.coef e.T e.T)) (S.clip e.X) e.rest) := by
  obtain ⟨s, a, b, _⟩ := run_inv (fresh_inv v0 p0 f0 g0 r0 x0 s0 hT).1 hk
  rw [hr] at a; cases a
  obtain ⟨p, p1, _, p3, _⟩ := multiDiff_aux b
  exact ⟨p.1, by rw [p1, ← p3 (Or.inr h1)]⟩

/-- In safe histories all thermal queries are right. -/
theorem safe_current (hs : SafeRun (e₀, fresh e₀.n v0 p0 f0 g0 r0 x0 s0) h) :
    (∃ q, conductivity e o = .ok (q, S.lam (fullSol o.coef e.T (S.clip e.X)) (S.clip e.X))) ∧
    (∃ q, thermalDiff e o = .ok (q, S.dtherm (fullSol o.coef e.T (S.clip e.X)) (S.clip e.X))) ∧
    (∃ q, multiDiff e o = .ok (q, S.multi e.T (S.off o.coef e.T)
      (S.diagTherm e.T (S.visc o.coef e.T) (S.star o.coef e.T e.T)) (S.clip e.X) e.rest)) := by
  obtain ⟨fi, fk⟩ := fresh_inv v0 p0 f0 g0 r0 x0 s0 hT
  obtain ⟨s, a, b, c⟩ := run_inv fi hk
  rw [hr] at a; cases a
  have k := c fk hs
  obtain ⟨p, p1, _, p3, _⟩ := conductivity_aux b
  obtain ⟨q, q1, _, _, _, _, q3, _⟩ := thermalDiff_aux b
  obtain ⟨r, r1, _, r3, _⟩ := multiDiff_aux b
  exact ⟨⟨p.1, by rw [p1, ← (p3 k).2]⟩, ⟨q.1, by rw [q1, ← (q3 k).2]⟩, ⟨r.1, by rw [r1, ← r3 (Or.inl k)]⟩⟩

end

/-- In particular histories with thermal queries only. -/
theorem safe_thermal {h : List (Op S)} (ht : ∀ op ∈ h, op = .conductivity ∨ op = .thermalDiff ∨ op = .multiDiff ∨
    (∃ T X r, op = .state T X r) ∨ ∃ f, op = .poly f) (s : Env S.Comp S.Rest × Obj S) : SafeRun s h := by
  induction h generalizing s with
  | nil => trivial
  | cons op h ih =>
    refine ⟨?_, fun s' _ => ih (fun o ho => ht o (by simp [ho])) s'⟩
    rcases ht op (by simp) with c | c | c | ⟨T, X, r, c⟩ | ⟨f, c⟩ <;> subst c <;> trivial

/-- After a species was added, a thermal query at the same temperature and any query of the multicomponent diffusion
coefficients write beyond the end of the array of mole fractions. -/
theorem species_ub (e : Env S.Comp S.Rest) (o : Obj S) (hn : o.nsp < e.n) :
    multiDiff e o = .ub ∧ (o.tlast = e.T → conductivity e o = .ub ∧ thermalDiff e o = .ub) := by
  refine ⟨by rw [multiDiff, updateC, if_pos hn]; rfl, fun t => ?_⟩
  have : solveL e o = .ub := by rw [solveL, updateThermalT, if_pos t, updateC, if_pos hn]; rfl
  exact ⟨by rw [conductivity, this]; rfl, by rw [thermalDiff, this]; rfl⟩

/-- Once the temperature was updated after the addition (for example by a viscosity query) the conductivity is right again. -/
theorem species_recover {e : Env S.Comp S.Rest} {o : Obj S} (hT : 0 < e.T) (hn : o.nsp ≠ e.n) (htv : 0 < o.temp → o.tv = o.temp) :
    ∃ q, conductivity e (updateT e o) = .ok (q, S.lam (fullSol (S.fit e.n) e.T (S.clip e.X)) (S.clip e.X)) := by
  have u : (updateT e o).temp = e.T ∧ (updateT e o).tv = e.T ∧ (updateT e o).nsp = e.n ∧ (updateT e o).coef = S.fit e.n ∧
      (updateT e o).tlast = -999.1234 ∧ (updateT e o).solnOk = false := by
    rw [updateT, if_neg (fun c => hn c.2)]
    simp only [gasUpdateT, ne_eq, Ne.symm hn, not_false_eq_true, if_true, init]
    by_cases t : e.T = o.temp
    · rw [if_pos t]; exact ⟨t.symm, by rw [t]; exact htv (by rw [← t]; exact hT), rfl, rfl, rfl, trivial⟩
    · rw [if_neg t]; exact ⟨rfl, rfl, rfl, rfl, rfl, trivial⟩
  generalize updateT e o = p at u
  obtain ⟨u1, u2, u3, u4, u5, u6⟩ := u
  have ne : p.tlast ≠ e.T := by rw [u5]; intro q; rw [← q] at hT; norm_num at hT
  have i1 : updateT e p = p := idem u1 u3
  have i2 : updateT e { p with visc := S.visc p.coef p.tv, spviscOk := true } =
    { p with visc := S.visc p.coef p.tv, spviscOk := true } := idem u1 u3
  have nl : ¬ p.nsp < e.n := by rw [u3]; exact lt_irrefl _
  simp only [conductivity, solveL, updateThermalT, if_neg ne, updateDiffT, updateSpeciesViscosities, i1, i2]
  simp only [updateC, if_neg nl, Outcome.bind, u6, ite_self, Bool.false_eq_true, if_false, fullSol, u1, u2, u4]
  exact ⟨_, rfl⟩

/-- Results that show what they were computed from: temperature of the prefactors, of the viscosities, of the diffusion
coefficients, of the self-diffusion coefficients (`true` if they follow from the viscosities), of the collision integrals;
mole fractions. -/
abbrev trace : Sys where
  Comp := ℕ
  Rest := Unit
  Coef := ℕ
  Vis := ℝ
  Phi := ℝ
  Off := ℝ
  Dg := ℝ × Bool
  Star := ℝ
  Sol := ℝ × ℝ × ℝ × (ℝ × Bool) × ℝ × ℕ
  Val := ℝ × ℝ × ℝ × (ℝ × Bool) × ℝ × ℕ
  fit := id
  visc := fun _ t => t
  phi := id
  off := fun _ t => t
  diagFit := fun _ t => (t, false)
  star := fun _ t _ => t
  diagTherm := fun t _ _ => (t, true)
  clip := id
  perturb := id
  sol := fun t v o d s x => (t, v, o, d, s, x)
  mu := fun v _ x => (0, v, 0, (0, false), 0, x)
  binary := fun o d _ => (0, 0, o, d, 0, 0)
  lam := fun s _ => s
  dtherm := fun s _ => s
  multi := fun t o d x _ => (t, 0, o, d, 0, x)
  flux := fun o x t _ _ => (t, 0, o, (0, false), 0, x)
  resizeVis := id
  resizePhi := id
  resizeOff := fun t => -t
  resizeDg := id
  resizeStar := id

/-- A new object of these. -/
noncomputable def traceObj (n : ℕ) : Obj trace := fresh (S := trace) n (0 : ℝ) (0 : ℝ) (0 : ℝ) ((0 : ℝ), false) (0 : ℝ) (0 : ℕ) ((0 : ℝ), (0 : ℝ), (0 : ℝ), ((0 : ℝ), false), (0 : ℝ), (0 : ℕ))

/-- Value of a query after a sequence of calls. -/
noncomputable def ask (h : List (Op trace)) (q : Env trace.Comp trace.Rest → Obj trace → Outcome (Obj trace × trace.Val)) : Outcome trace.Val :=
  (run ((⟨300, (5 : ℕ), (), 2⟩ : Env trace.Comp trace.Rest), traceObj 2) h).bind fun s => (q s.1 s.2).bind fun r => .ok r.2

/-- A conductivity query, a viscosity query at another temperature, and a conductivity query at the first temperature: the
equations are set up with the first temperature for the diffusion coefficients and with the second one for viscosities and
prefactors. -/
theorem conductivity_mixed :
    ask [.conductivity, .state 400 (5 : ℕ) (), .viscosity, .state 300 (5 : ℕ) ()] (conductivity (S := trace)) =
      .ok (400, 400, 300, (300, true), 300, 5) := by
  simp [ask, run, step, conductivity, viscosity, solveL, updateC, updateThermalT, updateDiffT, updateSpeciesViscosities,
    updateViscosityT, updateT, gasUpdateT, traceObj, fresh, Outcome.bind]
  try norm_num

/-- The next query, at the second temperature, returns the same value: the solution is not recomputed. -/
theorem conductivity_stale :
    ask [.conductivity, .state 400 (5 : ℕ) (), .viscosity, .state 300 (5 : ℕ) (), .conductivity, .state 400 (5 : ℕ) ()] (conductivity (S := trace)) =
      .ok (400, 400, 300, (300, true), 300, 5) := by
  simp [ask, run, step, conductivity, viscosity, solveL, updateC, updateThermalT, updateDiffT, updateSpeciesViscosities,
    updateViscosityT, updateT, gasUpdateT, traceObj, fresh, Outcome.bind]
  try norm_num

/-- Multicomponent diffusion coefficients with binary coefficients of another temperature. -/
theorem multiDiff_mixed :
    ask [.multiDiff, .state 400 (5 : ℕ) (), .binary, .state 300 (5 : ℕ) ()] (multiDiff (S := trace)) = .ok (300, 0, 400, (400, false), 0, 5) := by
  simp [ask, run, step, multiDiff, binary, updateC, updateThermalT, updateDiffT, updateSpeciesViscosities,
    updateT, gasUpdateT, traceObj, fresh, Outcome.bind]
  try norm_num

/-- A flux query replaces the self-diffusion coefficients used in the L matrix. -/
theorem conductivity_after_fluxes :
    ask [.conductivity, .fluxes false, .state 300 (6 : ℕ) ()] (conductivity (S := trace)) = .ok (300, 300, 300, (300, false), 300, 6) := by
  simp [ask, run, step, conductivity, fluxes, solveL, updateC, updateThermalT, updateDiffT, updateSpeciesViscosities,
    updateT, gasUpdateT, traceObj, fresh, Outcome.bind]
  try norm_num

/-- Self-diffusion coefficients depend on what was asked before. -/
theorem binary_history : ask [] (binary (S := trace)) = .ok (0, 0, 300, (300, false), 0, 0) ∧
    ask [.conductivity] (binary (S := trace)) = .ok (0, 0, 300, (300, true), 0, 0) := by
  constructor <;>
  simp [ask, run, step, conductivity, binary, solveL, updateC, updateThermalT, updateDiffT, updateSpeciesViscosities,
    updateT, gasUpdateT, traceObj, fresh, Outcome.bind] <;>
  try norm_num

/-- Fluxes without temperature gradient use old mole fractions (5 instead of 6), or those of a new object (0). -/
theorem fluxes_stale : ask [.conductivity, .state 300 (6 : ℕ) ()] (fluxes (S := trace) false) = .ok (300, 0, 300, (0, false), 0, 5) ∧
    ask [] (fluxes (S := trace) false) = .ok (300, 0, 300, (0, false), 0, 0) := by
  constructor <;>
  simp [ask, run, step, conductivity, fluxes, solveL, updateC, updateThermalT, updateDiffT, updateSpeciesViscosities,
    updateT, gasUpdateT, traceObj, fresh, Outcome.bind] <;>
  try norm_num

/-- A new species at the same temperature: the binary coefficients are not computed again (the entries were moved). -/
theorem binary_species : ask [.binary, .species (5 : ℕ) ()] (binary (S := trace)) = .ok (0, 0, -300, (300, false), 0, 0) := by
  simp [ask, run, step, binary, updateDiffT, updateT, gasUpdateT, traceObj, fresh, init, Outcome.bind]
  try norm_num

/-- And a thermal query writes out of bounds. -/
theorem conductivity_species : ask [.conductivity, .species (5 : ℕ) ()] (conductivity (S := trace)) = .ub := by
  simp [ask, run, step, conductivity, solveL, updateC, updateThermalT, updateDiffT, updateSpeciesViscosities,
    updateT, gasUpdateT, traceObj, fresh, Outcome.bind]
  try norm_num

/-- Safe histories exist. -/
example : SafeRun ((⟨300, (5 : ℕ), (), 2⟩ : Env ℕ Unit), traceObj 2) [.conductivity, .state 400 (5 : ℕ) (), .multiDiff] :=
  safe_thermal (by simp) _

end Multi

end Verif.Transport.Cache
