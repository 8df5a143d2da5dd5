import Mathlib.Data.Real.Basic
import Mathlib.Analysis.Real.Sqrt
import Mathlib.Tactic.Common
import Mathlib.Tactic.SplitIfs
import Mathlib.Tactic.Linarith
import Mathlib.Tactic.NormNum

/-!
# C45: `MultiPhase::equilibrate_MultiPhaseEquil` (MultiPhase.cpp:487-645)

The mixture is an arbitrary state `S` with oracles for the fixed-T,P solver, the thermodynamic
functions and the setters.  Reals for doubles; a division by the target value zero gives NaN or
infinity in the code and is treated as "not below the tolerance".  The other divisions only influence
the next temperature or pressure.
-/

namespace Verif.Gibbs

/-- What the loops use.  The `Bool` of a result is true when the call threw. -/
structure Orc (S : Type) where
  /-- constructor of `MultiPhaseEquil` with the flag `strt` -/
  ctor : Bool → S → S × Bool
  /-- `e.equilibrate(TP, ...)` -/
  eq : S → S × Bool
  H : S → ℝ
  Sx : S → ℝ
  V : S → ℝ
  cp : S → ℝ
  T : S → ℝ
  P : S → ℝ
  setT : S → ℝ → S × Bool
  setP : S → ℝ → S × Bool

variable {S : Type}

/-- Outcome of the function: the final state, and the value returned or an exception -/
inductive Out (S : Type)
  | ret (s : S) (v : ℝ)
  | threw (s : S)

/-- `fabs((x0 - x)/x0) < err` -/
def conv (x0 x err : ℝ) : Prop := x0 ≠ 0 ∧ |(x0 - x) / x0| < err

/-- Loop variables of the HP branch -/
structure HV where
  Tlow : ℝ
  Thigh : ℝ
  Hlow : Option ℝ
  Hhigh : Option ℝ
  dta : ℝ
  strt : Bool

/-- Bracket update (MultiPhase.cpp:518-530) -/
noncomputable def bracket (h0 hnow T : ℝ) (v : HV) : HV :=
  if hnow < h0 then
    if v.Tlow < T then
      { v with
        Tlow := T
        Hlow := some hnow }
    else v
  else if T < v.Thigh then
    { v with
      Thigh := T
      Hhigh := some hnow }
  else v

/-- Temperature step and `dta` (MultiPhase.cpp:531-543) -/
noncomputable def hpStep (h0 hnow T : ℝ) (v : HV) : ℝ × ℝ :=
  match v.Hlow, v.Hhigh with
  | some hl, some hh =>
    let cpb := (hh - hl) / (v.Thigh - v.Tlow)
    let dt := (h0 - hnow) / cpb
    let dtmax := 1/2 * |v.Thigh - v.Tlow|
    (if dtmax < |dt| then dt * (dtmax / |dt|) else dt, |dt|)
  | _, _ => (Real.sqrt (v.Tlow * v.Thigh) - T, v.dta)

/-- The catch block (MultiPhase.cpp:562-572) -/
noncomputable def hpCatch (o : Orc S) (s : S) (v : HV) : (S × Bool) × HV :=
  if v.strt then
    let t0 := 1/2 * (o.T s + v.Thigh)
    (o.setT s (if |t0 - o.T s| < 1 then o.T s + 1 else t0), v)
  else ((s, false), { v with strt := true })

open Classical in
/-- HP branch (MultiPhase.cpp:500-575) -/
noncomputable def hpLoop (o : Orc S) (h0 err : ℝ) : ℕ → S → HV → Out S
  | 0, s, _ => .threw s
  | n + 1, s, v =>
    let c := o.ctor v.strt s
    if c.2 then .threw c.1
    else
      let e := o.eq c.1
      if e.2 then
        let r := hpCatch o e.1 v
        if r.1.2 then .threw r.1.1 else hpLoop o h0 err n r.1.1 r.2
      else
        let hnow := o.H e.1
        let v1 := bracket h0 hnow (o.T e.1) v
        let d := hpStep h0 hnow (o.T e.1) v1
        let v2 := { v1 with dta := d.2 }
        if conv h0 hnow err then .ret e.1 err
        else
          let tnew := o.T e.1 + d.1
          let r := o.setT e.1 (if tnew < 0 then 1/2 * o.T e.1 else tnew)
          if r.2 then
            let r2 := hpCatch o r.1 v2
            if r2.1.2 then .threw r2.1.1 else hpLoop o h0 err n r2.1.1 r2.2
          else hpLoop o h0 err n r.1 { v2 with strt := if d.2 < 100 then false else v2.strt }

/-- Loop variables of the SP branch -/
structure SV where
  Tlow : ℝ
  Thigh : ℝ
  strt : Bool

/-- SP branch (MultiPhase.cpp:576-619) -/
noncomputable def spLoop (o : Orc S) (s0 err : ℝ) : ℕ → S → SV → Out S
  | 0, s, _ => .threw s
  | n + 1, s, v =>
    let c := o.ctor v.strt s
    if c.2 then .threw c.1
    else
      let handler := fun (t : S) (v : SV) =>
        if v.strt then
          let r := o.setT t (1/2 * (o.T t + v.Thigh))
          if r.2 then .threw r.1 else spLoop o s0 err n r.1 v
        else spLoop o s0 err n t { v with strt := true }
      let e := o.eq c.1
      if e.2 then handler e.1 v
      else
        let snow := o.Sx e.1
        let v1 : SV := if snow < s0 then { v with Tlow := max v.Tlow (o.T e.1) }
          else { v with Thigh := min v.Thigh (o.T e.1) }
        let dt := (s0 - snow) * o.T e.1 / o.cp e.1
        let dtmax := min (1/2 * |v1.Thigh - v1.Tlow|) 500
        if o.cp e.1 ≠ 0 ∧ |dt| < 1 / 10000 then .ret e.1 err
        else
          let r := o.setT e.1 (o.T e.1 + if dtmax < |dt| then dt * (dtmax / |dt|) else dt)
          if r.2 then handler r.1 v1
          else spLoop o s0 err n r.1 { v1 with strt := if |dt| < 100 then false else v1.strt }

open Classical in
/-- TV branch (MultiPhase.cpp:620-639) and the final `return -1.0` -/
noncomputable def tvLoop (o : Orc S) (v0 err : ℝ) : ℕ → Bool → S → Out S
  | 0, _, s => .ret s (-1)
  | n + 1, start, s =>
    let pnow := o.P s
    let c := o.ctor start s
    if c.2 then .threw c.1
    else
      let e := o.eq c.1
      if e.2 then .threw e.1
      else
        let vnow := o.V e.1
        if conv v0 vnow err then .ret e.1 err
        else
          let r := o.setP e.1 (pnow * (101/100))
          if r.2 then .threw r.1
          else
            let dVdP := (o.V r.1 - vnow) / (1/100 * pnow)
            let r2 := o.setP r.1 (pnow + 1/2 * (v0 - vnow) / dVdP)
            if r2.2 then .threw r2.1 else tvLoop o v0 err n false r2.1

inductive XY
  | TP
  | HP
  | SP
  | TV
  | other

/-- MultiPhase::equilibrate_MultiPhaseEquil (MultiPhase.cpp:487-645) -/
noncomputable def equil (o : Orc S) (xy : XY) (err Tmin Tmax : ℝ) (maxiter : ℕ) (s : S) : Out S :=
  match xy with
  | .TP =>
    let c := o.ctor true s
    if c.2 then .threw c.1
    else
      let e := o.eq c.1
      if e.2 then .threw e.1 else .ret e.1 err
  | .HP => hpLoop o (o.H s) err maxiter s ⟨1/2 * Tmin, 2 * Tmax, none, none, 0, false⟩
  | .SP => spLoop o (o.Sx s) err maxiter s ⟨1, 1000000, false⟩
  | .TV => tvLoop o (o.V s) err maxiter true s
  | .other => .threw s

/-- The state was produced by a successful run of the fixed T,P solver. -/
def FromEq (o : Orc S) (t : S) : Prop := ∃ c, o.eq c = (t, false)

theorem hp_converged (o : Orc S) (h0 err : ℝ) : ∀ (n : ℕ) (s : S) (v : HV) (t : S) (x : ℝ),
    hpLoop o h0 err n s v = .ret t x → conv h0 (o.H t) err ∧ FromEq o t := by
  intro n
  induction n with
  | zero => intro s v t x h; simp [hpLoop] at h
  | succ n ih =>
    intro s v t x h
    simp only [hpLoop] at h
    split_ifs at h with h1 h2 h3 h4 h5 h6
    · exact ih _ _ _ _ h
    · simp only [Out.ret.injEq] at h
      obtain ⟨rfl, _⟩ := h
      refine ⟨h4, (o.ctor v.strt s).1, Prod.ext rfl (by simpa using h2)⟩
    all_goals exact ih _ _ _ _ h

theorem sp_converged (o : Orc S) (s0 err : ℝ) : ∀ (n : ℕ) (s : S) (v : SV) (t : S) (x : ℝ),
    spLoop o s0 err n s v = .ret t x →
      o.cp t ≠ 0 ∧ |(s0 - o.Sx t) * o.T t / o.cp t| < 1 / 10000 ∧ FromEq o t := by
  intro n
  induction n with
  | zero => intro s v t x h; simp [spLoop] at h
  | succ n ih =>
    intro s v t x h
    simp only [spLoop] at h
    by_cases h1 : (o.ctor v.strt s).2 = true
    · simp [h1] at h
    by_cases h2 : (o.eq (o.ctor v.strt s).1).2 = true
    · simp only [h1, h2, if_true, if_false, Bool.false_eq_true] at h
      split_ifs at h
      · exact ih _ _ _ _ h
      · exact ih _ _ _ _ h
    by_cases h4 : o.cp (o.eq (o.ctor v.strt s).1).1 ≠ 0 ∧
        |(s0 - o.Sx (o.eq (o.ctor v.strt s).1).1) * o.T (o.eq (o.ctor v.strt s).1).1 /
          o.cp (o.eq (o.ctor v.strt s).1).1| < 1 / 10000
    · simp only [h1, h2, if_false, Bool.false_eq_true] at h
      rw [if_pos h4] at h
      simp only [Out.ret.injEq] at h
      obtain ⟨rfl, _⟩ := h
      exact ⟨h4.1, h4.2, (o.ctor v.strt s).1, Prod.ext rfl (by simpa using h2)⟩
    · simp only [h1, h2, if_false, Bool.false_eq_true] at h
      rw [if_neg h4] at h
      generalize (if o.Sx (o.eq (o.ctor v.strt s).1).1 < s0 then
        ({ v with Tlow := max v.Tlow (o.T (o.eq (o.ctor v.strt s).1).1) } : SV)
        else { v with Thigh := min v.Thigh (o.T (o.eq (o.ctor v.strt s).1).1) }) = v1 at h
      split_ifs at h <;> exact ih _ _ _ _ h

theorem tv_converged (o : Orc S) (v0 err : ℝ) : ∀ (n : ℕ) (b : Bool) (s : S) (t : S) (x : ℝ),
    tvLoop o v0 err n b s = .ret t x → x ≠ -1 → conv v0 (o.V t) err ∧ FromEq o t := by
  intro n
  induction n with
  | zero => intro b s t x h hx; simp [tvLoop] at h; exact absurd h.2.symm hx
  | succ n ih =>
    intro b s t x h hx
    simp only [tvLoop] at h
    split_ifs at h with h1 h2 h3 h4 h5
    · simp only [Out.ret.injEq] at h
      obtain ⟨rfl, _⟩ := h
      exact ⟨h3, (o.ctor b s).1, Prod.ext rfl (by simpa using h2)⟩
    · exact ih _ _ _ _ h hx

/-- C45: a normal return from the HP branch means the enthalpy is within the tolerance of the initial
one, and from the SP branch that the last Newton step in temperature was below 1e-4; in both cases at a
state returned by a successful fixed T,P solution.  The TV branch: provided the returned value is not -1,
which `MultiPhase::equilibrate` does not look at. -/
theorem equil_converged_partial (o : Orc S) (xy : XY) (err Tmin Tmax : ℝ) (n : ℕ) (s t : S) (x : ℝ)
    (h : equil o xy err Tmin Tmax n s = .ret t x) (hx : x ≠ -1) :
    FromEq o t ∧
    match xy with
    | .HP => conv (o.H s) (o.H t) err
    | .SP => |(o.Sx s - o.Sx t) * o.T t / o.cp t| < 1 / 10000
    | .TV => conv (o.V s) (o.V t) err
    | .TP => True
    | .other => False := by
  cases xy with
  | TP =>
    simp only [equil] at h
    split_ifs at h with h1 h2
    simp only [Out.ret.injEq] at h
    obtain ⟨rfl, _⟩ := h
    exact ⟨⟨(o.ctor true s).1, Prod.ext rfl (by simpa using h2)⟩, trivial⟩
  | HP => have := hp_converged o _ _ _ _ _ _ _ h; exact ⟨this.2, this.1⟩
  | SP => have := sp_converged o _ _ _ _ _ _ _ h; exact ⟨this.2.2, this.2.1⟩
  | TV => have := tv_converged o _ _ _ _ _ _ _ h hx; exact ⟨this.2, this.1⟩
  | other => simp [equil] at h

/-- A mixture whose enthalpy is exactly zero cannot be equilibrated at constant H,P. -/
theorem hp_zero (o : Orc S) (err Tmin Tmax : ℝ) (n : ℕ) (s t : S) (x : ℝ) (h0 : o.H s = 0) :
    equil o .HP err Tmin Tmax n s ≠ .ret t x := fun h => by
  have := (hp_converged o _ _ _ _ _ _ _ h).1
  exact this.1 h0

/-- Oracles for which pressure has no influence on the volume -/
noncomputable def stuck : Orc ℝ :=
  { ctor := fun _ s => (s, false)
    eq := fun _ => (2, false)
    H := fun _ => 1
    Sx := fun _ => 1
    V := fun s => s
    cp := fun _ => 1
    T := fun _ => 300
    P := fun _ => 1
    setT := fun s _ => (s, false)
    setP := fun s _ => (s, false) }

/-- The TV branch returns normally without convergence: the volume is twice the required one after any
number of iterations. -/
theorem tv_silent (err : ℝ) (he : err ≤ 1) (n : ℕ) (hn : 0 < n) :
    equil stuck .TV err 200 3000 n 1 = .ret 2 (-1) := by
  have hc : ¬ conv 1 2 err := fun h => by
    have := h.2; norm_num at this; linarith
  have key : ∀ n b, tvLoop stuck 1 err n b 2 = .ret 2 (-1) := by
    intro n
    induction n with
    | zero => intro b; rfl
    | succ n ih =>
      intro b
      have e : stuck.V 2 = 2 := rfl
      simp only [tvLoop, stuck, hc, if_false, Bool.false_eq_true]
      exact ih false
  obtain ⟨m, rfl⟩ : ∃ m, n = m + 1 := ⟨n - 1, by omega⟩
  show tvLoop stuck 1 err (m + 1) true 1 = _
  simp only [tvLoop, stuck, hc, if_false, Bool.false_eq_true]
  exact key m false

/-- Converging run: HP with a solver that keeps the enthalpy. -/
example : equil stuck .HP (1/10) 200 3000 1 1 = .ret 2 (1/10) := by
  have hc : conv 1 1 (1/10) := by norm_num [conv]
  simp only [equil, hpLoop, stuck, hc, if_true, if_false, Bool.false_eq_true]

end Verif.Gibbs
