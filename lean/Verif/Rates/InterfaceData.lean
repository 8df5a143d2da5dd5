import Mathlib.Algebra.BigOperators.Group.Finset.Basic
import Mathlib.Algebra.Order.BigOperators.Group.Finset
import Mathlib.Data.Real.Basic
import Mathlib.Tactic.Linarith
import Mathlib.Tactic.NormNum
import Verif.Basic

/-!
# C62: caching in InterfaceData

Source: src/kinetics/InterfaceRate.cpp:44-85 (`InterfaceData::update(phase, kin)`), src/thermo/Phase.cpp:286-363,
506-544, 908-924 (`m_stateNum`), include/cantera/thermo/ThermoPhase.h:650-653 (`setElectricPotential`).

Simplifications: everything the block l. 64-81 copies is a function of the states of the phases at that
moment, so the copied data are represented by those states; `m_stateNum` and the sum `mf` do not
overflow; the reaction phase passed as `phase` is phase 0 (InterfaceKinetics.cpp:68).
-/

namespace Verif.Rates.InterfaceData

open Verif

/-- State of one phase. -/
@[ext] structure PS where
  T : ℝ
  P : ℝ
  /-- `m_phi` -/
  phi : ℝ
  /-- composition -/
  X : ℕ → ℝ
  /-- `m_stateNum` (Phase.h:919) -/
  num : ℤ

/-- The phases of a kinetics object. -/
structure World where
  np : ℕ
  ph : ℕ → PS
  /-- `SurfPhase::siteDensity` -/
  site : ℝ

/-- Members of the shared data object; `none` stands for NaN resp. the initial zero vectors. -/
structure Data where
  temperature : Option ℝ
  density : Option ℝ
  /-- `m_state_mf_number` -/
  mf : ℤ
  /-- states from which the vectors were computed -/
  snap : Option (ℕ → PS)

/-- New object (ReactionData.h:112, BlowersMaselRate.h:33, 37). -/
def Data.new : Data := ⟨some 1, none, -1, none⟩

/-- `invalidateCache` (ReactionData.h:108-110). -/
def Data.invalidate (d : Data) : Data := { d with temperature := none }

/-- l. 46-49. -/
def World.mf (w : World) : ℤ := (List.range w.np).foldl (fun s n => s + (w.ph n).num) 0

open Classical in
/-- `update(phase, kin)` (l. 44-85): new data and the returned flag. -/
noncomputable def Data.update (d : Data) (w : World) : Data × Bool :=
  let mf := w.mf
  let T := (w.ph 0).T
  let changed := false
  let s1 : Data × Bool :=
    if d.density ≠ some w.site then ({ d with density := some w.site }, true) else (d, changed)
  let s2 : Data × Bool :=
    if s1.1.temperature ≠ some T then ({ s1.1 with temperature := some T }, true) else s1
  if s2.2 = true ∨ mf ≠ s2.1.mf then ({ s2.1 with snap := some w.ph, mf := mf }, true) else s2

/-- Calls on the phases and on the data object. -/
inductive Op where
  | setT (n : ℕ) (v : ℝ)
  /-- temperature of all phases -/
  | allT (v : ℝ)
  | setP (n : ℕ) (v : ℝ)
  | setX (n : ℕ) (x : ℕ → ℝ)
  | setPhi (n : ℕ) (v : ℝ)
  | setSite (v : ℝ)
  | invalidate
  | update

/-- Setters: temperature and pressure leave `m_stateNum` alone, composition (Phase.cpp:286-363) and
potential (ThermoPhase.h:650-653) increment it. -/
def World.step (w : World) : Op → World
  | .setT n v => { w with ph := Function.update w.ph n { w.ph n with T := v } }
  | .allT v => { w with ph := fun n => { w.ph n with T := v } }
  | .setP n v => { w with ph := Function.update w.ph n { w.ph n with P := v } }
  | .setX n x => { w with ph := Function.update w.ph n { w.ph n with X := x, num := (w.ph n).num + 1 } }
  | .setPhi n v => { w with ph := Function.update w.ph n { w.ph n with phi := v, num := (w.ph n).num + 1 } }
  | .setSite v => { w with site := v }
  | .invalidate => w
  | .update => w

noncomputable def step (s : World × Data) : Op → World × Data
  | .update => (s.1, (s.2.update s.1).1)
  | .invalidate => (s.1, s.2.invalidate)
  | o => (s.1.step o, s.2)

noncomputable def run (s : World × Data) (ops : List Op) : World × Data := ops.foldl step s

/-! ### Lemmas -/

theorem mf_eq (w : World) : w.mf = ∑ n ∈ Finset.range w.np, (w.ph n).num := by
  have : ∀ k : ℕ, (List.range k).foldl (fun s n => s + (w.ph n).num) 0 =
      ∑ n ∈ Finset.range k, (w.ph n).num := by
    intro k
    induction k with
    | zero => simp
    | succ k ih => rw [List.range_succ, List.foldl_append, ih, Finset.sum_range_succ]; rfl
  exact this w.np

/-- The copied vectors are those of an earlier world whose counters are not ahead, and equal counters of a
phase mean unchanged composition and potential. -/
structure Inv (s : World × Data) : Prop where
  init : s.2.snap = none → s.2.density = none
  mf : ∀ q, s.2.snap = some q → s.2.mf = ∑ n ∈ Finset.range s.1.np, (q n).num
  le : ∀ q, s.2.snap = some q → ∀ n, (q n).num ≤ (s.1.ph n).num
  same : ∀ q, s.2.snap = some q → ∀ n, (q n).num = (s.1.ph n).num →
    (q n).X = (s.1.ph n).X ∧ (q n).phi = (s.1.ph n).phi

theorem inv_new (w : World) : Inv (w, Data.new) :=
  ⟨fun _ => rfl, by simp [Data.new], by simp [Data.new], by simp [Data.new]⟩

/-- The three outcomes of `update`. -/
theorem update_cases (d : Data) (w : World) :
    (d.density = some w.site ∧ d.temperature = some (w.ph 0).T ∧ w.mf = d.mf ∧ d.update w = (d, false)) ∨
    (¬ (d.density = some w.site ∧ d.temperature = some (w.ph 0).T ∧ w.mf = d.mf) ∧
      d.update w = (⟨some (w.ph 0).T, some w.site, w.mf, some w.ph⟩, true)) := by
  classical
  obtain ⟨t, den, m, sn⟩ := d
  by_cases h1 : den = some w.site <;> by_cases h2 : t = some (w.ph 0).T <;> by_cases h3 : w.mf = m <;>
    simp [Data.update, h1, h2, h3]

theorem inv_update (s : World × Data) (h : Inv s) : Inv (s.1, (s.2.update s.1).1) := by
  rcases update_cases s.2 s.1 with ⟨-, -, -, e⟩ | ⟨-, e⟩
  · rw [e]; exact h
  · rw [e]
    refine ⟨by simp, ?_, ?_, ?_⟩
    · intro q hq; simp only [Option.some.injEq] at hq; subst hq; exact mf_eq _
    · intro q hq n; simp only [Option.some.injEq] at hq; subst hq; exact le_rfl
    · intro q hq n _; simp only [Option.some.injEq] at hq; subst hq; exact ⟨rfl, rfl⟩

theorem inv_world (s : World × Data) (h : Inv s) (w : World) (hnp : w.np = s.1.np)
    (hle : ∀ n, (s.1.ph n).num ≤ (w.ph n).num)
    (hs : ∀ n, (s.1.ph n).num = (w.ph n).num → (s.1.ph n).X = (w.ph n).X ∧ (s.1.ph n).phi = (w.ph n).phi) :
    Inv (w, s.2) := by
  refine ⟨h.init, ?_, ?_, ?_⟩
  · intro q hq; rw [h.mf q hq]; simp only [hnp]
  · intro q hq n; exact (h.le q hq n).trans (hle n)
  · intro q hq n e
    have h1 := h.le q hq n
    have h2 := hle n
    simp only at e
    have e1 : (q n).num = (s.1.ph n).num := by omega
    have e2 : (s.1.ph n).num = (w.ph n).num := by omega
    obtain ⟨a, b⟩ := h.same q hq n e1
    obtain ⟨c, d⟩ := hs n e2
    exact ⟨a.trans c, b.trans d⟩

theorem inv_step (s : World × Data) (h : Inv s) (o : Op) : Inv (step s o) := by
  cases o with
  | update => exact inv_update s h
  | invalidate => exact ⟨h.init, h.mf, h.le, h.same⟩
  | setSite v => exact inv_world s h _ rfl (fun _ => le_rfl) (fun _ _ => ⟨rfl, rfl⟩)
  | allT v => exact inv_world s h _ rfl (fun _ => le_rfl) (fun _ _ => ⟨rfl, rfl⟩)
  | setT m v =>
    refine inv_world s h _ rfl ?_ ?_ <;> intro n <;> by_cases e : n = m <;>
      simp [World.step, Function.update_apply, e]
  | setP m v =>
    refine inv_world s h _ rfl ?_ ?_ <;> intro n <;> by_cases e : n = m <;>
      simp [World.step, Function.update_apply, e]
  | setX m x =>
    refine inv_world s h _ rfl ?_ ?_ <;> intro n <;> by_cases e : n = m <;>
      simp [World.step, Function.update_apply, e]
  | setPhi m v =>
    refine inv_world s h _ rfl ?_ ?_ <;> intro n <;> by_cases e : n = m <;>
      simp [World.step, Function.update_apply, e]

theorem inv_run (ops : List Op) (s : World × Data) (h : Inv s) : Inv (run s ops) := by
  induction ops generalizing s with
  | nil => exact h
  | cons o ops ih => exact ih _ (inv_step s h o)

/-! ### Theorems -/

/-- C62: after any sequence of setter calls and updates, an update leaves the data with the current surface
temperature and site density, and with vectors computed from the current compositions and potentials of
all phases: no change of coverages or potentials is ever missed, even though only the sum of the change
counters is compared. -/
theorem coverages_and_potentials_current (w : World) (ops : List Op) :
    let s := run (w, Data.new) ops
    let d := (s.2.update s.1).1
    d.temperature = some (s.1.ph 0).T ∧ d.density = some s.1.site ∧
    ∃ q, d.snap = some q ∧ ∀ n < s.1.np, (q n).X = (s.1.ph n).X ∧ (q n).phi = (s.1.ph n).phi := by
  intro s d
  have hi : Inv s := inv_run ops _ (inv_new w)
  rcases update_cases s.2 s.1 with ⟨h1, h2, h3, e⟩ | ⟨-, e⟩
  · have hd : d = s.2 := by simp only [d, e]
    rw [hd]
    refine ⟨h2, h1, ?_⟩
    cases hq : s.2.snap with
    | none => rw [hi.init hq] at h1; exact absurd h1 (by simp)
    | some q =>
      refine ⟨q, rfl, ?_⟩
      intro n hn
      apply hi.same q hq
      have hm := hi.mf q hq
      rw [← h3, mf_eq] at hm
      exact ((Finset.sum_eq_sum_iff_of_le (fun i _ => hi.le q hq i)).1 hm.symm) n (Finset.mem_range.2 hn)
  · have hd : d = ⟨some (s.1.ph 0).T, some s.1.site, s.1.mf, some s.1.ph⟩ := by simp only [d, e]
    rw [hd]
    exact ⟨rfl, rfl, _, rfl, fun _ _ => ⟨rfl, rfl⟩⟩

/-- C62: `update` reports no change only if it leaves the data as they are, and two updates in a row
without a call in between change nothing the second time. -/
theorem update_idempotent (d : Data) (w : World) :
    ((d.update w).2 = false → (d.update w).1 = d) ∧
    ((d.update w).2 = true → (d.update w).1.snap = some w.ph) ∧
    ((d.update w).1.update w) = ((d.update w).1, false) := by
  rcases update_cases d w with ⟨h1, h2, h3, e⟩ | ⟨-, e⟩
  · rw [e]; exact ⟨fun _ => rfl, by simp, e⟩
  · rw [e]
    refine ⟨by simp, fun _ => rfl, ?_⟩
    simp only
    rcases update_cases ⟨some (w.ph 0).T, some w.site, w.mf, some w.ph⟩ w with ⟨-, -, -, e'⟩ | ⟨h, -⟩
    · exact e'
    · exact absurd ⟨rfl, rfl, rfl⟩ h

/-- Calls that change neither a pressure nor the temperature of single phases. -/
def Uniform : Op → Prop
  | .setT _ _ => False
  | .setP _ _ => False
  | _ => True

/-- Same temperature if the surface temperature agrees, same pressure. -/
structure UInv (s : World × Data) : Prop where
  tw : ∀ n, (s.1.ph n).T = (s.1.ph 0).T
  tq : ∀ q, s.2.snap = some q → ∀ n t, s.2.temperature = some t → t = (q n).T
  p : ∀ q, s.2.snap = some q → ∀ n, (q n).P = (s.1.ph n).P

theorem uinv_step (s : World × Data) (h : UInv s) (o : Op) (ho : Uniform o) : UInv (step s o) := by
  cases o with
  | setT m v => exact absurd ho id
  | setP m v => exact absurd ho id
  | update =>
    simp only [step]
    rcases update_cases s.2 s.1 with ⟨-, -, -, e⟩ | ⟨-, e⟩
    · rw [e]; exact h
    · rw [e]
      refine ⟨h.tw, ?_, ?_⟩
      · intro q hq n t ht; simp only [Option.some.injEq] at hq ht; subst hq; subst ht
        rw [h.tw n]
      · intro q hq n; simp only [Option.some.injEq] at hq; subst hq; rfl
  | setSite v => exact ⟨h.tw, h.tq, h.p⟩
  | invalidate => exact ⟨h.tw, by simp [step, Data.invalidate], h.p⟩
  | allT v => exact ⟨fun _ => rfl, h.tq, h.p⟩
  | setX m x =>
    refine ⟨?_, h.tq, ?_⟩
    · intro n
      have := h.tw n
      have h0 := h.tw m
      by_cases e : n = m <;> by_cases e0 : 0 = m <;> simp [step, World.step, Function.update_apply, e, e0] <;>
        simp_all
    · intro q hq n
      have := h.p q hq n
      by_cases e : n = m
      · subst e; simpa [step, World.step] using this
      · simpa [step, World.step, Function.update_of_ne e] using this
  | setPhi m v =>
    refine ⟨?_, h.tq, ?_⟩
    · intro n
      have := h.tw n
      have h0 := h.tw m
      by_cases e : n = m <;> by_cases e0 : 0 = m <;> simp [step, World.step, Function.update_apply, e, e0] <;>
        simp_all
    · intro q hq n
      have := h.p q hq n
      by_cases e : n = m
      · subst e; simpa [step, World.step] using this
      · simpa [step, World.step, Function.update_of_ne e] using this

theorem uinv_run (ops : List Op) (hops : ∀ o ∈ ops, Uniform o) (s : World × Data) (h : UInv s) :
    UInv (run s ops) := by
  induction ops generalizing s with
  | nil => exact h
  | cons o ops ih =>
    exact ih (fun o ho => hops o (by simp [ho])) _ (uinv_step s h o (hops o (by simp)))

/-- C62 (partial: pressures fixed and all phases at one temperature): after an update, everything in the data
(enthalpies, standard chemical potentials, standard concentrations included) is computed from the current
states of the phases. -/
theorem data_current_partial (w : World) (hw : ∀ n, (w.ph n).T = (w.ph 0).T) (ops : List Op)
    (hops : ∀ o ∈ ops, Uniform o) :
    let s := run (w, Data.new) ops
    ∃ q, (s.2.update s.1).1.snap = some q ∧ ∀ n < s.1.np,
      (q n).T = (s.1.ph n).T ∧ (q n).P = (s.1.ph n).P ∧ (q n).X = (s.1.ph n).X ∧
        (q n).phi = (s.1.ph n).phi := by
  intro s
  obtain ⟨h1, -, q, hq, h⟩ := coverages_and_potentials_current w ops
  have hu : UInv (step s .update) :=
    uinv_step s (uinv_run ops hops _ ⟨hw, by simp [Data.new], by simp [Data.new]⟩) .update trivial
  refine ⟨q, hq, ?_⟩
  intro n hn
  have ht := hu.tq q hq n _ h1
  have hp := hu.p q hq n
  simp only [step] at hp
  have hw' := hu.tw n
  simp only [step] at hw'
  exact ⟨by rw [← ht, hw'], hp, h n hn⟩

example : ∃ w : World, (∀ n, (w.ph n).T = (w.ph 0).T) ∧
    ∀ o ∈ [Op.update, .setX 1 (fun _ => 1), .allT 400, .update, .setPhi 0 1], Uniform o :=
  ⟨⟨2, fun _ => ⟨300, 1, 0, fun _ => 0, 0⟩, 1⟩, fun _ => rfl, by simp [Uniform]⟩

/-- C62: in general the data depend on the history: changing the pressure (or the temperature) of a bulk
phase after an update goes unnoticed. The two sequences below lead to the same phases, but after the final
update the copied data differ. -/
theorem stale_after_pressure_change :
    ∃ (w : World) (a b : List Op) (q q' : ℕ → PS),
      (run (w, Data.new) a).1 = (run (w, Data.new) b).1 ∧
      (run (w, Data.new) (a ++ [.update])).2.snap = some q ∧
      (run (w, Data.new) (b ++ [.update])).2.snap = some q' ∧
      (q 1).P ≠ (q' 1).P ∧ (q 1).T ≠ (q' 1).T := by
  classical
  set w : World := ⟨2, fun _ => ⟨300, 1, 0, fun _ => 0, 0⟩, 1⟩ with hw
  set w2 : World := (w.step (.setP 1 2)).step (.setT 1 400) with hw2
  have hT : (w2.ph 0).T = 300 := by simp [hw2, hw, World.step]
  have hs : w2.site = 1 := rfl
  have hm : w2.mf = 0 := by
    rw [mf_eq]; simp [hw2, hw, World.step, Finset.sum_range_succ]
  have hm0 : w.mf = 0 := by
    rw [mf_eq]; simp [hw, Finset.sum_range_succ]
  have u1 : (Data.new.update w).1 = ⟨some 300, some 1, 0, some w.ph⟩ := by
    rcases update_cases Data.new w with ⟨h, -⟩ | ⟨-, e⟩
    · exact absurd h (by simp [Data.new])
    · rw [e, hm0]
  have u2 : ((⟨some 300, some 1, 0, some w.ph⟩ : Data).update w2).1 = ⟨some 300, some 1, 0, some w.ph⟩ := by
    rcases update_cases ⟨some 300, some 1, 0, some w.ph⟩ w2 with ⟨-, -, -, e⟩ | ⟨h, -⟩
    · rw [e]
    · exact absurd ⟨by rw [hs], by rw [hT], hm⟩ h
  have u3 : (Data.new.update w2).1 = ⟨some 300, some 1, 0, some w2.ph⟩ := by
    rcases update_cases Data.new w2 with ⟨h, -⟩ | ⟨-, e⟩
    · exact absurd h (by simp [Data.new])
    · rw [e, hm, hT, hs]
  refine ⟨w, [.update, .setP 1 2, .setT 1 400], [.setP 1 2, .setT 1 400], w.ph, w2.ph, rfl, ?_, ?_, ?_, ?_⟩
  · simp only [run, List.cons_append, List.nil_append, List.foldl_cons, List.foldl_nil, step, u1]
    rw [← hw2, u2]
  · simp only [run, List.cons_append, List.nil_append, List.foldl_cons, List.foldl_nil, step]
    rw [← hw2, u3]
  · simp [hw2, hw, World.step]
  · simp [hw2, hw, World.step]

end Verif.Rates.InterfaceData
