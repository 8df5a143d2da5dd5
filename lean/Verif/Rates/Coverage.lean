import Verif.Basic
import Verif.Rates.Arrhenius
import Mathlib.Analysis.SpecialFunctions.Pow.Real
import Mathlib.Analysis.SpecialFunctions.Sqrt
import Mathlib.Algebra.BigOperators.Group.List.Basic

/-!
# C59: coverage dependence and sticking coefficients

Sources: src/kinetics/InterfaceRate.cpp:35-42, 87-408, include/cantera/kinetics/InterfaceRate.h:92-585.

Simplifications: species names are elements of a type `N` with decidable equality; energies are
given in kelvin (the conversion of units is C01); `coverages` and `logCoverages` are functions of the index
(they have an entry for every species of the kinetics object, InterfaceRate.h:43-51); NaN is `none`; the
iteration order of an `AnyMap` is the order of the list of dependencies (theorem `order_irrelevant`).
-/

namespace Verif.Rates.Coverage

open Verif Real

/-- One entry of `coverage-dependencies`: the energy is a scalar or a vector. -/
structure Dep (N : Type) where
  sp : N
  a : ℝ
  m : ℝ
  E : ℝ ⊕ List ℝ

/-- Members of `InterfaceRateBase` for coverages (InterfaceRate.h:245-253). -/
structure Base (N : Type) where
  cov : List N
  ac : List ℝ
  ec : List (List ℝ)
  mc : List ℝ
  lindep : List Bool
  indices : List (ℕ × ℕ)

set_option linter.unusedSectionVars false

variable {N : Type} [DecidableEq N]

/-- New object. -/
def Base.new : Base N := ⟨[], [], [], [], [], []⟩

/-- `addCoverageDependence` (l. 199-212); the flag is false if it throws. -/
def Base.add (b : Base N) (sp : N) (a m : ℝ) (e : List ℝ) : Base N × Bool :=
  if sp ∈ b.cov then (b, false)
  else ({ b with cov := b.cov ++ [sp], ac := b.ac ++ [a], ec := b.ec ++ [e], mc := b.mc ++ [m],
                 indices := [] }, true)

/-- Vector `E` (l. 143, 149-156): five entries, the first zero. -/
def energies (E : ℝ ⊕ List ℝ) : List ℝ :=
  match E with
  | .inl e => [0, e, 0, 0, 0]
  | .inr es => 0 :: (es ++ List.replicate (4 - es.length) 0)

/-- Body of the loop of `setCoverageDependencies` (l. 141-176): the size of a vector is checked by
`asVector(1, 4)` after the flag has been stored. -/
def Base.setOne (b : Base N) (d : Dep N) : Base N × Bool :=
  match d.E with
  | .inl _ => ({ b with lindep := b.lindep ++ [true] }).add d.sp d.a d.m (energies d.E)
  | .inr es =>
    let b := { b with lindep := b.lindep ++ [false] }
    if 1 ≤ es.length ∧ es.length ≤ 4 then b.add d.sp d.a d.m (energies d.E) else (b, false)

/-- The loop, left at the first exception. -/
def Base.setLoop (b : Base N) : List (Dep N) → Base N × Bool
  | [] => (b, true)
  | d :: ds => match b.setOne d with
    | (b, true) => b.setLoop ds
    | (b, false) => (b, false)

/-- `setCoverageDependencies` (l. 132-178); `m_indices` is not cleared. -/
def Base.setDeps (b : Base N) (ds : List (Dep N)) : Base N × Bool :=
  ({ b with cov := [], ac := [], ec := [], mc := [], lindep := [] }).setLoop ds

/-- Loop of `setSpecies` (l. 217-226). -/
def setSpLoop (species : List N) : List (N × ℕ) → List (ℕ × ℕ) → List (ℕ × ℕ) × Bool
  | [], ind => (ind, true)
  | c :: cs, ind =>
    if c.1 ∈ species then setSpLoop species cs (ind ++ [(c.2, species.idxOf c.1)]) else (ind, false)

/-- `setSpecies` (l. 214-227). -/
def Base.setSpecies (b : Base N) (species : List N) : Base N × Bool :=
  let r := setSpLoop species b.cov.zipIdx []
  ({ b with indices := r.1 }, r.2)

/-- `poly4` (include/cantera/base/utilities.h:153-157) reading a vector. -/
def poly4 (x : ℝ) (c : List ℝ) : Outcome ℝ :=
  match c with
  | c0 :: c1 :: c2 :: c3 :: c4 :: _ => .ok ((((c4 * x + c3) * x + c2) * x + c1) * x + c0)
  | _ => .ub

/-- Access to a vector without range check. -/
def at? {α : Type} (l : List α) (i : ℕ) : Outcome α :=
  match l[i]? with
  | some x => .ok x
  | none => .ub

/-- Coverage terms `m_acov`, `m_ecov`, `m_mcov`. -/
structure Terms where
  a : ℝ
  e : ℝ
  m : ℝ

/-- Loop body of `updateFromStruct` (l. 244-252). -/
def Base.termStep (b : Base N) (th lth : ℕ → ℝ) (t : Terms) (q : ℕ × ℕ) : Outcome Terms := do
  let a ← at? b.ac q.1
  let lin ← at? b.lindep q.1
  let ec ← at? b.ec q.1
  let e ← if lin then (at? ec 1 >>= fun e1 => .ok (e1 * th q.2)) else poly4 (th q.2) ec
  let m ← at? b.mc q.1
  pure ⟨t.a + a * th q.2, t.e + e, t.m + m * lth q.2⟩

/-- `updateFromStruct` (l. 229-252), coverage terms; `none` is NaN. -/
def Base.update (b : Base N) (th lth : ℕ → ℝ) : Outcome (Option Terms) :=
  if b.indices.length ≠ b.cov.length then .ok none
  else b.indices.foldlM (b.termStep th lth) ⟨0, 0, 0⟩ >>= fun t => .ok (some t)

/-- `Tiny` (include/cantera/base/ct_defs.h:173). -/
noncomputable def tiny : ℝ := 1e-20

/-- `logCoverages` (l. 40, 68). -/
noncomputable def logCov (th : ℕ → ℝ) : ℕ → ℝ := fun k => log (max (th k) tiny)

/-- Factor of `evalFromStruct` (InterfaceRate.h:419-420, 557-558). -/
noncomputable def covFactor (t : Terms) (T : ℝ) : ℝ := exp (log 10 * t.a - t.e * (1 / T) + t.m)

/-- `getCoverageDependencies` (l. 180-197). -/
def Base.getDep (b : Base N) (k : ℕ) : Outcome (Dep N) := do
  let sp ← at? b.cov k
  let a ← at? b.ac k
  let m ← at? b.mc k
  let lin ← at? b.lindep k
  let ec ← at? b.ec k
  if lin then at? ec 1 >>= fun e => .ok ⟨sp, a, m, .inl e⟩
  else .ok ⟨sp, a, m, .inr (ec.drop 1)⟩

def Base.getDeps (b : Base N) : Outcome (List (Dep N)) :=
  (List.range b.cov.length).foldlM (fun l k => b.getDep k >>= fun d => .ok (l ++ [d])) []

/-! ## Lemmas -/

/-- Valid entry. -/
def Dep.OK (d : Dep N) : Prop :=
  match d.E with
  | .inl _ => True
  | .inr es => 1 ≤ es.length ∧ es.length ≤ 4

def Dep.lin (d : Dep N) : Bool :=
  match d.E with
  | .inl _ => true
  | .inr _ => false

theorem setOne_ok (b : Base N) (d : Dep N) (hd : d.OK) (hn : d.sp ∉ b.cov) :
    b.setOne d = (⟨b.cov ++ [d.sp], b.ac ++ [d.a], b.ec ++ [energies d.E], b.mc ++ [d.m],
      b.lindep ++ [d.lin], []⟩, true) := by
  unfold Base.setOne Dep.lin
  unfold Dep.OK at hd
  cases hE : d.E with
  | inl e => simp only [Base.add, hn, if_false]
  | inr es =>
    rw [hE] at hd
    simp only [hd, and_self, if_true, Base.add, hn, if_false]

theorem setLoop_ok (ds : List (Dep N)) (b : Base N) (hd : ∀ d ∈ ds, d.OK)
    (hn : (b.cov ++ ds.map (·.sp)).Nodup) :
    ∃ ind, b.setLoop ds = (⟨b.cov ++ ds.map (·.sp), b.ac ++ ds.map (·.a), b.ec ++ ds.map (energies ·.E),
      b.mc ++ ds.map (·.m), b.lindep ++ ds.map Dep.lin, ind⟩, true) ∧
      (ds ≠ [] → ind = []) ∧ (ds = [] → ind = b.indices) := by
  induction ds generalizing b with
  | nil => exact ⟨b.indices, by simp [Base.setLoop], by simp, fun _ => rfl⟩
  | cons d ds ih =>
    have hnot : d.sp ∉ b.cov := by
      intro h
      rw [List.map_cons, List.nodup_append] at hn
      exact hn.2.2 _ h d.sp (by simp) rfl
    rw [Base.setLoop, setOne_ok b d (hd d (by simp)) hnot]
    simp only
    obtain ⟨ind, h1, h2, h3⟩ := ih ⟨b.cov ++ [d.sp], b.ac ++ [d.a], b.ec ++ [energies d.E], b.mc ++ [d.m],
      b.lindep ++ [d.lin], []⟩ (fun x hx => hd x (by simp [hx])) (by simpa using hn)
    refine ⟨ind, ?_, ?_, by simp⟩
    · rw [h1]; simp
    · intro _
      cases ds with
      | nil => exact h3 rfl
      | cons x xs => exact h2 (by simp)

/-- Content of the object for given dependencies. -/
def contents (ds : List (Dep N)) (ind : List (ℕ × ℕ)) : Base N :=
  ⟨ds.map (·.sp), ds.map (·.a), ds.map (energies ·.E), ds.map (·.m), ds.map Dep.lin, ind⟩

theorem setDeps_ok (b : Base N) (ds : List (Dep N)) (hd : ∀ d ∈ ds, d.OK) (hn : (ds.map (·.sp)).Nodup) :
    ∃ ind, b.setDeps ds = (contents ds ind, true) ∧ (ds ≠ [] → ind = []) ∧ (ds = [] → ind = b.indices) := by
  obtain ⟨ind, h1, h2, h3⟩ := setLoop_ok ds { b with cov := [], ac := [], ec := [], mc := [], lindep := [] }
    hd (by simpa using hn)
  exact ⟨ind, by rw [Base.setDeps, h1]; simp [contents], h2, h3⟩

theorem setSpLoop_ok (species : List N) (cs : List (N × ℕ)) (ind : List (ℕ × ℕ))
    (h : ∀ c ∈ cs, c.1 ∈ species) :
    setSpLoop species cs ind = (ind ++ cs.map (fun c => (c.2, species.idxOf c.1)), true) := by
  induction cs generalizing ind with
  | nil => simp [setSpLoop]
  | cons c cs ih =>
    rw [setSpLoop, if_pos (h c (by simp)), ih _ (fun x hx => h x (by simp [hx]))]
    simp

theorem setSpLoop_bad (species : List N) (cs : List (N × ℕ)) (ind : List (ℕ × ℕ))
    (h : ∃ c ∈ cs, c.1 ∉ species) : (setSpLoop species cs ind).2 = false := by
  induction cs generalizing ind with
  | nil => simp at h
  | cons c cs ih =>
    rw [setSpLoop]
    by_cases hc : c.1 ∈ species
    · rw [if_pos hc]
      apply ih
      obtain ⟨x, hx, hn⟩ := h
      rcases List.mem_cons.1 hx with rfl | h'
      · exact absurd hc hn
      · exact ⟨x, h', hn⟩
    · rw [if_neg hc]

/-- Contribution of one dependency to the activation energy (in kelvin) at coverage `th`. -/
noncomputable def Dep.energy (d : Dep N) (th : ℝ) : ℝ :=
  match d.E with
  | .inl e => e * th
  | .inr es => (es.zipIdx.map (fun x => x.1 * th ^ (x.2 + 1))).sum

theorem step_ok (ds : List (Dep N)) (ind : List (ℕ × ℕ)) (hd : ∀ d ∈ ds, d.OK) (th lth : ℕ → ℝ) (t : Terms)
    (k j : ℕ) (d : Dep N) (hk : ds[k]? = some d) :
    (contents ds ind).termStep th lth t (k, j) =
      .ok ⟨t.a + d.a * th j, t.e + d.energy (th j), t.m + d.m * lth j⟩ := by
  have hmem : d ∈ ds := List.mem_of_getElem? hk
  have hok := hd d hmem
  simp only [Base.termStep, contents, at?, List.getElem?_map, hk, Option.map_some, Outcome.bind_ok]
  unfold Dep.lin energies Dep.energy
  unfold Dep.OK at hok
  cases hE : d.E with
  | inl e => simp [Outcome.pure_eq]
  | inr es =>
    rw [hE] at hok
    simp only [Bool.false_eq_true, if_false]
    match es, hok with
    | [e1], _ =>
      simp only [List.length_cons, List.length_nil, List.replicate, List.cons_append, List.nil_append, poly4,
        Outcome.bind_ok, Outcome.pure_eq]
      simp
    | [e1, e2], _ =>
      simp only [List.length_cons, List.length_nil, List.replicate, List.cons_append, List.nil_append, poly4,
        Outcome.bind_ok, Outcome.pure_eq]
      simp
      ring
    | [e1, e2, e3], _ =>
      simp only [List.length_cons, List.length_nil, List.replicate, List.cons_append, List.nil_append, poly4,
        Outcome.bind_ok, Outcome.pure_eq]
      simp
      ring
    | [e1, e2, e3, e4], _ =>
      simp only [List.length_cons, List.length_nil, List.replicate, List.cons_append, List.nil_append, poly4,
        Outcome.bind_ok, Outcome.pure_eq]
      simp
      ring
    | e1 :: e2 :: e3 :: e4 :: e5 :: es, h => simp at h; omega
    | [], h => simp at h

theorem fold_ok (ds : List (Dep N)) (ind : List (ℕ × ℕ)) (hd : ∀ d ∈ ds, d.OK) (species : List N)
    (th lth : ℕ → ℝ) (l : List (Dep N × ℕ)) (hl : ∀ x ∈ l, ds[x.2]? = some x.1) (t : Terms) :
    (l.map (fun x => (x.2, species.idxOf x.1.sp))).foldlM ((contents ds ind).termStep th lth) t =
      .ok ⟨t.a + (l.map (fun x => x.1.a * th (species.idxOf x.1.sp))).sum,
        t.e + (l.map (fun x => x.1.energy (th (species.idxOf x.1.sp)))).sum,
        t.m + (l.map (fun x => x.1.m * lth (species.idxOf x.1.sp))).sum⟩ := by
  induction l generalizing t with
  | nil => simp [Outcome.pure_eq]
  | cons x l ih =>
    rw [List.map_cons, List.foldlM_cons, step_ok ds ind hd th lth t _ _ x.1 (hl x (by simp)),
      Outcome.bind_ok, ih (fun y hy => hl y (by simp [hy]))]
    simp only [List.map_cons, List.sum_cons, add_assoc]

/-- Coverage of the species of a dependency. -/
def thOf (species : List N) (th : ℕ → ℝ) (d : Dep N) : ℝ := th (species.idxOf d.sp)

theorem zipIdx_map_fst (ds : List (Dep N)) (f : Dep N → ℝ) :
    ds.zipIdx.map (fun x => f x.1) = ds.map f := by
  apply List.ext_getElem?
  intro i
  simp only [List.getElem?_map, List.getElem?_zipIdx]
  cases ds[i]? <;> simp

theorem update_ok (b : Base N) (ds : List (Dep N)) (hd : ∀ d ∈ ds, d.OK) (hn : (ds.map (·.sp)).Nodup)
    (species : List N) (hs : ∀ d ∈ ds, d.sp ∈ species) (th lth : ℕ → ℝ) :
    (b.setDeps ds).2 = true ∧ ((b.setDeps ds).1.setSpecies species).2 = true ∧
    ((b.setDeps ds).1.setSpecies species).1.update th lth =
      .ok (some ⟨(ds.map (fun d => d.a * thOf species th d)).sum,
        (ds.map (fun d => d.energy (thOf species th d))).sum,
        (ds.map (fun d => d.m * lth (species.idxOf d.sp))).sum⟩) := by
  obtain ⟨ind, h1, -, -⟩ := setDeps_ok b ds hd hn
  rw [h1]
  refine ⟨rfl, ?_, ?_⟩
  · simp only [Base.setSpecies, contents]
    rw [setSpLoop_ok]
    intro c hc
    have := List.fst_mem_of_mem_zipIdx hc
    obtain ⟨d, hd', e⟩ := List.mem_map.1 this
    rw [← e]; exact hs d hd'
  · simp only [Base.setSpecies]
    rw [setSpLoop_ok _ _ _ (by
      intro c hc
      have := List.fst_mem_of_mem_zipIdx hc
      simp only [contents] at this
      obtain ⟨d, hd', e⟩ := List.mem_map.1 this
      rw [← e]; exact hs d hd')]
    have e1 : ([] : List (ℕ × ℕ)) ++ (contents ds ind).cov.zipIdx.map (fun c => (c.2, species.idxOf c.1)) =
        ds.zipIdx.map (fun x => (x.2, species.idxOf x.1.sp)) := by
      rw [List.nil_append]
      apply List.ext_getElem?
      intro i
      simp only [contents, List.getElem?_map, List.getElem?_zipIdx]
      cases ds[i]? <;> simp
    have e2 : ({ contents ds ind with indices := ds.zipIdx.map (fun x => (x.2, species.idxOf x.1.sp)) } : Base N) =
        contents ds (ds.zipIdx.map (fun x => (x.2, species.idxOf x.1.sp))) := rfl
    rw [e1, e2, Base.update, if_neg (by simp [contents])]
    have e3 : (contents ds (ds.zipIdx.map (fun x => (x.2, species.idxOf x.1.sp)))).indices =
        ds.zipIdx.map (fun x => (x.2, species.idxOf x.1.sp)) := rfl
    rw [e3, fold_ok ds _ hd species th lth ds.zipIdx (by
      intro x hx
      obtain ⟨i, hi⟩ := List.getElem?_of_mem hx
      rw [List.getElem?_zipIdx] at hi
      cases hh : ds[i]? with
      | none => rw [hh] at hi; simp at hi
      | some d =>
        rw [hh] at hi
        simp at hi
        subst hi
        simpa using hh), Outcome.bind_ok]
    simp only [zero_add]
    rw [zipIdx_map_fst ds (fun d => d.a * th (species.idxOf d.sp)),
      zipIdx_map_fst ds (fun d => d.energy (th (species.idxOf d.sp))),
      zipIdx_map_fst ds (fun d => d.m * lth (species.idxOf d.sp))]
    rfl

theorem exp_sum_prod (l : List (Dep N)) (f : Dep N → ℝ) :
    exp ((l.map f).sum) = (l.map (fun d => exp (f d))).prod := by
  induction l with
  | nil => simp
  | cons d l ih => simp only [List.map_cons, List.sum_cons, List.prod_cons, exp_add, ih]

theorem sum_comb (l : List (Dep N)) (f g h : Dep N → ℝ) (c r : ℝ) :
    c * (l.map f).sum - (l.map g).sum * r + (l.map h).sum = (l.map (fun d => c * f d - g d * r + h d)).sum := by
  induction l with
  | nil => simp
  | cons d l ih => simp only [List.map_cons, List.sum_cons]; rw [← ih]; ring

/-! ## Coverage dependence -/

/-- C59: for every set of coverage dependencies and every list of species containing them, at every state the
factor applied to the rate constant is the documented product (InterfaceRate.h:64-91), with coverages in the
power law bounded below by `Tiny`. -/
theorem coverage_factor (b : Base N) (ds : List (Dep N)) (hd : ∀ d ∈ ds, d.OK) (hn : (ds.map (·.sp)).Nodup)
    (species : List N) (hs : ∀ d ∈ ds, d.sp ∈ species) (th : ℕ → ℝ) (T : ℝ) :
    ∃ t, ((b.setDeps ds).1.setSpecies species).1.update th (logCov th) = .ok (some t) ∧
      covFactor t T = (ds.map (fun d => (10 : ℝ) ^ (d.a * thOf species th d) *
        max (thOf species th d) tiny ^ d.m * exp (-(d.energy (thOf species th d)) / T))).prod := by
  obtain ⟨-, -, h⟩ := update_ok b ds hd hn species hs th (logCov th)
  refine ⟨_, h, ?_⟩
  rw [covFactor]
  simp only
  rw [sum_comb, exp_sum_prod]
  congr 1
  apply List.map_congr_left
  intro d _
  have ht : 0 < max (thOf species th d) tiny := lt_of_lt_of_le (by norm_num [tiny]) (le_max_right _ _)
  rw [rpow_def_of_pos (by norm_num), rpow_def_of_pos ht, ← exp_add, ← exp_add]
  congr 1
  simp only [logCov, thOf]
  ring

example : ∃ t, (((Base.new : Base ℕ).setDeps [⟨7, 1, 2, .inl 300⟩, ⟨9, 0, 0, .inr [100, 50]⟩]).1.setSpecies
      [5, 7, 9]).1.update (fun k => if k = 1 then 1 else 1 / 2)
        (logCov (fun k => if k = 1 then 1 else 1 / 2)) = .ok (some t) ∧
    covFactor t 1 = 10 * exp (-300) * exp (-(62.5)) := by
  obtain ⟨t, h1, h2⟩ := coverage_factor (Base.new : Base ℕ) [⟨7, 1, 2, .inl 300⟩, ⟨9, 0, 0, .inr [100, 50]⟩]
    (by intro d hd; simp at hd; rcases hd with rfl | rfl <;> simp [Dep.OK]) (by simp) [5, 7, 9]
    (by intro d hd; simp at hd; rcases hd with rfl | rfl <;> simp) (fun k => if k = 1 then 1 else 1 / 2) 1
  refine ⟨t, h1, ?_⟩
  rw [h2]
  have e1 : List.idxOf 7 [5, 7, 9] = 1 := by decide
  have e2 : List.idxOf 9 [5, 7, 9] = 2 := by decide
  have e3 : max (1 : ℝ) tiny = 1 := max_eq_left (by norm_num [tiny])
  norm_num [thOf, e1, e2, e3, Dep.energy]

/-- C59: the order in which dependencies are stored does not matter. -/
theorem order_irrelevant (b b' : Base N) (ds ds' : List (Dep N)) (hp : ds.Perm ds') (hd : ∀ d ∈ ds, d.OK)
    (hn : (ds.map (·.sp)).Nodup) (species : List N) (hs : ∀ d ∈ ds, d.sp ∈ species) (th : ℕ → ℝ) (T : ℝ) :
    ∃ t t', ((b.setDeps ds).1.setSpecies species).1.update th (logCov th) = .ok (some t) ∧
      ((b'.setDeps ds').1.setSpecies species).1.update th (logCov th) = .ok (some t') ∧
      covFactor t T = covFactor t' T := by
  obtain ⟨t, h1, h2⟩ := coverage_factor b ds hd hn species hs th T
  obtain ⟨t', h3, h4⟩ := coverage_factor b' ds' (fun d h => hd d (hp.mem_iff.2 h))
    ((hp.map _).nodup_iff.1 hn) species (fun d h => hs d (hp.mem_iff.2 h)) th T
  exact ⟨t, t', h1, h3, by rw [h2, h4]; exact (hp.map _).prod_eq⟩

example : ∃ t t', (((Base.new : Base ℕ).setDeps [⟨7, 1, 2, .inl 300⟩, ⟨9, 0, 0, .inl 100⟩]).1.setSpecies
      [5, 7, 9]).1.update (fun _ => 1) (logCov (fun _ => 1)) = .ok (some t) ∧
    (((Base.new : Base ℕ).setDeps [⟨9, 0, 0, .inl 100⟩, ⟨7, 1, 2, .inl 300⟩]).1.setSpecies
      [5, 7, 9]).1.update (fun _ => 1) (logCov (fun _ => 1)) = .ok (some t') ∧
    covFactor t 1 = covFactor t' 1 :=
  order_irrelevant _ _ _ _ (List.Perm.swap _ _ _)
    (by intro d hd; simp at hd; rcases hd with rfl | rfl <;> simp [Dep.OK]) (by simp) _
    (by intro d hd; simp at hd; rcases hd with rfl | rfl <;> simp) _ _

/-- Gas constant (ct_defs.h:120). -/
noncomputable def gasConstant : ℝ := 6.02214076e26 * 1.380649e-23

/-- `evalFromStruct` of an `InterfaceArrheniusRate` without charge transfer (InterfaceRate.h:418-425). -/
noncomputable def evalIface (p : Arrhenius.Par) (t : Terms) (T : ℝ) : ℝ := Arrhenius.eval p T * covFactor t T

/-- `preExponentialFactor` (InterfaceRate.h:434-437). -/
noncomputable def preExp (p : Arrhenius.Par) (t : Terms) : ℝ := p.A * exp (log 10 * t.a + t.m)

/-- `activationEnergy` (InterfaceRate.h:439-441; Arrhenius.h `activationEnergy` is `m_Ea_R * GasConstant`). -/
noncomputable def actEnergy (p : Arrhenius.Par) (t : Terms) : ℝ := p.Ea * gasConstant + t.e * gasConstant

/-- C59: the effective parameters reported by the object reproduce its rate constant. -/
theorem effective_parameters (p : Arrhenius.Par) (t : Terms) (T : ℝ) (hT : 0 < T) :
    evalIface p t T = preExp p t * T ^ p.b * exp (-(actEnergy p t) / (gasConstant * T)) := by
  have hR : gasConstant ≠ 0 := by norm_num [gasConstant]
  rw [evalIface, Arrhenius.eval, covFactor, preExp, actEnergy, rpow_def_of_pos hT]
  have e : -(p.Ea * gasConstant + t.e * gasConstant) / (gasConstant * T) = -(p.Ea + t.e) * (1 / T) := by
    field_simp
  rw [e]
  have : exp (p.b * log T - p.Ea * (1 / T)) * exp (log 10 * t.a - t.e * (1 / T) + t.m) =
      exp (log 10 * t.a + t.m) * exp (log T * p.b) * exp (-(p.Ea + t.e) * (1 / T)) := by
    rw [← exp_add, ← exp_add, ← exp_add]; congr 1; ring
  rw [mul_assoc, this]; ring

example : evalIface ⟨2, 0, 0, 0⟩ ⟨1, 0, 0⟩ 300 = 20 := by
  rw [effective_parameters _ _ _ (by norm_num), preExp, actEnergy]
  norm_num [exp_log]

/-! ## Storage of the dependencies -/

/-- What is read back: vectors are filled up to four entries. -/
def Dep.full (d : Dep N) : Dep N :=
  match d.E with
  | .inl _ => d
  | .inr es => { d with E := .inr (es ++ List.replicate (4 - es.length) 0) }

theorem getDep_ok (ds : List (Dep N)) (ind : List (ℕ × ℕ)) (k : ℕ) (d : Dep N)
    (hk : ds[k]? = some d) : (contents ds ind).getDep k = .ok d.full := by
  simp only [Base.getDep, contents, at?, List.getElem?_map, hk, Option.map_some, Outcome.bind_ok]
  unfold Dep.lin energies Dep.full
  rcases d with ⟨sp, a, m, E⟩
  cases E with
  | inl e => simp
  | inr es => simp

/-- C59: `getCoverageDependencies` returns what was set, and setting it again gives the same rates:
the energies are the same functions of the coverage. -/
theorem coverage_roundtrip (b : Base N) (ds : List (Dep N)) (hd : ∀ d ∈ ds, d.OK)
    (hn : (ds.map (·.sp)).Nodup) :
    (b.setDeps ds).1.getDeps = .ok (ds.map Dep.full) ∧
    ∀ d ∈ ds, d.full.OK ∧ d.full.sp = d.sp ∧ d.full.a = d.a ∧ d.full.m = d.m ∧ d.full.lin = d.lin ∧
      energies d.full.E = energies d.E ∧ ∀ x, d.full.energy x = d.energy x := by
  obtain ⟨ind, h1, -, -⟩ := setDeps_ok b ds hd hn
  refine ⟨?_, ?_⟩
  · rw [h1, Base.getDeps]
    have key : ∀ (l : List (Dep N × ℕ)) (acc : List (Dep N)), (∀ x ∈ l, ds[x.2]? = some x.1) →
        (l.map (·.2)).foldlM
        (fun l k => (contents ds ind).getDep k >>= fun d => Outcome.ok (l ++ [d])) acc =
          .ok (acc ++ l.map (fun x => x.1.full)) := by
      intro l
      induction l with
      | nil => intro acc _; simp [Outcome.pure_eq]
      | cons x l ih =>
        intro acc hx
        rw [List.map_cons, List.foldlM_cons, getDep_ok ds ind x.2 x.1 (hx x (by simp)), Outcome.bind_ok,
          Outcome.bind_ok, ih _ (fun y hy => hx y (by simp [hy]))]
        simp
    have e1 : List.range (contents ds ind).cov.length = ds.zipIdx.map (·.2) := by
      simp [contents, List.range_eq_range', List.zipIdx_map_snd]
    rw [e1, key]
    · rw [List.nil_append]
      congr 1
      apply List.ext_getElem?
      intro i
      simp only [List.getElem?_map, List.getElem?_zipIdx]
      cases ds[i]? <;> simp
    · intro x hx
      obtain ⟨i, hi⟩ := List.getElem?_of_mem hx
      rw [List.getElem?_zipIdx] at hi
      cases hh : ds[i]? with
      | none => rw [hh] at hi; simp at hi
      | some d =>
        rw [hh] at hi
        simp at hi
        subst hi
        simpa using hh
  · intro d hdm
    have hok := hd d hdm
    rcases d with ⟨sp, a, m, E⟩
    cases E with
    | inl e => exact ⟨trivial, rfl, rfl, rfl, rfl, rfl, fun _ => rfl⟩
    | inr es =>
      simp only [Dep.OK] at hok
      have hl : (es ++ List.replicate (4 - es.length) (0 : ℝ)).length = 4 := by
        simp; omega
      refine ⟨by simp only [Dep.OK, Dep.full, hl]; omega, rfl, rfl, rfl, rfl, ?_, ?_⟩
      · simp only [energies, Dep.full, hl]; simp
      · intro x
        simp only [Dep.energy, Dep.full]
        rw [List.zipIdx_append, List.map_append, List.sum_append]
        have : ((List.replicate (4 - es.length) (0 : ℝ)).zipIdx (0 + es.length)).map
            (fun y => y.1 * x ^ (y.2 + 1)) = List.replicate (4 - es.length) 0 := by
          apply List.ext_getElem?
          intro i
          simp only [List.getElem?_map, List.getElem?_zipIdx, List.getElem?_replicate]
          split_ifs <;> simp
        rw [this]
        simp

example : ((Base.new : Base ℕ).setDeps [⟨7, 1, 2, .inl 300⟩, ⟨9, 0, 0, .inr [100, 50]⟩]).1.getDeps =
    .ok [⟨7, 1, 2, .inl 300⟩, ⟨9, 0, 0, .inr [100, 50, 0, 0]⟩] := by
  rw [(coverage_roundtrip _ _ (by intro d hd; simp at hd; rcases hd with rfl | rfl <;> simp [Dep.OK])
    (by simp)).1]
  simp [Dep.full]

/-- C59: dependencies on the same species are rejected, as are species unknown to the phase. -/
theorem coverage_rejects (b : Base N) :
    (∀ sp a m e, sp ∈ b.cov → b.add sp a m e = (b, false)) ∧
    (∀ species, (∃ sp ∈ b.cov, sp ∉ species) → (b.setSpecies species).2 = false) := by
  refine ⟨fun sp a m e h => by rw [Base.add, if_pos h], ?_⟩
  intro species ⟨sp, h1, h2⟩
  simp only [Base.setSpecies]
  apply setSpLoop_bad
  obtain ⟨i, hi⟩ := List.getElem?_of_mem h1
  refine ⟨(sp, i), ?_, h2⟩
  apply List.mem_of_getElem? (i := i)
  rw [List.getElem?_zipIdx, hi]; simp

example : (contents [(⟨7, 1, 2, .inl 300⟩ : Dep ℕ)] []).add 7 0 0 [] =
    (contents [⟨7, 1, 2, .inl 300⟩] [], false) ∧
    ((contents [(⟨7, 1, 2, .inl 300⟩ : Dep ℕ)] []).setSpecies [1, 2]).2 = false :=
  ⟨(coverage_rejects _).1 _ _ _ _ (by simp [contents]),
   (coverage_rejects _).2 _ ⟨7, by simp [contents], by simp⟩⟩

/-- C59, finding: the public member `addCoverageDependence` does not extend `m_lindep`; after adding a
dependency that way, evaluating the rate (or reading the dependencies) indexes `m_lindep` out of range. -/
theorem add_alone_is_ub (sp : N) (a m : ℝ) (e : List ℝ) (species : List N) (h : sp ∈ species)
    (th lth : ℕ → ℝ) :
    ((Base.new : Base N).add sp a m e).2 = true ∧
    ((((Base.new : Base N).add sp a m e).1).setSpecies species).2 = true ∧
    ((((Base.new : Base N).add sp a m e).1).setSpecies species).1.update th lth = .ub ∧
    (((Base.new : Base N).add sp a m e).1).getDeps = .ub := by
  have e1 : (Base.new : Base N).add sp a m e = (⟨[sp], [a], [e], [m], [], []⟩, true) := by
    simp [Base.add, Base.new]
  rw [e1]
  refine ⟨rfl, by simp [Base.setSpecies, setSpLoop, h], ?_, ?_⟩
  · simp [Base.setSpecies, setSpLoop, h, Base.update, Base.termStep, at?, Bind.bind, Outcome.bind]
  · simp [Base.getDeps, Base.getDep, at?, Bind.bind, Outcome.bind, List.range_succ]

/-- C59, finding: an empty set of dependencies leaves `m_indices` as they were: replacing existing dependencies by
none makes the rate NaN until `setSpecies` is called again. -/
theorem clearing_gives_nan (b : Base N) (h : b.indices ≠ []) (th lth : ℕ → ℝ) :
    (b.setDeps []).2 = true ∧ (b.setDeps []).1.update th lth = .ok none ∧
    ∀ species, ((b.setDeps []).1.setSpecies species).1.update th lth = .ok (some ⟨0, 0, 0⟩) := by
  refine ⟨rfl, ?_, ?_⟩
  · have e : (b.setDeps []).1 = { b with cov := [], ac := [], ec := [], mc := [], lindep := [] } := rfl
    rw [e, Base.update, if_pos (by simpa using h)]
  · intro species
    simp [Base.setDeps, Base.setLoop, Base.setSpecies, setSpLoop, Base.update, Outcome.pure_eq]

example : (contents [(⟨7, 1, 2, .inl 300⟩ : Dep ℕ)] [(0, 0)]).indices ≠ [] := by simp [contents]

/-! ## Sticking coefficients -/

/-- What `StickingCoverage::setContext` reads about a species. -/
structure SpInfo where
  /-- index of its phase; 0 is the surface -/
  phase : ℕ
  /-- `phaseOfMatter() == "gas"` -/
  gas : Bool
  mw : ℝ
  /-- `SurfPhase::size` -/
  size : ℝ
  /-- `standardConcentration(k)` at the time of the call -/
  c0 : ℝ

/-- Members of `StickingCoverage` (InterfaceRate.h:352-359); an empty name is `none`, as is NaN. -/
structure Stick (N : Type) where
  motzWise : Bool
  explicitMotz : Bool
  species : Option N
  explicitSpecies : Bool
  siteDensity : Option ℝ
  order : Option ℝ
  mult : Option ℝ

def Stick.new : Stick N := ⟨false, false, none, false, none, none, none⟩

/-- Choice of the sticking species (l. 345-376); `none` if it throws. -/
def findSticking (info : N → SpInfo) (reac : List (N × ℝ)) : Option N :=
  let any := (reac.map (·.1)).filter (fun s => (info s).phase ≠ 0)
  let gas := any.filter (fun s => (info s).gas)
  match gas, any with
  | [g], _ => some g
  | _, [s] => some s
  | _, _ => none

/-- Order of a reactant: `getValue(rxn.orders, name, stoich)` (l. 396). -/
noncomputable def orderOf (orders : N → Option ℝ) (x : N × ℝ) : ℝ := (orders x.1).getD x.2

/-- Loop body l. 382-405 on (surface order, multiplier). -/
noncomputable def stickStep (info : N → SpInfo) (orders : N → Option ℝ) (g : N) (s : ℝ × ℝ) (x : N × ℝ) :
    ℝ × ℝ :=
  if x.1 = g then (s.1, s.2 * sqrt (gasConstant / (2 * π * (info x.1).mw)))
  else if (info x.1).phase = 0 then
    (s.1 + orderOf orders x, s.2 * (info x.1).size ^ orderOf orders x)
  else (s.1, s.2 * (info x.1).c0 ^ (-(orderOf orders x)))

/-- `StickingCoverage::setContext` (l. 334-408); `surfMW` is the flag "Motz-Wise" of the phase. -/
noncomputable def Stick.setContext (s : Stick N) (info : N → SpInfo) (surfMW : Bool) (site : ℝ)
    (reac : List (N × ℝ)) (orders : N → Option ℝ) : Stick N × Bool :=
  let s := { s with siteDensity := some site, motzWise := if s.explicitMotz then s.motzWise else surfMW }
  match (s.species <|> findSticking info reac) with
  | none => (s, false)
  | some g =>
    let r := reac.foldl (stickStep info orders g) (0, 1)
    ({ s with species := some g, order := some r.1, mult := some r.2 }, true)

/-- `StickingRate::evalFromStruct` (InterfaceRate.h:546-568): `g0` is the sticking coefficient including the coverage
factor. -/
noncomputable def Stick.eval (s : Stick N) (g0 T : ℝ) : Option ℝ :=
  match s.siteDensity, s.order, s.mult with
  | some d, some o, some m =>
    some ((if s.motzWise then g0 / (1 - 0.5 * g0) else g0) * d ^ (-o) * sqrt T * m)
  | _, _, _ => none

theorem stick_fold (info : N → SpInfo) (orders : N → Option ℝ) (g : N) (G : ℝ) (hG : 0 < G)
    (c : N → ℝ) (l : List (N × ℝ)) (hl : ∀ x ∈ l, x.1 ≠ g → 0 < c x.1 ∧
      ((info x.1).phase = 0 → 0 < (info x.1).size) ∧ ((info x.1).phase ≠ 0 → 0 < (info x.1).c0))
    (s : ℝ × ℝ) :
    let r := l.foldl (stickStep info orders g) s
    G ^ (-r.1) * r.2 * (l.map (fun x => if x.1 = g then 1 else c x.1 ^ orderOf orders x)).prod =
      G ^ (-s.1) * s.2 * (l.map (fun x =>
        if x.1 = g then sqrt (gasConstant / (2 * π * (info x.1).mw))
        else if (info x.1).phase = 0 then (c x.1 * (info x.1).size / G) ^ orderOf orders x
        else (c x.1 / (info x.1).c0) ^ orderOf orders x)).prod := by
  induction l generalizing s with
  | nil => simp
  | cons x l ih =>
    have hx := hl x (by simp)
    have h1 := ih (fun y hy => hl y (by simp [hy])) (stickStep info orders g s x)
    simp only [List.foldl_cons, List.map_cons, List.prod_cons] at h1 ⊢
    set r := l.foldl (stickStep info orders g) (stickStep info orders g s x) with hr
    set P := (l.map (fun x => if x.1 = g then (1 : ℝ) else c x.1 ^ orderOf orders x)).prod with hP
    have step : G ^ (-(stickStep info orders g s x).1) * (stickStep info orders g s x).2 *
        (if x.1 = g then 1 else c x.1 ^ orderOf orders x) = G ^ (-s.1) * s.2 *
        (if x.1 = g then sqrt (gasConstant / (2 * π * (info x.1).mw))
        else if (info x.1).phase = 0 then (c x.1 * (info x.1).size / G) ^ orderOf orders x
        else (c x.1 / (info x.1).c0) ^ orderOf orders x) := by
      unfold stickStep
      by_cases e : x.1 = g
      · simp only [e, if_true]; ring
      · obtain ⟨hc, hsz, hc0⟩ := hx e
        by_cases hp : (info x.1).phase = 0
        · simp only [e, hp, if_true, if_false]
          rw [neg_add, rpow_add hG, div_rpow (mul_pos hc (hsz hp)).le hG.le, mul_rpow hc.le (hsz hp).le,
            rpow_neg hG.le (orderOf orders x)]
          field_simp
        · simp only [e, hp, if_false]
          rw [div_rpow hc.le (hc0 hp).le, rpow_neg (hc0 hp).le]
          field_simp
    calc G ^ (-r.1) * r.2 * ((if x.1 = g then 1 else c x.1 ^ orderOf orders x) * P)
        = (G ^ (-r.1) * r.2 * P) * (if x.1 = g then 1 else c x.1 ^ orderOf orders x) := by ring
      _ = _ := by rw [h1, mul_right_comm, step]; ring

theorem sticking_rate_aux (s : Stick N) (info : N → SpInfo) (surfMW : Bool) (site : ℝ) (reac : List (N × ℝ))
    (orders : N → Option ℝ) (g : N) (hs : (s.species <|> findSticking info reac) = some g)
    (hnd : (reac.map (·.1)).Nodup) (hg : g ∈ reac.map (·.1))
    (hG : 0 < site) (c : N → ℝ) (hl : ∀ x ∈ reac, x.1 ≠ g → 0 < c x.1 ∧
      ((info x.1).phase = 0 → 0 < (info x.1).size) ∧ ((info x.1).phase ≠ 0 → 0 < (info x.1).c0))
    (g0 T : ℝ) (hT : 0 < T) :
    (s.setContext info surfMW site reac orders).2 = true ∧
    ∃ k, (s.setContext info surfMW site reac orders).1.eval g0 T = some k ∧
      k * ((reac.filter (·.1 ≠ g)).map (fun x => c x.1 ^ orderOf orders x)).prod =
        (if (if s.explicitMotz then s.motzWise else surfMW) then g0 / (1 - g0 / 2) else g0) *
        sqrt (gasConstant * T / (2 * π * (info g).mw)) *
        ((reac.filter (·.1 ≠ g)).map (fun x =>
          if (info x.1).phase = 0 then (c x.1 * (info x.1).size / site) ^ orderOf orders x
          else (c x.1 / (info x.1).c0) ^ orderOf orders x)).prod := by
  have hctx : s.setContext info surfMW site reac orders =
      ({ s with siteDensity := some site, motzWise := if s.explicitMotz then s.motzWise else surfMW,
                species := some g, order := some (reac.foldl (stickStep info orders g) (0, 1)).1,
                mult := some (reac.foldl (stickStep info orders g) (0, 1)).2 }, true) := by
    rw [Stick.setContext]
    simp only [hs]
  rw [hctx]
  refine ⟨rfl, _, rfl, ?_⟩
  have hf := stick_fold info orders g site hG c reac hl (0, 1)
  simp only [neg_zero, rpow_zero, one_mul] at hf
  have split1 : ∀ (l : List (N × ℝ)) (u : N × ℝ → ℝ), (l.map (·.1)).Nodup →
      (l.map (fun x => if x.1 = g then 1 else u x)).prod = ((l.filter (·.1 ≠ g)).map u).prod := by
    intro l u _
    induction l with
    | nil => simp
    | cons x l ih =>
      by_cases e : x.1 = g
      · rw [List.map_cons, List.prod_cons, if_pos e, one_mul, List.filter_cons_of_neg (by simp [e])]
        exact ih (by simp_all)
      · rw [List.map_cons, List.prod_cons, if_neg e, List.filter_cons_of_pos (by simp [e]),
          List.map_cons, List.prod_cons]
        rw [ih (by simp_all)]
  have split2 : ∀ (l : List (N × ℝ)) (u : N × ℝ → ℝ) (w : ℝ), (l.map (·.1)).Nodup → g ∈ l.map (·.1) →
      (l.map (fun x => if x.1 = g then w else u x)).prod = w * ((l.filter (·.1 ≠ g)).map u).prod := by
    intro l u w hnd hg
    induction l with
    | nil => simp at hg
    | cons x l ih =>
      by_cases e : x.1 = g
      · rw [List.map_cons, List.prod_cons, if_pos e, List.filter_cons_of_neg (by simp [e])]
        congr 1
        have hno : ∀ y ∈ l, y.1 ≠ g := by
          intro y hy h'
          rw [List.map_cons, List.nodup_cons] at hnd
          exact hnd.1 (by rw [e, ← h']; exact List.mem_map_of_mem hy)
        rw [List.filter_eq_self.2 (fun y hy => by simpa using hno y hy)]
        congr 1
        exact List.map_congr_left fun y hy => by rw [if_neg (hno y hy)]
      · rw [List.map_cons, List.prod_cons, if_neg e, List.filter_cons_of_pos (by simp [e]),
          List.map_cons, List.prod_cons, ih]
        · ring
        · rw [List.map_cons, List.nodup_cons] at hnd; exact hnd.2
        · rw [List.map_cons, List.mem_cons] at hg
          rcases hg with h | h
          · exact absurd h.symm e
          · exact h
  rw [split1 reac (fun x => c x.1 ^ orderOf orders x) hnd] at hf
  have e2 : (reac.map (fun x =>
        if x.1 = g then sqrt (gasConstant / (2 * π * (info x.1).mw))
        else if (info x.1).phase = 0 then (c x.1 * (info x.1).size / site) ^ orderOf orders x
        else (c x.1 / (info x.1).c0) ^ orderOf orders x)) = (reac.map (fun x =>
        if x.1 = g then sqrt (gasConstant / (2 * π * (info g).mw))
        else if (info x.1).phase = 0 then (c x.1 * (info x.1).size / site) ^ orderOf orders x
        else (c x.1 / (info x.1).c0) ^ orderOf orders x)) := by
    apply List.map_congr_left
    intro x _
    by_cases e : x.1 = g
    · simp only [e, if_true]
    · simp only [e, if_false]
  rw [e2, split2 reac (fun x => if (info x.1).phase = 0 then (c x.1 * (info x.1).size / site) ^ orderOf orders x
        else (c x.1 / (info x.1).c0) ^ orderOf orders x) _ hnd hg] at hf
  have hsq : sqrt T * sqrt (gasConstant / (2 * π * (info g).mw)) =
      sqrt (gasConstant * T / (2 * π * (info g).mw)) := by
    rw [← sqrt_mul hT.le]; congr 1; ring
  rw [← hsq]
  have hhalf : (0.5 : ℝ) * g0 = g0 / 2 := by ring
  simp only [hhalf]
  generalize (if (if s.explicitMotz then s.motzWise else surfMW) then g0 / (1 - g0 / 2) else g0) = ge
  linear_combination ge * sqrt T * hf

/-- C59, sticking: for every sticking reaction, the rate constant times the activity concentrations of the non-sticking
reactants is the (corrected) sticking coefficient times `sqrt(RT/(2πW))`, times the coverages of the surface
reactants (`θ = c σ / Γ`) and the activities `c/c°` of other reactants, to their orders. The remaining
factor of the rate of progress is the concentration of the sticking species. -/
theorem sticking_rate (s : Stick N) (info : N → SpInfo) (surfMW : Bool) (site : ℝ) (reac : List (N × ℝ))
    (orders : N → Option ℝ) (g : N) (hs : (s.species <|> findSticking info reac) = some g)
    (hnd : (reac.map (·.1)).Nodup) (hg : g ∈ reac.map (·.1))
    (hG : 0 < site) (c : N → ℝ) (hl : ∀ x ∈ reac, x.1 ≠ g → 0 < c x.1 ∧
      ((info x.1).phase = 0 → 0 < (info x.1).size) ∧ ((info x.1).phase ≠ 0 → 0 < (info x.1).c0))
    (g0 T : ℝ) (hT : 0 < T) :
    (s.setContext info surfMW site reac orders).2 = true ∧
    ∃ k, (s.setContext info surfMW site reac orders).1.eval g0 T = some k ∧
      k * ((reac.filter (·.1 ≠ g)).map (fun x => c x.1 ^ (orders x.1).getD x.2)).prod =
        (if (if s.explicitMotz then s.motzWise else surfMW) then g0 / (1 - g0 / 2) else g0) *
        sqrt (gasConstant * T / (2 * π * (info g).mw)) *
        ((reac.filter (·.1 ≠ g)).map (fun x =>
          if (info x.1).phase = 0 then (c x.1 * (info x.1).size / site) ^ (orders x.1).getD x.2
          else (c x.1 / (info x.1).c0) ^ (orders x.1).getD x.2)).prod :=
  sticking_rate_aux s info surfMW site reac orders g hs hnd hg hG c hl g0 T hT

/-- Surface species 0 (two sites), gas species 1 with unit weight. -/
noncomputable def exInfo (k : ℕ) : SpInfo := if k = 0 then ⟨0, false, 1, 2, 1⟩ else ⟨1, true, 1, 1, 1⟩

example : ((Stick.new : Stick ℕ).setContext exInfo false 3 [(0, 2), (1, 1)] (fun _ => none)).2 = true ∧
    ∃ k, ((Stick.new : Stick ℕ).setContext exInfo false 3 [(0, 2), (1, 1)] (fun _ => none)).1.eval (1 / 2) 300 =
      some k ∧ k * (6 : ℝ) ^ (2 : ℝ) = 1 / 2 * sqrt (gasConstant * 300 / (2 * π * 1)) * 4 ^ (2 : ℝ) := by
  obtain ⟨h1, k, h2, h3⟩ := sticking_rate (Stick.new : Stick ℕ) exInfo false 3 [(0, 2), (1, 1)] (fun _ => none) 1
    (by decide) (by simp) (by simp) (by norm_num) (fun _ => 6)
    (by intro x _ _; norm_num [exInfo]; split_ifs <;> norm_num) (1 / 2) 300 (by norm_num)
  refine ⟨h1, k, h2, ?_⟩
  norm_num [exInfo, Stick.new, orderOf] at h3 ⊢
  linarith

/-- C59, Motz–Wise correction: for sticking coefficients between zero and one the corrected value lies between the
coefficient and its double, and increases with it. -/
theorem motz_wise_bounds (g0 : ℝ) (h0 : 0 ≤ g0) (h1 : g0 ≤ 1) :
    g0 ≤ g0 / (1 - 0.5 * g0) ∧ g0 / (1 - 0.5 * g0) ≤ 2 * g0 ∧
    ∀ g1, g0 ≤ g1 → g1 ≤ 1 → g0 / (1 - 0.5 * g0) ≤ g1 / (1 - 0.5 * g1) := by
  have hd : 0 < 1 - 0.5 * g0 := by linarith
  refine ⟨?_, ?_, ?_⟩
  · rw [le_div_iff₀ hd]; nlinarith
  · rw [div_le_iff₀ hd]; nlinarith
  · intro g1 h2 h3
    rw [div_le_div_iff₀ hd (by linarith)]
    nlinarith

example : (1 : ℝ) / (1 - 0.5 * 1) = 2 := by norm_num

/-- C59: rules for the choice of the sticking species: a single reactant in a gas phase, otherwise a single
reactant outside the surface; in all other cases the reaction is rejected. -/
theorem sticking_species_choice (info : N → SpInfo) (reac : List (N × ℝ)) (g : N) :
    findSticking info reac = some g ↔
      ((reac.map (·.1)).filter (fun s => (info s).phase ≠ 0 ∧ (info s).gas = true) = [g] ∨
      ((∀ s, (reac.map (·.1)).filter (fun s => (info s).phase ≠ 0 ∧ (info s).gas = true) ≠ [s]) ∧
        (reac.map (·.1)).filter (fun s => (info s).phase ≠ 0) = [g])) := by
  have e : ((reac.map (·.1)).filter (fun s => decide ((info s).phase ≠ 0))).filter (fun s => (info s).gas) =
      (reac.map (·.1)).filter (fun s => decide ((info s).phase ≠ 0 ∧ (info s).gas = true)) := by
    rw [List.filter_filter]
    congr 1
    funext s
    by_cases h1 : (info s).phase = 0 <;> cases h2 : (info s).gas <;> simp [h1]
  unfold findSticking
  simp only [e]
  generalize (reac.map (·.1)).filter (fun s => decide ((info s).phase ≠ 0 ∧ (info s).gas = true)) = gas
  generalize (reac.map (·.1)).filter (fun s => decide ((info s).phase ≠ 0)) = any
  match gas, any with
  | [x], _ => simp
  | [], [] => simp
  | [], [y] => simp
  | [], _ :: _ :: _ => simp
  | _ :: _ :: _, [] => simp
  | _ :: _ :: _, [y] => simp
  | _ :: _ :: _, _ :: _ :: _ => simp

example : findSticking exInfo [(0, 2), (1, 1)] = some 1 ∧ findSticking exInfo [(0, 2)] = none ∧
    findSticking exInfo [(1, 1), (2, 1)] = none := by
  refine ⟨by decide, by decide, by decide⟩

/-- C59, finding: a species found automatically is stored like one given explicitly; when the rate object is used for
another reaction, the new reaction is not searched and the stored name is used although it is not a reactant, so that the
factor for the molecular weight is lost. -/
theorem stale_sticking_species : ∃ (s : Stick ℕ), s = ((Stick.new : Stick ℕ).setContext exInfo false 3
      [(0, 2), (1, 1)] (fun _ => none)).1 ∧
    findSticking exInfo [(0, 2), (2, 1)] = some 2 ∧ s.explicitSpecies = false ∧
    (s.setContext exInfo false 3 [(0, 2), (2, 1)] (fun _ => none)).2 = true ∧
    (s.setContext exInfo false 3 [(0, 2), (2, 1)] (fun _ => none)).1.species = some 1 ∧
    (s.setContext exInfo false 3 [(0, 2), (2, 1)] (fun _ => none)).1.mult = some 4 ∧
    ((Stick.new : Stick ℕ).setContext exInfo false 3 [(0, 2), (2, 1)] (fun _ => none)).1.mult =
      some (4 * sqrt (gasConstant / (2 * π * 1))) := by
  have f1 : findSticking exInfo [(0, 2), (1, 1)] = some 1 := by decide
  have f2 : findSticking exInfo [(0, 2), (2, 1)] = some 2 := by decide
  refine ⟨_, rfl, f2, rfl, ?_, ?_, ?_, ?_⟩
  · simp [Stick.setContext, Stick.new, f1]
  · simp [Stick.setContext, Stick.new, f1]
  · simp [Stick.setContext, Stick.new, f1, stickStep, exInfo, orderOf]
    norm_num
  · simp [Stick.setContext, Stick.new, f2, stickStep, exInfo, orderOf]
    norm_num

/-- C59: `setStickingWeight` and `stickingWeight` are inverse (InterfaceRate.h:329-343). -/
theorem sticking_weight_roundtrip (w : ℝ) (hw : 0 < w) :
    gasConstant / (2 * π * sqrt (gasConstant / (2 * π * w)) * sqrt (gasConstant / (2 * π * w))) = w := by
  have hR : 0 < gasConstant := by norm_num [gasConstant]
  rw [mul_assoc, mul_self_sqrt (by positivity)]
  field_simp

end Verif.Rates.Coverage
