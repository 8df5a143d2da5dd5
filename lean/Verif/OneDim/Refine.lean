import Verif.Basic
import Mathlib.Data.Real.Basic
import Mathlib.Data.Finset.Insert
import Mathlib.Data.Finset.Card
import Mathlib.Data.List.Flatten
import Mathlib.Data.List.Pairwise
import Mathlib.Tactic.Linarith
import Mathlib.Tactic.Positivity
import Mathlib.Tactic.SplitIfs
import Mathlib.Tactic.NormNum
import Mathlib.Tactic.Ring
import Mathlib.Tactic.FieldSimp

/-!
# C28: grid refinement

Model of `Refiner::analyze` (`src/oneD/refine.cpp:43-209`) and `Sim1D::refine`
(`src/oneD/Sim1D.cpp:511-596`).

Not modelled: log output and the set of component names it uses, not-a-number values, the check that the
number of points passed equals that of the domain (refine.cpp:54, the only caller passes the grid of the
domain), the saved copies `m_xlast_ss`, `m_grid_last_ss`.
-/

namespace Verif.Refine

open Verif

/-- refine.h:177-181 `GridPointStatus`; a key absent from the map `m_keep` reads as `UNSET`. -/
inductive Mark where
  | unset
  | keep
  | remove
  deriving DecidableEq

/-- The criteria and limits of a refiner (refine.h:192-208). -/
structure Crit where
  ratio : ℝ
  slope : ℝ
  curve : ℝ
  prune : ℝ
  minRange : ℝ
  thresh : ℝ
  gridmin : ℝ
  npmax : ℕ

/-- A domain as seen by the refiner: number of points, their coordinates, number of components, values
`val i j` of component `i` at point `j`, which components are active, and which coordinates must stay: the
fixed temperature of a free flame and the control points of a two-point controlled flame
(refine.cpp:185-197). -/
structure Grid where
  n : ℕ
  z : ℕ → ℝ
  nv : ℕ
  val : ℕ → ℕ → ℝ
  active : ℕ → Bool
  fixed : ℝ → Bool

/-- `m_keep` and `m_insertPts` (refine.h:174-184). -/
structure R where
  keep : ℕ → Mark
  ins : Finset ℕ

/-- `dz[j]` (refine.cpp:73-76). -/
def Grid.dz (g : Grid) (j : ℕ) : ℝ := g.z (j + 1) - g.z j

/-- `slope[j]` of component `i` (refine.cpp:87-89). -/
noncomputable def Grid.slope (g : Grid) (i j : ℕ) : ℝ := (g.val i (j + 1) - g.val i j) / g.dz j

/-- `*min_element` over the places `0..k`. -/
noncomputable def minTo (f : ℕ → ℝ) : ℕ → ℝ
  | 0 => f 0
  | k + 1 => min (minTo f k) (f (k + 1))

/-- `*max_element` over the places `0..k`. -/
noncomputable def maxTo (f : ℕ → ℝ) : ℕ → ℝ
  | 0 => f 0
  | k + 1 => max (maxTo f k) (f (k + 1))

/-- The range of a list of values, e.g. `valMax - valMin`. -/
noncomputable def range (f : ℕ → ℝ) (k : ℕ) : ℝ := maxTo f k - minTo f k

/-- `valMagnitude`, `slopeMagnitude` (refine.cpp:98-99). -/
noncomputable def magnitude (f : ℕ → ℝ) (k : ℕ) : ℝ := max |maxTo f k| |minTo f k|

/-- `m_keep[j] = KEEP`. -/
def R.setKeep (s : R) (j : ℕ) : R := { s with keep := fun i => if i = j then .keep else s.keep i }

/-- `if (m_keep[j] == UNSET) m_keep[j] = REMOVE`. -/
def R.drop (s : R) (j : ℕ) : R :=
  { s with keep := fun i => if i = j ∧ s.keep j = .unset then .remove else s.keep i }

/-- `m_insertPts.insert(j)`. -/
def R.insert (s : R) (j : ℕ) : R := { s with ins := Insert.insert j s.ins }

/-- refine.cpp:109: change of component `i` between points `j` and `j+1` relative to the allowed one. -/
noncomputable def valRatio (c : Crit) (g : Grid) (i j : ℕ) : ℝ :=
  |g.val i (j + 1) - g.val i j| / (c.slope * range (g.val i) (g.n - 1) + c.thresh)

/-- refine.cpp:134: change of slope relative to the allowed one. -/
noncomputable def curveRatio (c : Crit) (g : Grid) (i j : ℕ) : ℝ :=
  |g.slope i (j + 1) - g.slope i j| /
    (c.curve * range (g.slope i) (g.n - 2) + c.thresh / g.dz j)

open Classical in
/-- refine.cpp:109-119. -/
noncomputable def valStep (c : Crit) (g : Grid) (i : ℕ) (s : R) (j : ℕ) : R :=
  let s1 := if valRatio c g i j > 1 ∧ g.dz j ≥ 2 * c.gridmin then s.insert j else s
  if valRatio c g i j ≥ c.prune then (s1.setKeep j).setKeep (j + 1) else s1.drop j

open Classical in
/-- refine.cpp:134-144. -/
noncomputable def curveStep (c : Crit) (g : Grid) (i : ℕ) (s : R) (j : ℕ) : R :=
  let s1 := if curveRatio c g i j > 1 ∧ g.dz j ≥ 2 * c.gridmin ∧ g.dz (j + 1) ≥ 2 * c.gridmin then
    (s.insert j).insert (j + 1) else s
  if curveRatio c g i j ≥ c.prune then s1.setKeep (j + 1) else s1.drop (j + 1)

open Classical in
/-- refine.cpp:104-121. -/
noncomputable def valPass (c : Crit) (g : Grid) (s : R) (i : ℕ) : R :=
  if range (g.val i) (g.n - 1) > c.minRange * magnitude (g.val i) (g.n - 1) then
    (List.range (g.n - 1)).foldl (valStep c g i) s
  else s

open Classical in
/-- refine.cpp:127-146. -/
noncomputable def curvePass (c : Crit) (g : Grid) (s : R) (i : ℕ) : R :=
  if range (g.slope i) (g.n - 2) > c.minRange * magnitude (g.slope i) (g.n - 2) then
    (List.range (g.n - 2)).foldl (curveStep c g i) s
  else s

/-- refine.cpp:78-148: one component. -/
noncomputable def compPass (c : Crit) (g : Grid) (s : R) (i : ℕ) : R :=
  if g.active i then curvePass c g (valPass c g s i) i else s

open Classical in
/-- refine.cpp:154-161. -/
noncomputable def leftStep (c : Crit) (g : Grid) (s : R) (j : ℕ) : R :=
  if g.dz j > c.ratio * g.dz (j - 1) then
    ((((s.insert j).setKeep (j - 1)).setKeep j).setKeep (j + 1)).setKeep (j + 2)
  else s

open Classical in
/-- refine.cpp:164-171.  For `j = 1` the key `j-2` wraps around to the largest `size_t`, which is never
read. -/
noncomputable def rightStep (c : Crit) (g : Grid) (s : R) (j : ℕ) : R :=
  if g.dz (j - 1) > c.ratio * g.dz j then
    let s1 := if 2 ≤ j then (s.insert (j - 1)).setKeep (j - 2) else s.insert (j - 1)
    ((s1.setKeep (j - 1)).setKeep j).setKeep (j + 1)
  else s

open Classical in
/-- refine.cpp:175-197. -/
noncomputable def keepStep (c : Crit) (g : Grid) (s : R) (j : ℕ) : R :=
  if (j > 1 ∧ g.z (j + 1) - g.z (j - 1) > c.ratio * g.dz (j - 2)) ∨
     (j < g.n - 2 ∧ g.z (j + 1) - g.z (j - 1) > c.ratio * g.dz (j + 1)) ∨
     g.fixed (g.z j) then
    s.setKeep j
  else s

/-- refine.cpp:151-198, for `j = k + 1`. -/
noncomputable def gridStep (c : Crit) (g : Grid) (s : R) (k : ℕ) : R :=
  keepStep c g (rightStep c g (leftStep c g s (k + 1)) (k + 1)) (k + 1)

/-- refine.cpp:202-206, for `j = k + 2`. -/
def pruneStep (s : R) (k : ℕ) : R :=
  if s.keep (k + 2) = .remove ∧ s.keep (k + 1) = .remove then s.setKeep (k + 2) else s

/-- refine.cpp:59-65: the state at the start of the analysis. -/
def start (g : Grid) : R :=
  (({ keep := fun _ => .unset, ins := ∅ } : R).setKeep 0).setKeep (g.n - 1)

/-- refine.cpp:78-198: before the last loop. -/
noncomputable def marked (c : Crit) (g : Grid) : R :=
  (List.range (g.n - 2)).foldl (gridStep c g) ((List.range g.nv).foldl (compPass c g) (start g))

/-- refine.cpp:43-209 `analyze`, with the state of the refiner before. -/
noncomputable def analyze (c : Crit) (g : Grid) (old : R) : Outcome R :=
  if g.n ≥ c.npmax then .throw
  else if g.n ≤ 1 then .ok old
  else .ok ((List.range (g.n - 3)).foldl pruneStep (marked c g))

/-- A point of the new grid: its coordinate and the values of the components. -/
abbrev Pt := ℝ × (ℕ → ℝ)

/-- Sim1D.cpp:544-549. -/
def oldPt (g : Grid) (m : ℕ) : Pt := (g.z m, fun i => g.val i m)

/-- Sim1D.cpp:556-565. -/
noncomputable def midPt (g : Grid) (m : ℕ) : Pt :=
  (0.5 * (g.z m + g.z (m + 1)), fun i => 0.5 * (g.val i m + g.val i (m + 1)))

/-- Sim1D.cpp:542-572: what point `m` contributes to the new grid. -/
noncomputable def block (g : Grid) (s : R) (m : ℕ) : List Pt :=
  if s.keep m ≠ .remove then
    oldPt g m :: (if m ∈ s.ins ∧ m + 1 < g.n then [midPt g m] else [])
  else []

/-- Sim1D.cpp:541-573: the new grid of a domain. -/
noncomputable def newGrid (g : Grid) (s : R) : List Pt := (List.range g.n).flatMap (block g s)

/-- Sim1D.cpp:558: how often `added++` is executed. -/
def inserted (g : Grid) (s : R) : ℕ :=
  (List.range g.n).countP fun m => decide (s.keep m ≠ .remove ∧ m ∈ s.ins ∧ m + 1 < g.n)

/-- Sim1D.cpp:568: how often `discarded++` is executed. -/
def discarded (g : Grid) (s : R) : ℕ :=
  (List.range g.n).countP fun m => decide (s.keep m = .remove)

/-- Sim1D.cpp:521-575: all domains; the new grids, `added` and `discarded`. -/
noncomputable def refineDoms : List (Crit × Grid × R) → Outcome (List (List Pt) × ℕ × ℕ)
  | [] => .ok ([], 0, 0)
  | (c, g, old) :: ds => do
    let s ← analyze c g old
    let r ← refineDoms ds
    .ok (newGrid g s :: r.1, s.ins.card + inserted g s + r.2.1, discarded g s + r.2.2)

/-- Sim1D.cpp:595: `added || -discarded` is a boolean converted to `int`. -/
def retVal (added discarded : ℕ) : ℤ := if added ≠ 0 ∨ -(discarded : ℤ) ≠ 0 then 1 else 0

/-- Sim1D.cpp:511-596 `refine`: the new grids of the domains and the return value. -/
noncomputable def refine (ds : List (Crit × Grid × R)) : Outcome (List (List Pt) × ℤ) := do
  let r ← refineDoms ds
  .ok (r.1, retVal r.2.1 r.2.2)

/-! ## What the steps preserve -/

/-- `s'` keeps all points marked for keeping and all requested insertions of `s`. -/
def Le (s s' : R) : Prop := (∀ j, s.keep j = .keep → s'.keep j = .keep) ∧ s.ins ⊆ s'.ins

theorem Le.refl (s : R) : Le s s := ⟨fun _ h => h, Finset.Subset.refl _⟩

theorem Le.trans {a b d : R} (h1 : Le a b) (h2 : Le b d) : Le a d :=
  ⟨fun j h => h2.1 j (h1.1 j h), Finset.Subset.trans h1.2 h2.2⟩

theorem le_setKeep (s : R) (j : ℕ) : Le s (s.setKeep j) := by
  refine ⟨fun i h => ?_, Finset.Subset.refl _⟩
  simp only [R.setKeep]
  split_ifs
  · rfl
  · exact h

theorem le_drop (s : R) (j : ℕ) : Le s (s.drop j) := by
  refine ⟨fun i h => ?_, Finset.Subset.refl _⟩
  simp only [R.drop]
  split_ifs with hc
  · rw [hc.1, hc.2] at h
    cases h
  · exact h

theorem le_insert (s : R) (j : ℕ) : Le s (s.insert j) :=
  ⟨fun _ h => h, Finset.subset_insert _ _⟩

theorem setKeep_self (s : R) (j : ℕ) : (s.setKeep j).keep j = .keep := by simp [R.setKeep]

theorem insert_self (s : R) (j : ℕ) : j ∈ (s.insert j).ins := by simp [R.insert]

theorem le_valStep (c : Crit) (g : Grid) (i : ℕ) (s : R) (j : ℕ) : Le s (valStep c g i s j) := by
  unfold valStep
  have h1 : Le s (if valRatio c g i j > 1 ∧ g.dz j ≥ 2 * c.gridmin then s.insert j else s) := by
    split_ifs
    · exact le_insert _ _
    · exact Le.refl _
  simp only
  by_cases h : valRatio c g i j ≥ c.prune
  · rw [if_pos h]
    exact h1.trans ((le_setKeep _ _).trans (le_setKeep _ _))
  · rw [if_neg h]
    exact h1.trans (le_drop _ _)

theorem le_curveStep (c : Crit) (g : Grid) (i : ℕ) (s : R) (j : ℕ) : Le s (curveStep c g i s j) := by
  unfold curveStep
  have h1 : Le s (if curveRatio c g i j > 1 ∧ g.dz j ≥ 2 * c.gridmin ∧ g.dz (j + 1) ≥ 2 * c.gridmin then
      (s.insert j).insert (j + 1) else s) := by
    split_ifs
    · exact (le_insert _ _).trans (le_insert _ _)
    · exact Le.refl _
  simp only
  by_cases h : curveRatio c g i j ≥ c.prune
  · rw [if_pos h]
    exact h1.trans (le_setKeep _ _)
  · rw [if_neg h]
    exact h1.trans (le_drop _ _)

/-- A fold of steps related by a reflexive and transitive relation. -/
theorem fold_rel {α β : Type} (r : β → β → Prop) (hr : ∀ s, r s s)
    (ht : ∀ a b c, r a b → r b c → r a c) (f : β → α → β) (hf : ∀ s a, r s (f s a)) (l : List α) :
    ∀ s, r s (l.foldl f s) := by
  induction l with
  | nil => exact hr
  | cons a l ih => exact fun s => ht _ _ _ (hf s a) (ih _)

/-- ... and the step of any element of the list is below the result. -/
theorem fold_rel_mem {α β : Type} (r : β → β → Prop) (hr : ∀ s, r s s)
    (ht : ∀ a b c, r a b → r b c → r a c) (f : β → α → β) (hf : ∀ s a, r s (f s a)) (l : List α) :
    ∀ s, ∀ a ∈ l, ∃ t, r s t ∧ r (f t a) (l.foldl f s) := by
  induction l with
  | nil => intro s a ha; simp at ha
  | cons b l ih =>
    intro s a ha
    rcases List.mem_cons.1 ha with h | h
    · subst h
      exact ⟨s, hr s, fold_rel r hr ht f hf l _⟩
    · obtain ⟨t, h1, h2⟩ := ih (f s b) a h
      exact ⟨t, ht _ _ _ (hf s b) h1, h2⟩

theorem le_fold {α : Type} (f : R → α → R) (hf : ∀ s a, Le s (f s a)) (l : List α) (s : R) :
    Le s (l.foldl f s) := fold_rel Le Le.refl (fun _ _ _ => Le.trans) f hf l s

theorem le_valPass (c : Crit) (g : Grid) (s : R) (i : ℕ) : Le s (valPass c g s i) := by
  unfold valPass
  by_cases h : range (g.val i) (g.n - 1) > c.minRange * magnitude (g.val i) (g.n - 1)
  · rw [if_pos h]
    exact le_fold _ (le_valStep c g i) _ _
  · rw [if_neg h]
    exact Le.refl _

theorem le_curvePass (c : Crit) (g : Grid) (s : R) (i : ℕ) : Le s (curvePass c g s i) := by
  unfold curvePass
  by_cases h : range (g.slope i) (g.n - 2) > c.minRange * magnitude (g.slope i) (g.n - 2)
  · rw [if_pos h]
    exact le_fold _ (le_curveStep c g i) _ _
  · rw [if_neg h]
    exact Le.refl _

theorem le_compPass (c : Crit) (g : Grid) (s : R) (i : ℕ) : Le s (compPass c g s i) := by
  unfold compPass
  split_ifs
  · exact (le_valPass c g s i).trans (le_curvePass c g _ i)
  · exact Le.refl _

theorem le_leftStep (c : Crit) (g : Grid) (s : R) (j : ℕ) : Le s (leftStep c g s j) := by
  unfold leftStep
  split_ifs
  · exact (le_insert _ _).trans ((le_setKeep _ _).trans ((le_setKeep _ _).trans
      ((le_setKeep _ _).trans (le_setKeep _ _))))
  · exact Le.refl _

theorem le_rightStep (c : Crit) (g : Grid) (s : R) (j : ℕ) : Le s (rightStep c g s j) := by
  unfold rightStep
  by_cases h : g.dz (j - 1) > c.ratio * g.dz j
  · rw [if_pos h]
    have h1 : Le s (if 2 ≤ j then (s.insert (j - 1)).setKeep (j - 2) else s.insert (j - 1)) := by
      split_ifs
      · exact (le_insert _ _).trans (le_setKeep _ _)
      · exact le_insert _ _
    exact h1.trans ((le_setKeep _ _).trans ((le_setKeep _ _).trans (le_setKeep _ _)))
  · rw [if_neg h]
    exact Le.refl _

theorem le_keepStep (c : Crit) (g : Grid) (s : R) (j : ℕ) : Le s (keepStep c g s j) := by
  unfold keepStep
  split_ifs
  · exact le_setKeep _ _
  · exact Le.refl _

theorem le_gridStep (c : Crit) (g : Grid) (s : R) (k : ℕ) : Le s (gridStep c g s k) :=
  (le_leftStep c g s _).trans ((le_rightStep c g _ _).trans (le_keepStep c g _ _))

theorem le_pruneStep (s : R) (k : ℕ) : Le s (pruneStep s k) := by
  unfold pruneStep
  split_ifs
  · exact le_setKeep _ _
  · exact Le.refl _

theorem start_le_marked (c : Crit) (g : Grid) : Le (start g) (marked c g) :=
  (le_fold _ (le_compPass c g) _ _).trans (le_fold _ (le_gridStep c g) _ _)

/-- A successful analysis of a grid of at least two points. -/
theorem analyze_eq {c : Crit} {g : Grid} {old s : R} (hn : 2 ≤ g.n) (h : analyze c g old = .ok s) :
    g.n < c.npmax ∧ s = (List.range (g.n - 3)).foldl pruneStep (marked c g) := by
  unfold analyze at h
  split_ifs at h with h1 h2
  · omega
  · simp only [Outcome.ok.injEq] at h
    exact ⟨by omega, h.symm⟩

theorem marked_le {c : Crit} {g : Grid} {old s : R} (hn : 2 ≤ g.n) (h : analyze c g old = .ok s) :
    Le (marked c g) s := by
  rw [(analyze_eq hn h).2]
  exact le_fold _ le_pruneStep _ _

/-! ## What is kept -/

/-- The first and the last point are kept. -/
theorem ends_kept {c : Crit} {g : Grid} {old s : R} (hn : 2 ≤ g.n) (h : analyze c g old = .ok s) :
    s.keep 0 = .keep ∧ s.keep (g.n - 1) = .keep := by
  have hle := (start_le_marked c g).trans (marked_le hn h)
  refine ⟨hle.1 0 ?_, hle.1 _ (setKeep_self _ _)⟩
  exact (le_setKeep _ _).1 _ (setKeep_self _ _)

/-- No two adjacent points are removed. -/
theorem no_adjacent_removed {c : Crit} {g : Grid} {old s : R} (hn : 2 ≤ g.n)
    (h : analyze c g old = .ok s) (j : ℕ) (hj : j + 1 < g.n) :
    ¬ (s.keep j = .remove ∧ s.keep (j + 1) = .remove) := by
  rintro ⟨h1, h2⟩
  obtain ⟨e1, e2⟩ := ends_kept hn h
  have hj0 : j ≠ 0 := by
    rintro rfl
    rw [e1] at h1
    cases h1
  have hjn : j + 1 ≠ g.n - 1 := by
    intro he
    rw [he, e2] at h2
    cases h2
  obtain ⟨k, rfl⟩ : ∃ k, j = k + 1 := ⟨j - 1, by omega⟩
  obtain ⟨t, -, ht⟩ := fold_rel_mem (fun a b : R => ∀ i, b.keep i = .remove → a.keep i = .remove)
    (fun _ _ h => h) (fun _ _ _ h1 h2 i hi => h1 i (h2 i hi)) pruneStep
    (by
      intro s k i hi
      unfold pruneStep at hi
      split_ifs at hi
      · simp only [R.setKeep] at hi
        split_ifs at hi
        exact hi
      · exact hi)
    (List.range (g.n - 3)) (marked c g) k (List.mem_range.2 (by omega))
  rw [(analyze_eq hn h).2] at h1 h2
  have g1 := ht _ h1
  have g2 := ht _ h2
  unfold pruneStep at g1 g2
  split_ifs at g1 g2 with hc
  · rw [setKeep_self] at g2
    cases g2
  · exact hc ⟨g2, g1⟩

/-- Points at the fixed and control coordinates are kept. -/
theorem fixed_kept {c : Crit} {g : Grid} {old s : R} (hn : 2 ≤ g.n) (h : analyze c g old = .ok s)
    (j : ℕ) (hj : j < g.n) (hf : g.fixed (g.z j) = true) : s.keep j = .keep := by
  by_cases h0 : j = 0
  · rw [h0]; exact (ends_kept hn h).1
  by_cases h1 : j = g.n - 1
  · rw [h1]; exact (ends_kept hn h).2
  obtain ⟨t, -, ht⟩ := fold_rel_mem Le Le.refl (fun _ _ _ => Le.trans) (gridStep c g) (le_gridStep c g)
    (List.range (g.n - 2)) ((List.range g.nv).foldl (compPass c g) (start g)) (j - 1)
    (List.mem_range.2 (by omega))
  refine (ht.trans (marked_le hn h)).1 j ?_
  have hj1 : j - 1 + 1 = j := by omega
  unfold gridStep
  rw [hj1]
  unfold keepStep
  rw [if_pos (Or.inr (Or.inr hf))]
  exact setKeep_self _ _

/-! ## The new grid -/

/-- Every point of the new grid is a kept point of the old grid with unchanged values, or the midpoint of an
interval of the old grid with the average of the values at its ends; and all kept points and all midpoints
requested to the right of a kept point are there. -/
theorem mem_newGrid (g : Grid) (s : R) (p : Pt) :
    p ∈ newGrid g s ↔
      (∃ m < g.n, s.keep m ≠ .remove ∧ p = (g.z m, fun i => g.val i m)) ∨
      (∃ m, m + 1 < g.n ∧ s.keep m ≠ .remove ∧ m ∈ s.ins ∧
        p = ((g.z m + g.z (m + 1)) / 2, fun i => (g.val i m + g.val i (m + 1)) / 2)) := by
  have hmid : ∀ m, midPt g m = ((g.z m + g.z (m + 1)) / 2, fun i => (g.val i m + g.val i (m + 1)) / 2) := by
    intro m
    unfold midPt
    ext1
    · simp only; ring
    · funext i
      simp only; ring
  simp only [newGrid, List.mem_flatMap, List.mem_range]
  constructor
  · rintro ⟨m, hm, hp⟩
    unfold block at hp
    split_ifs at hp with h1 h2
    · rcases List.mem_cons.1 hp with hp | hp
      · exact Or.inl ⟨m, hm, h1, hp⟩
      · right
        refine ⟨m, h2.2, h1, h2.1, ?_⟩
        rw [← hmid]
        simpa using hp
    · exact Or.inl ⟨m, hm, h1, List.mem_singleton.1 hp⟩
    · simp at hp
  · rintro (⟨m, hm, h1, rfl⟩ | ⟨m, hm, h1, h2, rfl⟩)
    · refine ⟨m, hm, ?_⟩
      unfold block
      rw [if_pos h1]
      exact List.mem_cons_self
    · refine ⟨m, by omega, ?_⟩
      unfold block
      rw [if_pos h1, if_pos ⟨h2, hm⟩, ← hmid]
      simp

/-- The grid is strictly increasing. -/
def Increasing (g : Grid) : Prop := ∀ j, j + 1 < g.n → g.z j < g.z (j + 1)

theorem increasing_lt {g : Grid} (h : Increasing g) {a b : ℕ} (hab : a < b) (hb : b < g.n) :
    g.z a < g.z b := by
  induction b with
  | zero => omega
  | succ b ih =>
    rcases Nat.lt_or_ge a b with h1 | h1
    · exact lt_trans (ih h1 (by omega)) (h b hb)
    · have : a = b := by omega
      subst this
      exact h a hb

/-- The coordinates contributed by point `m` lie between it and the next point. -/
theorem block_between {g : Grid} (h : Increasing g) (s : R) (m : ℕ) (p : Pt) (hp : p ∈ block g s m) :
    g.z m ≤ p.1 ∧ (m + 1 < g.n → p.1 < g.z (m + 1)) := by
  unfold block at hp
  split_ifs at hp with h1 h2
  · rcases List.mem_cons.1 hp with hp | hp
    · subst hp
      exact ⟨le_refl _, fun hm => h m hm⟩
    · simp only [List.mem_singleton] at hp
      subst hp
      have := h m h2.2
      constructor
      · show g.z m ≤ 0.5 * (g.z m + g.z (m + 1))
        linarith
      · intro _
        show 0.5 * (g.z m + g.z (m + 1)) < g.z (m + 1)
        linarith
  · simp only [List.mem_singleton] at hp
    subst hp
    exact ⟨le_refl _, fun hm => h m hm⟩
  · simp at hp

theorem block_sorted {g : Grid} (h : Increasing g) (s : R) (m : ℕ) :
    (block g s m).Pairwise fun p q => p.1 < q.1 := by
  unfold block
  split_ifs with h1 h2
  · rw [List.pairwise_pair]
    have := h m h2.2
    show g.z m < 0.5 * (g.z m + g.z (m + 1))
    linarith
  · simp
  · simp

/-- The new grid is strictly increasing if the old one is, whatever the refiner asks for. -/
theorem newGrid_increasing {g : Grid} (h : Increasing g) (s : R) :
    (newGrid g s).Pairwise fun p q => p.1 < q.1 := by
  unfold newGrid
  rw [List.pairwise_flatMap]
  refine ⟨fun m _ => block_sorted h s m, ?_⟩
  rw [List.pairwise_iff_getElem]
  intro i j hi hj hij p hp q hq
  simp only [List.getElem_range, List.length_range] at hp hq hi hj
  have h1 := (block_between h s i p hp).2 (by omega)
  have h2 := (block_between h s j q hq).1
  rcases Nat.lt_or_ge (i + 1) j with h3 | h3
  · have := increasing_lt h h3 hj
    linarith
  · have : j = i + 1 := by omega
    subst this
    linarith

/-- The new grid starts and ends where the old one does, with the same values there, and has at least two
points. -/
theorem newGrid_ends {c : Crit} {g : Grid} {old s : R} (hn : 2 ≤ g.n) (h : analyze c g old = .ok s) :
    (newGrid g s).head? = some (g.z 0, fun i => g.val i 0) ∧
    (newGrid g s).getLast? = some (g.z (g.n - 1), fun i => g.val i (g.n - 1)) ∧
    2 ≤ (newGrid g s).length := by
  obtain ⟨h0, h1⟩ := ends_kept hn h
  obtain ⟨k, hk⟩ : ∃ k, g.n = k + 2 := ⟨g.n - 2, by omega⟩
  have hb0 : ∃ l, block g s 0 = oldPt g 0 :: l := by
    unfold block
    rw [if_pos (by rw [h0]; simp)]
    exact ⟨_, rfl⟩
  have hbl : block g s (k + 1) = [oldPt g (k + 1)] := by
    have : g.n - 1 = k + 1 := by omega
    rw [this] at h1
    unfold block
    rw [if_pos (by rw [h1]; simp), if_neg (by omega)]
  obtain ⟨l, hl⟩ := hb0
  have e1 : newGrid g s = (oldPt g 0 :: l) ++ (List.map (fun x => x + 1) (List.range (k + 1))).flatMap
      (block g s) := by
    unfold newGrid
    rw [hk, List.range_succ_eq_map, List.flatMap_cons, hl]
  have e2 : newGrid g s = (List.range (k + 1)).flatMap (block g s) ++ [oldPt g (k + 1)] := by
    unfold newGrid
    rw [hk, List.range_succ, List.flatMap_append]
    simp [hbl]
  have e3 : ∃ l', (List.range (k + 1)).flatMap (block g s) = oldPt g 0 :: l' := by
    rw [List.range_succ_eq_map, List.flatMap_cons, hl]
    exact ⟨_, rfl⟩
  refine ⟨?_, ?_, ?_⟩
  · rw [e1]; rfl
  · rw [e2, hk]
    simp [oldPt]
  · obtain ⟨l', hl'⟩ := e3
    rw [e2, hl']
    simp

/-! ## What is refined -/

/-- The step of component `i` at place `j` is below the result. -/
theorem valStep_reached {c : Crit} {g : Grid} {old s : R} (hn : 2 ≤ g.n) (h : analyze c g old = .ok s)
    (i j : ℕ) (hi : i < g.nv) (ha : g.active i = true) (hj : j + 1 < g.n)
    (hr : range (g.val i) (g.n - 1) > c.minRange * magnitude (g.val i) (g.n - 1)) :
    ∃ t, Le (valStep c g i t j) s := by
  obtain ⟨t, -, ht⟩ := fold_rel_mem Le Le.refl (fun _ _ _ => Le.trans) (compPass c g) (le_compPass c g)
    (List.range g.nv) (start g) i (List.mem_range.2 hi)
  have h1 : Le (valPass c g t i) (compPass c g t i) := by
    unfold compPass
    rw [if_pos ha]
    exact le_curvePass c g _ i
  obtain ⟨u, -, hu⟩ := fold_rel_mem Le Le.refl (fun _ _ _ => Le.trans) (valStep c g i) (le_valStep c g i)
    (List.range (g.n - 1)) t j (List.mem_range.2 (by omega))
  have h2 : Le (valStep c g i u j) (valPass c g t i) := by
    unfold valPass
    rw [if_pos hr]
    exact hu
  exact ⟨u, h2.trans (h1.trans (ht.trans ((le_fold _ (le_gridStep c g) _ _).trans (marked_le hn h))))⟩

/-- An active component whose value changes too much between two points, farther apart than twice the
minimum spacing, makes the refiner keep both points and add the midpoint between them. -/
theorem value_refined {c : Crit} {g : Grid} {old s : R} (hn : 2 ≤ g.n) (h : analyze c g old = .ok s)
    (hp : c.prune ≤ 1) (i j : ℕ) (hi : i < g.nv) (ha : g.active i = true) (hj : j + 1 < g.n)
    (hr : range (g.val i) (g.n - 1) > c.minRange * magnitude (g.val i) (g.n - 1))
    (hd : valRatio c g i j > 1) (hz : g.dz j ≥ 2 * c.gridmin) :
    oldPt g j ∈ newGrid g s ∧ oldPt g (j + 1) ∈ newGrid g s ∧ midPt g j ∈ newGrid g s := by
  obtain ⟨t, ht⟩ := valStep_reached hn h i j hi ha hj hr
  have hs : valStep c g i t j = ((t.insert j).setKeep j).setKeep (j + 1) := by
    unfold valStep
    simp only
    have hpr : valRatio c g i j ≥ c.prune := by linarith
    rw [if_pos hpr, if_pos (⟨hd, hz⟩ : valRatio c g i j > 1 ∧ g.dz j ≥ 2 * c.gridmin)]
  rw [hs] at ht
  have k1 : s.keep j = .keep := ht.1 j ((le_setKeep _ _).1 _ (setKeep_self _ _))
  have k2 : s.keep (j + 1) = .keep := ht.1 _ (setKeep_self _ _)
  have k3 : j ∈ s.ins := ht.2 (insert_self t j)
  unfold newGrid
  simp only [List.mem_flatMap, List.mem_range]
  refine ⟨⟨j, by omega, ?_⟩, ⟨j + 1, hj, ?_⟩, ⟨j, by omega, ?_⟩⟩
  · unfold block
    rw [if_pos (by rw [k1]; simp)]
    exact List.mem_cons_self
  · unfold block
    rw [if_pos (by rw [k2]; simp)]
    exact List.mem_cons_self
  · unfold block
    rw [if_pos (by rw [k1]; simp), if_pos ⟨k3, hj⟩]
    simp

/-- Two adjacent intervals of the old grid that differ by more than the allowed ratio: both ends of the
larger one are kept and its midpoint is added. -/
theorem ratio_refined {c : Crit} {g : Grid} {old s : R} (hn : 2 ≤ g.n) (h : analyze c g old = .ok s)
    (j : ℕ) (hj : j + 2 < g.n) :
    (g.dz (j + 1) > c.ratio * g.dz j →
      oldPt g (j + 1) ∈ newGrid g s ∧ oldPt g (j + 2) ∈ newGrid g s ∧ midPt g (j + 1) ∈ newGrid g s) ∧
    (g.dz j > c.ratio * g.dz (j + 1) →
      oldPt g j ∈ newGrid g s ∧ oldPt g (j + 1) ∈ newGrid g s ∧ midPt g j ∈ newGrid g s) := by
  have build : ∀ m, m + 1 < g.n → s.keep m = .keep → s.keep (m + 1) = .keep → m ∈ s.ins →
      oldPt g m ∈ newGrid g s ∧ oldPt g (m + 1) ∈ newGrid g s ∧ midPt g m ∈ newGrid g s := by
    intro m hm k1 k2 k3
    unfold newGrid
    simp only [List.mem_flatMap, List.mem_range]
    refine ⟨⟨m, by omega, ?_⟩, ⟨m + 1, hm, ?_⟩, ⟨m, by omega, ?_⟩⟩
    · unfold block
      rw [if_pos (by rw [k1]; simp)]
      exact List.mem_cons_self
    · unfold block
      rw [if_pos (by rw [k2]; simp)]
      exact List.mem_cons_self
    · unfold block
      rw [if_pos (by rw [k1]; simp), if_pos ⟨k3, hm⟩]
      simp
  obtain ⟨t, -, ht⟩ := fold_rel_mem Le Le.refl (fun _ _ _ => Le.trans) (gridStep c g) (le_gridStep c g)
    (List.range (g.n - 2)) ((List.range g.nv).foldl (compPass c g) (start g)) j
    (List.mem_range.2 (by omega))
  have hle := ht.trans (marked_le hn h)
  constructor
  · intro hd
    have h1 : Le (leftStep c g t (j + 1)) s :=
      ((le_rightStep c g _ _).trans (le_keepStep c g _ _)).trans hle
    unfold leftStep at h1
    rw [if_pos (show g.dz (j + 1) > c.ratio * g.dz (j + 1 - 1) from hd)] at h1
    refine build (j + 1) hj ?_ ?_ ?_
    · exact h1.1 _ (((le_setKeep _ _).trans (le_setKeep _ _)).1 _ (setKeep_self _ _))
    · exact h1.1 _ ((le_setKeep _ _).1 _ (setKeep_self _ _))
    · exact h1.2 (insert_self t (j + 1))
  · intro hd
    have h1 : Le (rightStep c g (leftStep c g t (j + 1)) (j + 1)) s := (le_keepStep c g _ _).trans hle
    unfold rightStep at h1
    rw [if_pos (show g.dz (j + 1 - 1) > c.ratio * g.dz (j + 1) from hd)] at h1
    refine build j (by omega) ?_ ?_ ?_
    · exact h1.1 _ (((le_setKeep _ _).trans (le_setKeep _ _)).1 _ (setKeep_self _ _))
    · exact h1.1 _ ((le_setKeep _ _).1 _ (setKeep_self _ _))
    · refine h1.2 ?_
      show j ∈ (if 2 ≤ j + 1 then ((leftStep c g t (j + 1)).insert j).setKeep (j - 1)
        else (leftStep c g t (j + 1)).insert j).ins
      split_ifs
      · exact insert_self _ _
      · exact insert_self _ _

/-- The reasons for an insertion. -/
def Reason (c : Crit) (g : Grid) (j : ℕ) : Prop :=
  2 * c.gridmin ≤ g.dz j ∨ (1 ≤ j ∧ j + 1 < g.n ∧ c.ratio * g.dz (j - 1) < g.dz j) ∨
    (j + 2 < g.n ∧ c.ratio * g.dz (j + 1) < g.dz j)

theorem fold_inv {α β : Type} (P : β → Prop) (f : β → α → β) (l : List α)
    (hf : ∀ s, ∀ a ∈ l, P s → P (f s a)) : ∀ s, P s → P (l.foldl f s) := by
  induction l with
  | nil => exact fun s h => h
  | cons a l ih =>
    intro s h
    exact ih (fun s b hb => hf s b (by simp [hb])) _ (hf s a (by simp) h)

theorem ins_reason {c : Crit} {g : Grid} {old s : R} (hn : 2 ≤ g.n) (h : analyze c g old = .ok s)
    (j : ℕ) (hj : j ∈ s.ins) : Reason c g j := by
  rw [(analyze_eq hn h).2] at hj
  let P : R → Prop := fun s => ∀ j ∈ s.ins, Reason c g j
  have hins : ∀ (s : R) (j : ℕ), Reason c g j → P s → P (s.insert j) := by
    intro s j hr hs i hi
    simp only [R.insert, Finset.mem_insert] at hi
    rcases hi with hi | hi
    · rw [hi]; exact hr
    · exact hs i hi
  have hval : ∀ i s j, P s → P (valStep c g i s j) := by
    intro i s j hs
    have h1 : P (if valRatio c g i j > 1 ∧ g.dz j ≥ 2 * c.gridmin then s.insert j else s) := by
      split_ifs with hc
      · exact hins _ _ (Or.inl hc.2) hs
      · exact hs
    unfold valStep
    simp only
    by_cases hc : valRatio c g i j ≥ c.prune
    · rw [if_pos hc]; exact h1
    · rw [if_neg hc]; exact h1
  have hcur : ∀ i s j, P s → P (curveStep c g i s j) := by
    intro i s j hs
    have h1 : P (if curveRatio c g i j > 1 ∧ g.dz j ≥ 2 * c.gridmin ∧ g.dz (j + 1) ≥ 2 * c.gridmin then
        (s.insert j).insert (j + 1) else s) := by
      split_ifs with hc
      · exact hins _ _ (Or.inl hc.2.2) (hins _ _ (Or.inl hc.2.1) hs)
      · exact hs
    unfold curveStep
    simp only
    by_cases hc : curveRatio c g i j ≥ c.prune
    · rw [if_pos hc]; exact h1
    · rw [if_neg hc]; exact h1
  have hcomp : ∀ s i, P s → P (compPass c g s i) := by
    intro s i hs
    have h1 : P (valPass c g s i) := by
      unfold valPass
      by_cases hc : range (g.val i) (g.n - 1) > c.minRange * magnitude (g.val i) (g.n - 1)
      · rw [if_pos hc]
        exact fold_inv P _ _ (fun s j _ => hval i s j) _ hs
      · rw [if_neg hc]; exact hs
    unfold compPass
    by_cases ha : g.active i = true
    · rw [if_pos ha]
      unfold curvePass
      by_cases hc : range (g.slope i) (g.n - 2) > c.minRange * magnitude (g.slope i) (g.n - 2)
      · rw [if_pos hc]
        exact fold_inv P _ _ (fun s j _ => hcur i s j) _ h1
      · rw [if_neg hc]; exact h1
    · rw [if_neg ha]; exact hs
  have hgrid : ∀ s, ∀ k ∈ List.range (g.n - 2), P s → P (gridStep c g s k) := by
    intro s k hk hs
    rw [List.mem_range] at hk
    have h1 : P (leftStep c g s (k + 1)) := by
      unfold leftStep
      split_ifs with hc
      · exact hins _ _ (Or.inr (Or.inl ⟨by omega, by omega, hc⟩)) hs
      · exact hs
    have h2 : P (rightStep c g (leftStep c g s (k + 1)) (k + 1)) := by
      unfold rightStep
      by_cases hc : g.dz (k + 1 - 1) > c.ratio * g.dz (k + 1)
      · rw [if_pos hc]
        have h3 := hins (leftStep c g s (k + 1)) k (Or.inr (Or.inr ⟨by omega, hc⟩)) h1
        show P (if 2 ≤ k + 1 then ((leftStep c g s (k + 1)).insert k).setKeep (k - 1)
          else (leftStep c g s (k + 1)).insert k)
        split_ifs
        · exact h3
        · exact h3
      · rw [if_neg hc]; exact h1
    unfold gridStep
    unfold keepStep
    split_ifs
    · exact h2
    · exact h2
  have hfinal : P ((List.range (g.n - 3)).foldl pruneStep (marked c g)) := by
    refine fold_inv P _ _ (fun s k _ hs => ?_) _ (fold_inv P _ _ hgrid _ (fold_inv P _ _
      (fun s i _ => hcomp s i) _ ?_))
    · unfold pruneStep
      split_ifs
      · exact hs
      · exact hs
    · intro j hj
      simp [start, R.setKeep] at hj
  exact hfinal j hj

/-- Refinement never makes the spacing smaller than it was unless it stays at least the minimum spacing:
if no interval of the old grid is shorter than `d` and `d` is at most the minimum spacing, then no two points
of the new grid are closer than `d`. -/
theorem spacing_kept {c : Crit} {g : Grid} {old s : R} (hn : 2 ≤ g.n) (h : analyze c g old = .ok s)
    (hratio : 2 ≤ c.ratio) (d : ℝ) (hd0 : 0 < d) (hd : ∀ j, j + 1 < g.n → d ≤ g.dz j)
    (hmin : d ≤ c.gridmin) : (newGrid g s).Pairwise fun p q => p.1 + d ≤ q.1 := by
  have hinc : Increasing g := by
    intro j hj
    have := hd j hj
    unfold Grid.dz at this
    linarith
  have half : ∀ m, m ∈ s.ins → m + 1 < g.n → 2 * d ≤ g.dz m := by
    intro m hm hm1
    rcases ins_reason hn h m hm with hr | ⟨h1, h2, hr⟩ | ⟨h1, hr⟩
    · linarith
    · have := hd (m - 1) (by omega)
      nlinarith
    · have := hd (m + 1) (by omega)
      nlinarith
  have hbetween : ∀ m p, p ∈ block g s m → g.z m ≤ p.1 ∧ (m + 1 < g.n → p.1 + d ≤ g.z (m + 1)) := by
    intro m p hp
    unfold block at hp
    split_ifs at hp with h1 h2
    · rcases List.mem_cons.1 hp with hp | hp
      · subst hp
        refine ⟨le_refl _, fun hm => ?_⟩
        have := hd m hm
        unfold Grid.dz at this
        show g.z m + d ≤ _
        linarith
      · simp only [List.mem_singleton] at hp
        subst hp
        have := half m h2.1 h2.2
        unfold Grid.dz at this
        refine ⟨?_, fun hm => ?_⟩
        · show g.z m ≤ 0.5 * (g.z m + g.z (m + 1))
          linarith
        · show 0.5 * (g.z m + g.z (m + 1)) + d ≤ _
          linarith
    · simp only [List.mem_singleton] at hp
      subst hp
      refine ⟨le_refl _, fun hm => ?_⟩
      have := hd m hm
      unfold Grid.dz at this
      show g.z m + d ≤ _
      linarith
    · simp at hp
  unfold newGrid
  rw [List.pairwise_flatMap]
  refine ⟨fun m _ => ?_, ?_⟩
  · unfold block
    split_ifs with h1 h2
    · rw [List.pairwise_pair]
      have := half m h2.1 h2.2
      unfold Grid.dz at this
      show g.z m + d ≤ 0.5 * (g.z m + g.z (m + 1))
      linarith
    · simp
    · simp
  · rw [List.pairwise_iff_getElem]
    intro i j hi hj hij p hp q hq
    simp only [List.getElem_range, List.length_range] at hp hq hi hj
    have h1 := (hbetween i p hp).2 (by omega)
    have h2 := (hbetween j q hq).1
    rcases Nat.lt_or_ge (i + 1) j with h3 | h3
    · have := increasing_lt hinc h3 hj
      linarith
    · have : j = i + 1 := by omega
      subst this
      linarith

/-! ## The number of points and the return value -/

theorem newGrid_length (g : Grid) (s : R) :
    (newGrid g s).length + discarded g s = g.n + inserted g s := by
  have key : ∀ l : List ℕ, (l.flatMap (block g s)).length + l.countP (fun m => decide (s.keep m = .remove)) =
      l.length + l.countP fun m => decide (s.keep m ≠ .remove ∧ m ∈ s.ins ∧ m + 1 < g.n) := by
    intro l
    induction l with
    | nil => simp
    | cons m l ih =>
      simp only [List.flatMap_cons, List.length_append, List.countP_cons, List.length_cons]
      have hb : (block g s m).length + (if decide (s.keep m = .remove) = true then 1 else 0) =
          1 + (if decide (s.keep m ≠ .remove ∧ m ∈ s.ins ∧ m + 1 < g.n) = true then 1 else 0) := by
        unfold block
        by_cases h1 : s.keep m = .remove
        · simp [h1]
        · by_cases h2 : m ∈ s.ins ∧ m + 1 < g.n
          · simp [h1, h2]
          · simp [h1, h2]
      omega
  have := key (List.range g.n)
  rw [List.length_range] at this
  exact this

/-- The return value of `refine` is 0 or 1, and 0 exactly if nothing was asked for or discarded. -/
theorem refine_ret (ds : List (Crit × Grid × R)) (gs : List (List Pt)) (v : ℤ)
    (h : refine ds = .ok (gs, v)) :
    (v = 0 ∨ v = 1) ∧ ∃ a d, refineDoms ds = .ok (gs, a, d) ∧ (v = 0 ↔ a = 0 ∧ d = 0) := by
  unfold refine at h
  cases hr : refineDoms ds with
  | throw => simp [hr] at h
  | ub => simp [hr] at h
  | ok r =>
    simp only [hr, Outcome.bind_ok, Outcome.ok.injEq, Prod.mk.injEq] at h
    obtain ⟨h1, h2⟩ := h
    subst h1 h2
    unfold retVal
    refine ⟨by split_ifs <;> simp, r.2.1, r.2.2, rfl, ?_⟩
    split_ifs with hc
    · simp only [one_ne_zero, false_iff]
      rintro ⟨e1, e2⟩
      rcases hc with hc | hc
      · exact hc e1
      · exact hc (by rw [e2]; rfl)
    · simp only [true_iff]
      push Not at hc
      exact ⟨hc.1, by simpa using hc.2⟩

/-! ## Examples and findings -/

/-- The default limits (refine.h:192-208, `m_thresh` is the square root of the machine epsilon `2^-52`) with
the given criteria. -/
noncomputable def crit (slope curve prune : ℝ) (npmax : ℕ) : Crit :=
  { ratio := 10, slope := slope, curve := curve, prune := prune, minRange := 0.01,
    thresh := 1 / 2 ^ 26, gridmin := 1e-10, npmax := npmax }

/-- Points `0, 1, 2, ...` with the values `v` of one component. -/
def unitGrid (n : ℕ) (v : ℕ → ℝ) : Grid :=
  { n := n, z := fun j => j, nv := 1, val := fun _ => v, active := fun _ => true, fixed := fun _ => false }

theorem unit_dz (n : ℕ) (v : ℕ → ℝ) (j : ℕ) : (unitGrid n v).dz j = 1 := by
  simp [Grid.dz, unitGrid]

theorem unit_slope (n : ℕ) (v : ℕ → ℝ) (i j : ℕ) : (unitGrid n v).slope i j = v (j + 1) - v j := by
  unfold Grid.slope
  rw [unit_dz, div_one]
  rfl

theorem unit_increasing (n : ℕ) (v : ℕ → ℝ) : Increasing (unitGrid n v) := by
  intro j _
  simp [unitGrid]

/-- On a unit grid the grid itself asks for nothing. -/
theorem unit_gridStep (sl cu pr : ℝ) (np n : ℕ) (v : ℕ → ℝ) (s : R) (k : ℕ) :
    gridStep (crit sl cu pr np) (unitGrid n v) s k = s := by
  have h1 : leftStep (crit sl cu pr np) (unitGrid n v) s (k + 1) = s := by
    unfold leftStep
    rw [if_neg]
    rw [unit_dz, unit_dz]
    norm_num [crit]
  have h2 : rightStep (crit sl cu pr np) (unitGrid n v) s (k + 1) = s := by
    unfold rightStep
    rw [if_neg]
    rw [unit_dz, unit_dz]
    norm_num [crit]
  unfold gridStep
  rw [h1, h2]
  unfold keepStep
  rw [if_neg]
  have h3 : (unitGrid n v).z (k + 1 + 1) - (unitGrid n v).z (k + 1 - 1) = 2 := by
    show ((k + 1 + 1 : ℕ) : ℝ) - ((k + 1 - 1 : ℕ) : ℝ) = 2
    rw [Nat.add_sub_cancel]
    push_cast
    ring
  simp only [unit_dz, h3]
  norm_num [crit, unitGrid]

theorem fold_id {α β : Type} (f : β → α → β) (h : ∀ s a, f s a = s) (l : List α) (s : β) :
    l.foldl f s = s := by
  induction l with
  | nil => rfl
  | cons a l ih => rw [List.foldl_cons, h, ih]

theorem unit_marked (sl cu pr : ℝ) (np n : ℕ) (v : ℕ → ℝ) :
    marked (crit sl cu pr np) (unitGrid n v) =
      curvePass (crit sl cu pr np) (unitGrid n v)
        (valPass (crit sl cu pr np) (unitGrid n v) (start (unitGrid n v)) 0) 0 := by
  unfold marked
  rw [fold_id _ (unit_gridStep sl cu pr np n v)]
  rfl

/-- Three points on a line: the middle one is pruned. -/
noncomputable def line : Grid := unitGrid 3 fun j => (j : ℝ)

theorem line_analyze (old : R) :
    ∃ s, analyze (crit 0.8 0.8 0.7 1000) line old = .ok s ∧ s.ins = ∅ ∧
      s.keep 0 = .keep ∧ s.keep 1 = .remove ∧ s.keep 2 = .keep := by
  have hv : ∀ j, j < 2 → valRatio (crit 0.8 0.8 0.7 1000) line 0 j < 0.7 := by
    intro j _
    norm_num [valRatio, crit, line, unitGrid, range, maxTo, minTo]
  have hr : range (line.val 0) (line.n - 1) >
      (crit 0.8 0.8 0.7 1000).minRange * magnitude (line.val 0) (line.n - 1) := by
    norm_num [crit, line, unitGrid, range, magnitude, maxTo, minTo]
  have hstep : ∀ s, ∀ j < 2, valStep (crit 0.8 0.8 0.7 1000) line 0 s j = s.drop j := by
    intro s j hj
    have := hv j hj
    unfold valStep
    simp only
    have h1 : ¬ (valRatio (crit 0.8 0.8 0.7 1000) line 0 j ≥ (crit 0.8 0.8 0.7 1000).prune) := not_le.2 this
    have h2 : ¬ (valRatio (crit 0.8 0.8 0.7 1000) line 0 j > 1 ∧
        line.dz j ≥ 2 * (crit 0.8 0.8 0.7 1000).gridmin) := by
      rintro ⟨h, -⟩
      linarith
    rw [if_neg h1, if_neg h2]
  have hcurve : ∀ s, curvePass (crit 0.8 0.8 0.7 1000) line s 0 = s := by
    intro s
    unfold curvePass
    rw [if_neg]
    have : line.slope 0 = fun _ => 1 := by
      funext j
      unfold line
      rw [unit_slope]
      push_cast
      ring
    rw [this]
    norm_num [crit, line, unitGrid, range, magnitude, maxTo, minTo]
  have hval : valPass (crit 0.8 0.8 0.7 1000) line (start line) 0 = ((start line).drop 0).drop 1 := by
    unfold valPass
    rw [if_pos hr]
    show (([0, 1] : List ℕ).foldl _ _) = _
    rw [List.foldl_cons, hstep _ 0 (by norm_num), List.foldl_cons, hstep _ 1 (by norm_num)]
    rfl
  have hm : marked (crit 0.8 0.8 0.7 1000) line = ((start line).drop 0).drop 1 := by
    rw [← hval, ← hcurve (valPass _ _ _ _)]
    exact unit_marked _ _ _ _ _ _
  refine ⟨marked (crit 0.8 0.8 0.7 1000) line, ?_, ?_⟩
  · have hn : line.n = 3 := rfl
    have hp : (crit 0.8 0.8 0.7 1000).npmax = 1000 := rfl
    unfold analyze
    rw [hn, hp]
    norm_num
  · rw [hm]
    simp [start, R.drop, R.setKeep, line, unitGrid]

example : ∃ s, analyze (crit 0.8 0.8 0.7 1000) line { keep := fun _ => .unset, ins := ∅ } = .ok s ∧
    (newGrid line s).head? = some (line.z 0, fun i => line.val i 0) := by
  obtain ⟨s, h, -⟩ := line_analyze { keep := fun _ => .unset, ins := ∅ }
  exact ⟨s, h, (newGrid_ends (by norm_num [line, unitGrid]) h).1⟩

example : ∃ s, analyze (crit 0.8 0.8 0.7 1000) line { keep := fun _ => .unset, ins := ∅ } = .ok s ∧
    s.keep 1 = .remove ∧ s.keep 0 = .keep ∧ ¬ (s.keep 1 = .remove ∧ s.keep 2 = .remove) ∧
    (newGrid line s).Pairwise (fun p q => p.1 + 1e-10 ≤ q.1) := by
  obtain ⟨s, h, -, -, h1, -⟩ := line_analyze { keep := fun _ => .unset, ins := ∅ }
  have hn : 2 ≤ line.n := by norm_num [line, unitGrid]
  refine ⟨s, h, h1, (ends_kept hn h).1, no_adjacent_removed hn h 1 (by norm_num [line, unitGrid]),
    spacing_kept hn h (by norm_num [crit]) _ (by norm_num) ?_ (le_refl _)⟩
  intro j _
  unfold line
  rw [unit_dz]
  norm_num

/-- **Finding.**  The interface (Sim1D.h:242-243) says that the return value is the number of points added if
positive and the number of points removed if negative.  The expression `added || -discarded`
(Sim1D.cpp:595) is a boolean: here one point is removed, none is added, and 1 is returned.  So the solver
solves again on the pruned grid, and its branch for `new_points < 0` (Sim1D.cpp:500) is never taken. -/
theorem refine_ret_prune : ∃ ds gs, refine ds = .ok (gs, 1) ∧
    refineDoms ds = .ok (gs, 0, 1) ∧ gs.map List.length = [2] ∧ ds.map (fun d => d.2.1.n) = [3] := by
  obtain ⟨s, h, hi, h0, h1, h2⟩ := line_analyze { keep := fun _ => .unset, ins := ∅ }
  have hn : line.n = 3 := rfl
  have hd : discarded line s = 1 := by
    unfold discarded
    rw [hn]
    simp [List.range_succ, h0, h1, h2]
  have hins : inserted line s = 0 := by
    unfold inserted
    rw [hn]
    simp [hi]
  have hl : (newGrid line s).length = 2 := by
    have := newGrid_length line s
    omega
  have hr : refineDoms [(crit 0.8 0.8 0.7 1000, line, { keep := fun _ => .unset, ins := ∅ })] =
      .ok ([newGrid line s], 0, 1) := by
    simp [refineDoms, h, hd, hins, hi]
  refine ⟨[(crit 0.8 0.8 0.7 1000, line, { keep := fun _ => .unset, ins := ∅ })], [newGrid line s], ?_, hr,
    by simp [hl], by simp [hn]⟩
  unfold refine
  rw [hr]
  simp [retVal]

example : (1 : ℤ) = 0 ∨ (1 : ℤ) = 1 := by
  obtain ⟨ds, gs, h, -⟩ := refine_ret_prune
  exact (refine_ret ds gs 1 h).1

/-- Never more than one new point per interval. -/
theorem newGrid_length_le (g : Grid) (s : R) (hn : 1 ≤ g.n) : (newGrid g s).length ≤ 2 * g.n - 1 := by
  have h := newGrid_length g s
  have hi : inserted g s ≤ g.n - 1 := by
    obtain ⟨k, hk⟩ : ∃ k, g.n = k + 1 := ⟨g.n - 1, by omega⟩
    unfold inserted
    rw [hk, List.range_succ, List.countP_append]
    have h1 := List.countP_le_length (p := fun m => decide (s.keep m ≠ .remove ∧ m ∈ s.ins ∧ m + 1 < k + 1))
      (l := List.range k)
    rw [List.length_range] at h1
    simp only [List.countP_singleton]
    rw [if_neg (by simp)]
    omega
  omega

/-- A peak between two points. -/
noncomputable def peak : Grid := unitGrid 3 fun j => if j = 1 then 1 else 0

theorem peak_refined (old s : R) (h : analyze (crit 0.1 1 0 4) peak old = .ok s) :
    oldPt peak 0 ∈ newGrid peak s ∧ midPt peak 0 ∈ newGrid peak s ∧ oldPt peak 1 ∈ newGrid peak s ∧
    midPt peak 1 ∈ newGrid peak s ∧ oldPt peak 2 ∈ newGrid peak s := by
  have hn : 2 ≤ peak.n := by norm_num [peak, unitGrid]
  have hr : range (peak.val 0) (peak.n - 1) >
      (crit 0.1 1 0 4).minRange * magnitude (peak.val 0) (peak.n - 1) := by
    norm_num [crit, peak, unitGrid, range, magnitude, maxTo, minTo]
  have hv : ∀ j, j < 2 → valRatio (crit 0.1 1 0 4) peak 0 j > 1 := by
    intro j hj
    have : j = 0 ∨ j = 1 := by omega
    rcases this with rfl | rfl
    · norm_num [valRatio, crit, peak, unitGrid, range, maxTo, minTo]
    · norm_num [valRatio, crit, peak, unitGrid, range, maxTo, minTo]
  have hz : ∀ j, peak.dz j ≥ 2 * (crit 0.1 1 0 4).gridmin := by
    intro j
    unfold peak
    rw [unit_dz]
    norm_num [crit]
  obtain ⟨a1, a2, a3⟩ := value_refined hn h (by norm_num [crit]) 0 0 (by norm_num [peak, unitGrid]) rfl
    (by norm_num [peak, unitGrid]) hr (hv 0 (by norm_num)) (hz 0)
  obtain ⟨b1, b2, b3⟩ := value_refined hn h (by norm_num [crit]) 0 1 (by norm_num [peak, unitGrid]) rfl
    (by norm_num [peak, unitGrid]) hr (hv 1 (by norm_num)) (hz 1)
  exact ⟨a1, a3, a2, b3, b2⟩

/-- **Finding.**  The maximum number of points (refine.h:75-78, "maximum number of points allowed in the
domain") does not limit the new grid: a grid of three points, below the maximum of four, is refined to five.
(The next analysis throws.) -/
theorem refine_exceeds_max : ∃ (c : Crit) (g : Grid) (s : R),
    (∀ old, analyze c g old = .ok s) ∧ c.npmax = 4 ∧ g.n < c.npmax ∧ c.npmax < (newGrid g s).length := by
  have ha : ∀ old, analyze (crit 0.1 1 0 4) peak old =
      .ok ((List.range (peak.n - 3)).foldl pruneStep (marked (crit 0.1 1 0 4) peak)) := by
    intro old
    have hn : peak.n = 3 := rfl
    have hp : (crit 0.1 1 0 4).npmax = 4 := rfl
    unfold analyze
    rw [hn, hp]
    norm_num
  refine ⟨crit 0.1 1 0 4, peak, _, ha, rfl, by norm_num [crit, peak, unitGrid], ?_⟩
  show 4 < _
  generalize hs : (List.range (peak.n - 3)).foldl pruneStep (marked (crit 0.1 1 0 4) peak) = s at ha ⊢
  obtain ⟨m1, m2, m3, m4, m5⟩ := peak_refined { keep := fun _ => .unset, ins := ∅ } s (ha _)
  have hsub : ([0, 1 / 2, 1, 3 / 2, 2] : List ℝ) ⊆ (newGrid peak s).map Prod.fst := by
    intro x hx
    rw [List.mem_map]
    simp only [List.mem_cons, List.not_mem_nil, or_false] at hx
    rcases hx with rfl | rfl | rfl | rfl | rfl
    · exact ⟨_, m1, by norm_num [oldPt, peak, unitGrid]⟩
    · exact ⟨_, m2, by norm_num [midPt, peak, unitGrid]⟩
    · exact ⟨_, m3, by norm_num [oldPt, peak, unitGrid]⟩
    · exact ⟨_, m4, by norm_num [midPt, peak, unitGrid]⟩
    · exact ⟨_, m5, by norm_num [oldPt, peak, unitGrid]⟩
  have hnd : ([0, 1 / 2, 1, 3 / 2, 2] : List ℝ).Nodup := by norm_num
  have := (hnd.subperm hsub).length_le
  rw [List.length_map] at this
  exact this

/-- A step at the end. -/
noncomputable def ramp : Grid := unitGrid 4 fun j => if j < 3 then 0 else 1

/-- **Finding.**  A point asked for by the curvature criterion is dropped when the point to its left is
pruned in the same pass: here a new point between 1 and 2 is asked for (`1 ∈ ins`), but the point 1 is removed,
so the new grid `0, 2, 2.5, 3` is coarser there than the old one. -/
theorem refine_drops_request : ∃ (c : Crit) (g : Grid) (s : R),
    (∀ old, analyze c g old = .ok s) ∧ c.prune ≤ c.slope ∧ c.prune ≤ c.curve ∧ Increasing g ∧
    1 ∈ s.ins ∧ curveRatio c g 0 1 > 1 ∧ g.z 1 = 1 ∧ g.z 2 = 2 ∧
    (newGrid g s).map Prod.fst = [0, 2, 5 / 2, 3] := by
  have hv0 : ∀ j, j < 2 → valRatio (crit 0.8 0.8 0.1 1000) ramp 0 j = 0 := by
    intro j hj
    have : j = 0 ∨ j = 1 := by omega
    rcases this with rfl | rfl
    · norm_num [valRatio, crit, ramp, unitGrid]
    · norm_num [valRatio, crit, ramp, unitGrid]
  have hv2 : valRatio (crit 0.8 0.8 0.1 1000) ramp 0 2 > 1 := by
    norm_num [valRatio, crit, ramp, unitGrid, range, maxTo, minTo]
  have hz : ∀ j, ramp.dz j = 1 := fun j => unit_dz _ _ _
  have hsl : ∀ j, ramp.slope 0 j = (if j + 1 < 3 then 0 else 1) - (if j < 3 then 0 else 1) :=
    fun j => unit_slope _ _ _ _
  have hc0 : curveRatio (crit 0.8 0.8 0.1 1000) ramp 0 0 = 0 := by
    unfold curveRatio
    rw [hsl, hsl]
    norm_num
  have hc1 : curveRatio (crit 0.8 0.8 0.1 1000) ramp 0 1 > 1 := by
    have hn : ramp.n - 2 = 2 := rfl
    unfold curveRatio range
    rw [hn]
    simp only [maxTo, minTo]
    rw [hz, hsl, hsl, hsl]
    norm_num [crit]
  have hr : range (ramp.val 0) (ramp.n - 1) >
      (crit 0.8 0.8 0.1 1000).minRange * magnitude (ramp.val 0) (ramp.n - 1) := by
    norm_num [crit, ramp, unitGrid, range, magnitude, maxTo, minTo]
  have hrs : range (ramp.slope 0) (ramp.n - 2) >
      (crit 0.8 0.8 0.1 1000).minRange * magnitude (ramp.slope 0) (ramp.n - 2) := by
    have hn : ramp.n - 2 = 2 := rfl
    unfold range magnitude
    rw [hn]
    simp only [maxTo, minTo]
    rw [hsl, hsl, hsl]
    norm_num [crit]
  have hpr : (crit 0.8 0.8 0.1 1000).prune = 0.1 := rfl
  have hgm : (crit 0.8 0.8 0.1 1000).gridmin = 1e-10 := rfl
  have hval0 : ∀ s, ∀ j < 2, valStep (crit 0.8 0.8 0.1 1000) ramp 0 s j = s.drop j := by
    intro s j hj
    unfold valStep
    simp only
    rw [hv0 j hj, hpr, if_neg (by norm_num), if_neg (by norm_num)]
  have hval2 : ∀ s, valStep (crit 0.8 0.8 0.1 1000) ramp 0 s 2 = ((s.insert 2).setKeep 2).setKeep 3 := by
    intro s
    unfold valStep
    simp only
    rw [hpr, hgm, hz, if_pos (by linarith), if_pos ⟨hv2, by norm_num⟩]
  have hcs0 : ∀ s, curveStep (crit 0.8 0.8 0.1 1000) ramp 0 s 0 = s.drop 1 := by
    intro s
    unfold curveStep
    simp only
    rw [hc0, hpr, if_neg (by norm_num), if_neg (by norm_num)]
  have hcs1 : ∀ s, curveStep (crit 0.8 0.8 0.1 1000) ramp 0 s 1 = ((s.insert 1).insert 2).setKeep 2 := by
    intro s
    unfold curveStep
    simp only
    rw [hpr, hgm, hz, hz, if_pos (by linarith), if_pos ⟨hc1, by norm_num, by norm_num⟩]
  have hm : marked (crit 0.8 0.8 0.1 1000) ramp =
      (((((((((start ramp).drop 0).drop 1).insert 2).setKeep 2).setKeep 3).drop 1).insert 1).insert
        2).setKeep 2 := by
    have h1 : valPass (crit 0.8 0.8 0.1 1000) ramp (start ramp) 0 =
        (((((start ramp).drop 0).drop 1).insert 2).setKeep 2).setKeep 3 := by
      unfold valPass
      rw [if_pos hr]
      show (([0, 1, 2] : List ℕ).foldl _ _) = _
      rw [List.foldl_cons, hval0 _ 0 (by norm_num), List.foldl_cons, hval0 _ 1 (by norm_num),
        List.foldl_cons, hval2]
      rfl
    have h2 : ∀ s, curvePass (crit 0.8 0.8 0.1 1000) ramp s 0 =
        (((s.drop 1).insert 1).insert 2).setKeep 2 := by
      intro s
      unfold curvePass
      rw [if_pos hrs]
      show (([0, 1] : List ℕ).foldl _ _) = _
      rw [List.foldl_cons, hcs0, List.foldl_cons, hcs1]
      rfl
    rw [← h1, ← h2]
    exact unit_marked _ _ _ _ _ _
  have hk0 : (marked (crit 0.8 0.8 0.1 1000) ramp).keep 0 = .keep := by
    rw [hm]
    simp [start, R.drop, R.setKeep, R.insert, ramp, unitGrid]
  have hk1 : (marked (crit 0.8 0.8 0.1 1000) ramp).keep 1 = .remove := by
    rw [hm]
    simp [start, R.drop, R.setKeep, R.insert, ramp, unitGrid]
  have hk2 : (marked (crit 0.8 0.8 0.1 1000) ramp).keep 2 = .keep := by
    rw [hm]
    simp [start, R.drop, R.setKeep, R.insert, ramp, unitGrid]
  have hk3 : (marked (crit 0.8 0.8 0.1 1000) ramp).keep 3 = .keep := by
    rw [hm]
    simp [start, R.drop, R.setKeep, R.insert, ramp, unitGrid]
  have hi : (marked (crit 0.8 0.8 0.1 1000) ramp).ins = {1, 2} := by
    rw [hm]
    ext j
    simp [start, R.drop, R.setKeep, R.insert]
  refine ⟨crit 0.8 0.8 0.1 1000, ramp, marked (crit 0.8 0.8 0.1 1000) ramp, fun old => ?_,
    by norm_num [crit], by norm_num [crit], unit_increasing _ _, ?_, hc1, by norm_num [ramp, unitGrid],
    by norm_num [ramp, unitGrid], ?_⟩
  · have hn : ramp.n = 4 := rfl
    have hp : (crit 0.8 0.8 0.1 1000).npmax = 1000 := rfl
    unfold analyze
    rw [hn, hp, if_neg (by norm_num), if_neg (by norm_num)]
    show Outcome.ok (([0] : List ℕ).foldl pruneStep _) = _
    simp [pruneStep, hk2]
  · rw [hi]; simp
  · have hn : ramp.n = 4 := rfl
    generalize marked (crit 0.8 0.8 0.1 1000) ramp = M at hk0 hk1 hk2 hk3 hi
    have b0 : block ramp M 0 = [oldPt ramp 0] := by simp [block, hk0, hi]
    have b1 : block ramp M 1 = [] := by simp [block, hk1]
    have b2 : block ramp M 2 = [oldPt ramp 2, midPt ramp 2] := by simp [block, hk2, hi, hn]
    have b3 : block ramp M 3 = [oldPt ramp 3] := by simp [block, hk3, hn]
    unfold newGrid
    rw [hn]
    show (([0, 1, 2, 3] : List ℕ).flatMap _).map _ = _
    simp only [List.flatMap_cons, List.flatMap_nil, b0, b1, b2, b3]
    norm_num [oldPt, midPt, ramp, unitGrid]

/-- The analysis fails only if there are too many points. -/
theorem analyze_total (c : Crit) (g : Grid) (old : R) (h : g.n < c.npmax) : ∃ s, analyze c g old = .ok s := by
  unfold analyze
  rw [if_neg (by omega)]
  split_ifs
  · exact ⟨_, rfl⟩
  · exact ⟨_, rfl⟩

example : ∃ s, analyze (crit 0.8 0.8 0.7 1000) line { keep := fun _ => .unset, ins := ∅ } = .ok s :=
  analyze_total _ _ _ (by norm_num [crit, line, unitGrid])

/-- The line with its middle point fixed. -/
noncomputable def fixedLine : Grid := { line with fixed := fun x => decide (0 < x ∧ x < 2) }

example : ∃ s, analyze (crit 0.8 0.8 0.7 1000) fixedLine { keep := fun _ => .unset, ins := ∅ } = .ok s ∧
    s.keep 1 = .keep := by
  obtain ⟨s, h⟩ := analyze_total (crit 0.8 0.8 0.7 1000) fixedLine { keep := fun _ => .unset, ins := ∅ }
    (by norm_num [crit, fixedLine, line, unitGrid])
  exact ⟨s, h, fixed_kept (by norm_num [fixedLine, line, unitGrid]) h 1
    (by norm_num [fixedLine, line, unitGrid]) (by norm_num [fixedLine, line, unitGrid])⟩

example (s : R) : (newGrid line s).Pairwise fun p q => p.1 < q.1 :=
  newGrid_increasing (unit_increasing _ _) s

/-- Two intervals of lengths 1 and 11. -/
noncomputable def uneven : Grid := { line with z := fun j => if j < 2 then (j : ℝ) else 12 }

example : ∃ s, analyze (crit 0.8 0.8 0.7 1000) uneven { keep := fun _ => .unset, ins := ∅ } = .ok s ∧
    midPt uneven 1 ∈ newGrid uneven s := by
  obtain ⟨s, h⟩ := analyze_total (crit 0.8 0.8 0.7 1000) uneven { keep := fun _ => .unset, ins := ∅ }
    (by norm_num [crit, uneven, line, unitGrid])
  exact ⟨s, h, ((ratio_refined (by norm_num [uneven, line, unitGrid]) h 0
    (by norm_num [uneven, line, unitGrid])).1 (by norm_num [Grid.dz, uneven, crit])).2.2⟩

end Verif.Refine
