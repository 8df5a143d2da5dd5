import Verif.Basic
import Mathlib.Data.Real.Basic
import Mathlib.Algebra.BigOperators.Group.List.Basic
import Mathlib.Algebra.Order.BigOperators.Group.List
import Mathlib.Tactic.SplitIfs
import Mathlib.Tactic.Linarith
import Mathlib.Tactic.NormNum
import Mathlib.Tactic.Ring
import Mathlib.Tactic.Positivity

/-!
# Element balance of reactions (C06)

Model of `Reaction::checkSpecies`, `Reaction::checkBalance` and `ThirdBody::checkSpecies`
(src/kinetics/Reaction.cpp:593-712 and 832-856), called by `Kinetics::addReaction`
(src/kinetics/Kinetics.cpp:624).
-/

namespace Verif.Balance

/-- A phase: element names, `speciesIndex` (`none` is `npos`), `nAtoms(k, m)`. -/
structure Ph where
  elements : List String
  index : String → Option ℕ
  atoms : ℕ → ℕ → ℝ

/-- A kinetics object: phases, dimension of the first phase, the sizes of its species if it is a
`SurfPhase`, and the two flags for undeclared species. -/
structure Kin where
  phases : List Ph
  nDim : ℕ
  surf : Option (ℕ → ℝ)
  skipSpecies : Bool
  skipThird : Bool

/-- `Composition`, in the order of iteration. -/
abbrev Comp := List (String × ℝ)

/-- A third body: name and explicitly given efficiencies. -/
structure TB where
  name : String
  eff : Comp

/-- A reaction. -/
structure Rxn where
  reactants : Comp
  products : Comp
  orders : Comp
  third : Option TB

/-- `Kinetics::speciesPhase` (src/kinetics/Kinetics.cpp:313-321) and `speciesIndex` in it: the first
phase which has the species. -/
def find : List Ph → String → Option (Ph × ℕ)
  | [], _ => none
  | p :: ps, n => match p.index n with
    | some k => some (p, k)
    | none => find ps n

/-- `updateUndeclared` (src/kinetics/Reaction.cpp:593-601): the names without species. -/
def undeclared (kin : Kin) (c : Comp) : List String :=
  (c.map Prod.fst).filter (fun n => (find kin.phases n).isNone)

/-- A `Composition` as a map. -/
abbrev Bal := String → Option ℝ

/-- `b[e] = v`. -/
def Bal.set (b : Bal) (e : String) (v : ℝ) : Bal := fun n => if n = e then some v else b n

/-- `b[e] += v`. -/
def Bal.add (b : Bal) (e : String) (v : ℝ) : Bal := b.set e ((b e).getD 0 + v)

/-- The loop over the elements of a product's phase (611-614); `m` is the index of the first element
of the list. -/
def prodElems (at_ : ℕ → ℝ) (st : ℝ) : ℕ → List String → Bal × Bal → Bal × Bal
  | _, [], b => b
  | m, e :: es, (br, bp) => prodElems at_ st (m + 1) es (br.set e 0, bp.add e (st * at_ m))

/-- The loop over the elements of a reactant's phase (619-621). -/
def reacElems (at_ : ℕ → ℝ) (st : ℝ) : ℕ → List String → Bal → Bal
  | _, [], b => b
  | m, e :: es, br => reacElems at_ st (m + 1) es (br.add e (st * at_ m))

/-- The loop over the products (608-615). -/
def prodLoop (kin : Kin) : Comp → Bal × Bal → Outcome (Bal × Bal)
  | [], b => .ok b
  | (n, st) :: r, b => match find kin.phases n with
    | none => .throw
    | some (p, k) => prodLoop kin r (prodElems (p.atoms k) st 0 p.elements b)

/-- The loop over the reactants (616-622). -/
def reacLoop (kin : Kin) : Comp → Bal → Outcome Bal
  | [], b => .ok b
  | (n, st) :: r, b => match find kin.phases n with
    | none => .throw
    | some (p, k) => reacLoop kin r (reacElems (p.atoms k) st 0 p.elements b)

/-- An element in the map `balr` is unbalanced (626-629). -/
def bad (br bp : Bal) (e : String) : Prop :=
  br e ≠ none ∧ (br e).getD 0 + (bp e).getD 0 > 0 ∧
    |(bp e).getD 0 - (br e).getD 0| / ((br e).getD 0 + (bp e).getD 0) > 1e-4

/-- Number of sites (650-661). -/
def sites (ph : Ph) (size : ℕ → ℝ) : Comp → ℝ → ℝ
  | [], s => s
  | (n, st) :: r, s => match ph.index n with
    | some k => sites ph size r (s + st * size k)
    | none => sites ph size r s

open Classical in
/-- `Reaction::checkBalance` (603-668). -/
noncomputable def checkBalance (kin : Kin) (r : Rxn) : Outcome Unit :=
  (prodLoop kin r.products (fun _ => none, fun _ => none)).bind fun b =>
    (reacLoop kin r.reactants b.1).bind fun br =>
      if ∃ e, bad br b.2 e then .throw
      else if kin.nDim = 3 then .ok ()
      else match kin.surf, kin.phases with
        | some size, p :: _ =>
          let rs := sites p size r.reactants 0
          let ps := sites p size r.products 0
          if |rs - ps| > 1e-5 * (rs + ps) then .throw else .ok ()
        | _, _ => .throw                      -- dynamic_cast: std::bad_cast

/-- `ThirdBody::checkSpecies` (832-856). -/
def tbCheck (kin : Kin) (tb : TB) : Outcome Bool :=
  if undeclared kin tb.eff ≠ [] then
    if kin.skipThird = false then .throw
    else if tb.name ≠ "M" then .ok false else .ok true
  else .ok true

/-- `Reaction::checkSpecies` (670-712): true if the reaction is to be added. -/
noncomputable def checkSpecies (kin : Kin) (r : Rxn) : Outcome Bool :=
  if undeclared kin r.reactants ++ undeclared kin r.products ≠ [] then
    if kin.skipSpecies then .ok false else .throw
  else if undeclared kin r.orders ≠ [] then
    if kin.skipSpecies then .ok false else .throw
  else match r.third with
    | some tb => tbCheck kin tb
    | none => (checkBalance kin r).bind fun _ => .ok true

/-! ## What balance means -/

/-- Number of atoms of element `e` in a list of elements with the counts `at_` from index `m` on. -/
noncomputable def countFrom (at_ : ℕ → ℝ) (e : String) : ℕ → List String → ℝ
  | _, [] => 0
  | m, x :: xs => (if x = e then at_ m else 0) + countFrom at_ e (m + 1) xs

/-- Number of atoms of element `e` in the species named `n`. -/
noncomputable def atomsOf (kin : Kin) (n e : String) : ℝ :=
  match find kin.phases n with
  | none => 0
  | some (p, k) => countFrom (p.atoms k) e 0 p.elements

/-- Amount of element `e` on one side of a reaction. -/
noncomputable def total (kin : Kin) (c : Comp) (e : String) : ℝ :=
  (c.map (fun x => x.2 * atomsOf kin x.1 e)).sum

/-- Sites of the first phase used on one side. -/
def sitesOf (ph : Ph) (size : ℕ → ℝ) (c : Comp) : ℝ :=
  (c.map (fun x => match ph.index x.1 with
    | some k => x.2 * size k
    | none => 0)).sum

/-- A species is found exactly if some phase has it. -/
theorem find_none {n : String} : ∀ {ps : List Ph}, find ps n = none ↔ ∀ p ∈ ps, p.index n = none
  | [] => by simp [find]
  | p :: ps => by
    rcases h : p.index n with _ | k
    · have : find (p :: ps) n = find ps n := by rw [find, h]
      rw [this, find_none (ps := ps)]; simp [h]
    · have : find (p :: ps) n = some (p, k) := by rw [find, h]
      rw [this]; simp [h]

/-- With distinct element names the count is the entry of the table. -/
theorem countFrom_nodup {at_ : ℕ → ℝ} {es : List String} (h : es.Nodup) :
    ∀ {m i : ℕ} {e : String}, es[i]? = some e → countFrom at_ e m es = at_ (m + i) := by
  induction es with
  | nil => intro m i e hi; simp at hi
  | cons x xs ih =>
    rw [List.nodup_cons] at h
    intro m i e hi
    rw [countFrom]
    rcases i with _ | i
    · simp at hi
      subst hi
      have hz : ∀ (ys : List String) (m : ℕ), x ∉ ys → countFrom at_ x m ys = 0 := by
        intro ys
        induction ys with
        | nil => intro m _; rfl
        | cons y ys ihy =>
          intro m hy
          rw [List.mem_cons, not_or] at hy
          rw [countFrom, if_neg (fun hc => hy.1 hc.symm), ihy _ hy.2]; simp
      rw [if_pos rfl, hz xs _ h.1]; simp
    · simp at hi
      have hne : x ≠ e := by
        rintro rfl
        exact h.1 (List.mem_of_getElem? hi)
      rw [if_neg hne, ih h.2 hi]
      simp [Nat.add_comm, Nat.add_left_comm]

/-! ## The loops compute the totals -/

theorem prodElems_spec (at_ : ℕ → ℝ) (st : ℝ) (e : String) :
    ∀ (es : List String) (m : ℕ) (b : Bal × Bal),
      ((prodElems at_ st m es b).2 e).getD 0 = (b.2 e).getD 0 + st * countFrom at_ e m es ∧
      ((b.1 e).getD 0 = 0 → ((prodElems at_ st m es b).1 e).getD 0 = 0) ∧
      ((prodElems at_ st m es b).1 e = none ↔ b.1 e = none ∧ e ∉ es)
  | [], m, b => by simp [prodElems, countFrom]
  | x :: es, m, (br, bp) => by
    obtain ⟨h1, h2, h3⟩ := prodElems_spec at_ st e es (m + 1) (br.set x 0, bp.add x (st * at_ m))
    rw [prodElems]
    refine ⟨?_, fun h => h2 ?_, ?_⟩
    · rw [h1, countFrom]
      by_cases hx : x = e
      · subst hx
        simp [Bal.add, Bal.set]; ring
      · have : e ≠ x := fun h => hx h.symm
        simp [Bal.add, Bal.set, hx, this]
    · by_cases hx : e = x
      · simp [Bal.set, hx]
      · simp only [Bal.set, if_neg hx]; exact h
    · rw [h3]
      by_cases hx : e = x
      · simp [Bal.set, hx]
      · simp [Bal.set, hx]

theorem reacElems_spec (at_ : ℕ → ℝ) (st : ℝ) (e : String) :
    ∀ (es : List String) (m : ℕ) (b : Bal),
      ((reacElems at_ st m es b) e).getD 0 = (b e).getD 0 + st * countFrom at_ e m es ∧
      (reacElems at_ st m es b e = none ↔ b e = none ∧ e ∉ es)
  | [], m, b => by simp [reacElems, countFrom]
  | x :: es, m, br => by
    obtain ⟨h1, h3⟩ := reacElems_spec at_ st e es (m + 1) (br.add x (st * at_ m))
    rw [reacElems]
    refine ⟨?_, ?_⟩
    · rw [h1, countFrom]
      by_cases hx : x = e
      · subst hx
        simp [Bal.add, Bal.set]; ring
      · have : e ≠ x := fun h => hx h.symm
        simp [Bal.add, Bal.set, hx, this]
    · rw [h3]
      by_cases hx : e = x
      · simp [Bal.add, Bal.set, hx]
      · simp [Bal.add, Bal.set, hx]

theorem countFrom_not_mem {at_ : ℕ → ℝ} {e : String} :
    ∀ {es : List String} {m : ℕ}, e ∉ es → countFrom at_ e m es = 0
  | [], _, _ => rfl
  | x :: xs, m, h => by
    rw [List.mem_cons, not_or] at h
    rw [countFrom, if_neg (fun hc => h.1 hc.symm), countFrom_not_mem h.2]; simp

/-- All names are species. -/
def Declared (kin : Kin) (c : Comp) : Prop := ∀ x ∈ c, find kin.phases x.1 ≠ none

theorem undeclared_nil {kin : Kin} {c : Comp} : undeclared kin c = [] ↔ Declared kin c := by
  unfold undeclared Declared
  rw [List.filter_eq_nil_iff]
  constructor
  · intro h x hx hn
    exact h x.1 (List.mem_map.mpr ⟨x, hx, rfl⟩) (by rw [hn]; rfl)
  · intro h n hn
    obtain ⟨x, hx, rfl⟩ := List.mem_map.mp hn
    have := h x hx
    rcases hf : find kin.phases x.1 with _ | _
    · exact absurd hf this
    · simp

theorem prodLoop_spec (kin : Kin) : ∀ (c : Comp) (b : Bal × Bal), Declared kin c →
    ∃ b', prodLoop kin c b = .ok b' ∧ ∀ e, (b'.2 e).getD 0 = (b.2 e).getD 0 + total kin c e ∧
      ((b.1 e).getD 0 = 0 → (b'.1 e).getD 0 = 0) ∧
      (b'.1 e = none → b.1 e = none ∧ total kin c e = 0)
  | [], b, _ => ⟨b, rfl, fun e => by simp [total]⟩
  | (n, st) :: r, b, hd => by
    have hn := hd (n, st) List.mem_cons_self
    rcases hf : find kin.phases n with _ | ⟨p, k⟩
    · exact absurd hf hn
    obtain ⟨b', h1, h2⟩ := prodLoop_spec kin r (prodElems (p.atoms k) st 0 p.elements b)
      (fun x hx => hd x (List.mem_cons_of_mem _ hx))
    refine ⟨b', by rw [prodLoop, hf]; exact h1, fun e => ?_⟩
    obtain ⟨a1, a2, a3⟩ := h2 e
    obtain ⟨p1, p2, p3⟩ := prodElems_spec (p.atoms k) st e p.elements 0 b
    have ht : total kin ((n, st) :: r) e =
        st * countFrom (p.atoms k) e 0 p.elements + total kin r e := by
      simp [total, atomsOf, hf]
    refine ⟨by rw [a1, p1, ht]; ring, fun h => a2 (p2 h), fun h => ?_⟩
    obtain ⟨c1, c2⟩ := a3 h
    rw [p3] at c1
    refine ⟨c1.1, ?_⟩
    rw [ht, c2, countFrom_not_mem c1.2]; simp

theorem reacLoop_spec (kin : Kin) : ∀ (c : Comp) (b : Bal), Declared kin c →
    ∃ b', reacLoop kin c b = .ok b' ∧ ∀ e, (b' e).getD 0 = (b e).getD 0 + total kin c e ∧
      (b' e = none → b e = none ∧ total kin c e = 0)
  | [], b, _ => ⟨b, rfl, fun e => by simp [total]⟩
  | (n, st) :: r, b, hd => by
    have hn := hd (n, st) List.mem_cons_self
    rcases hf : find kin.phases n with _ | ⟨p, k⟩
    · exact absurd hf hn
    obtain ⟨b', h1, h2⟩ := reacLoop_spec kin r (reacElems (p.atoms k) st 0 p.elements b)
      (fun x hx => hd x (List.mem_cons_of_mem _ hx))
    refine ⟨b', by rw [reacLoop, hf]; exact h1, fun e => ?_⟩
    obtain ⟨a1, a3⟩ := h2 e
    obtain ⟨p1, p3⟩ := reacElems_spec (p.atoms k) st e p.elements 0 b
    have ht : total kin ((n, st) :: r) e =
        st * countFrom (p.atoms k) e 0 p.elements + total kin r e := by
      simp [total, atomsOf, hf]
    refine ⟨by rw [a1, p1, ht]; ring, fun h => ?_⟩
    obtain ⟨c1, c2⟩ := a3 h
    rw [p3] at c1
    refine ⟨c1.1, ?_⟩
    rw [ht, c2, countFrom_not_mem c1.2]; simp

theorem sites_spec (ph : Ph) (size : ℕ → ℝ) : ∀ (c : Comp) (s : ℝ),
    sites ph size c s = s + sitesOf ph size c
  | [], s => by simp [sites, sitesOf]
  | (n, st) :: r, s => by
    rcases hi : ph.index n with _ | k
    · have : sites ph size ((n, st) :: r) s = sites ph size r s := by rw [sites, hi]
      rw [this, sites_spec ph size r]; simp [sitesOf, hi]
    · have : sites ph size ((n, st) :: r) s = sites ph size r (s + st * size k) := by
        rw [sites, hi]
      rw [this, sites_spec ph size r]; simp [sitesOf, hi]; ring

/-- Element `e` is balanced to the documented tolerance, where the amounts add up to something
positive. -/
def Balanced (kin : Kin) (r : Rxn) (e : String) : Prop :=
  0 < total kin r.reactants e + total kin r.products e →
    |total kin r.products e - total kin r.reactants e| ≤
      1e-4 * (total kin r.reactants e + total kin r.products e)

/-- The surface sites are balanced; only reactions of surfaces have any. -/
def SitesBalanced (kin : Kin) (r : Rxn) : Prop :=
  kin.nDim ≠ 3 → ∃ size p ps, kin.surf = some size ∧ kin.phases = p :: ps ∧
    |sitesOf p size r.reactants - sitesOf p size r.products| ≤
      1e-5 * (sitesOf p size r.reactants + sitesOf p size r.products)

/-- `checkBalance` accepts exactly the reactions all elements and the sites of which are
balanced. -/
theorem checkBalance_iff {kin : Kin} {r : Rxn} (hr : Declared kin r.reactants)
    (hp : Declared kin r.products) :
    checkBalance kin r = .ok () ↔ (∀ e, Balanced kin r e) ∧ SitesBalanced kin r := by
  obtain ⟨b, hb, hbs⟩ := prodLoop_spec kin r.products (fun _ => none, fun _ => none) hp
  obtain ⟨br, hbr, hbrs⟩ := reacLoop_spec kin r.reactants b.1 hr
  have hP : ∀ e, (b.2 e).getD 0 = total kin r.products e := fun e => by simpa using (hbs e).1
  have hR : ∀ e, (br e).getD 0 = total kin r.reactants e := fun e => by
    rw [(hbrs e).1, (hbs e).2.1 rfl, zero_add]
  have hbad : (∃ e, bad br b.2 e) ↔ ¬ ∀ e, Balanced kin r e := by
    rw [not_forall]
    refine exists_congr (fun e => ?_)
    unfold bad Balanced
    rw [hP, hR, Classical.not_imp, not_le]
    constructor
    · rintro ⟨_, h2, h3⟩
      refine ⟨h2, ?_⟩
      rw [gt_iff_lt, lt_div_iff₀ h2] at h3
      exact h3
    · rintro ⟨h2, h3⟩
      refine ⟨fun hn => ?_, h2, ?_⟩
      · obtain ⟨c1, c2⟩ := (hbrs e).2 hn
        obtain ⟨_, c3⟩ := (hbs e).2.2 c1
        rw [c2, c3] at h2
        simp at h2
      · rw [gt_iff_lt, lt_div_iff₀ h2]
        exact h3
  unfold checkBalance
  rw [hb, Outcome.bind, hbr, Outcome.bind]
  by_cases h1 : ∀ e, Balanced kin r e
  · rw [if_neg (by rw [hbad]; exact not_not.mpr h1)]
    simp only [h1, true_and, implies_true]
    by_cases h3 : kin.nDim = 3
    · simp [h3, SitesBalanced]
    · rw [if_neg h3]
      unfold SitesBalanced
      rcases kin.surf with _ | size
      · simp [h3]
      · rcases kin.phases with _ | ⟨p, ps⟩
        · simp [h3]
        · simp only [sites_spec, zero_add]
          constructor
          · intro h _
            refine ⟨size, p, ps, rfl, rfl, ?_⟩
            split_ifs at h with hc
            exact not_lt.mp hc
          · intro h
            obtain ⟨size', p', ps', e1, e2, e3⟩ := h h3
            cases e1
            cases e2
            rw [if_neg (not_lt.mpr e3)]
  · rw [if_pos (by rw [hbad]; exact h1)]
    simp [h1]

/-- Reactions without a third body are added exactly if all species are declared and elements and
sites are balanced. -/
theorem checkSpecies_iff {kin : Kin} {r : Rxn} (h3 : r.third = none) :
    checkSpecies kin r = .ok true ↔ Declared kin r.reactants ∧ Declared kin r.products ∧
      Declared kin r.orders ∧ (∀ e, Balanced kin r e) ∧ SitesBalanced kin r := by
  unfold checkSpecies
  by_cases h1 : Declared kin r.reactants ∧ Declared kin r.products
  · rw [if_neg (by
      rw [undeclared_nil.mpr h1.1, undeclared_nil.mpr h1.2]; simp)]
    by_cases h2 : Declared kin r.orders
    · rw [if_neg (not_not.mpr (undeclared_nil.mpr h2)), h3]
      simp only [h1, h2, true_and]
      rw [← checkBalance_iff h1.1 h1.2]
      rcases checkBalance kin r with _ | _ | _ <;> simp [Outcome.bind]
    · rw [if_pos (fun h => h2 (undeclared_nil.mp h))]
      split_ifs <;> simp [h2]
  · rw [if_pos (by
      intro h
      rw [List.append_eq_nil_iff, undeclared_nil, undeclared_nil] at h
      exact h1 h)]
    split_ifs <;> simp <;> intro ha hb <;> exact absurd ⟨ha, hb⟩ h1

/-- All atom counts of species in a list are non-negative, and so are the coefficients. -/
def NonNeg (kin : Kin) (c : Comp) (e : String) : Prop := ∀ x ∈ c, 0 ≤ x.2 ∧ 0 ≤ atomsOf kin x.1 e

theorem total_nonneg {kin : Kin} {c : Comp} {e : String} (h : NonNeg kin c e) :
    0 ≤ total kin c e := by
  refine List.sum_nonneg (fun y hy => ?_)
  obtain ⟨x, hx, rfl⟩ := List.mem_map.mp hy
  exact mul_nonneg (h x hx).1 (h x hx).2

/-- Accepted reactions without a third body conserve every element with non-negative counts to the
documented relative tolerance.  (Missing: third-body reactions and elements with negative counts,
see below.) -/
theorem accepted_balanced_partial {kin : Kin} {r : Rxn} (h3 : r.third = none)
    (h : checkSpecies kin r = .ok true) {e : String} (hr : NonNeg kin r.reactants e)
    (hp : NonNeg kin r.products e) :
    |total kin r.products e - total kin r.reactants e| ≤
      1e-4 * (total kin r.reactants e + total kin r.products e) := by
  obtain ⟨_, _, _, hb, _⟩ := (checkSpecies_iff h3).mp h
  have h1 := total_nonneg hr
  have h2 := total_nonneg hp
  rcases (add_nonneg h1 h2).lt_or_eq with hlt | heq
  · exact hb e hlt
  · have e1 : total kin r.reactants e = 0 := by linarith
    have e2 : total kin r.products e = 0 := by linarith
    rw [e1, e2]; simp

/-- In particular: integral coefficients and counts which are small enough balance exactly. -/
theorem accepted_exact_partial {kin : Kin} {r : Rxn} (h3 : r.third = none)
    (h : checkSpecies kin r = .ok true) {e : String} (hr : NonNeg kin r.reactants e)
    (hp : NonNeg kin r.products e) {a b : ℕ} (ha : total kin r.reactants e = a)
    (hb : total kin r.products e = b) (hs : a + b < 10000) : a = b := by
  have hle := accepted_balanced_partial h3 h hr hp
  rw [ha, hb] at hle
  have hs' : ((a : ℝ) + b) < 10000 := by exact_mod_cast hs
  have hlt : |(b : ℝ) - a| < 1 := by
    refine lt_of_le_of_lt hle ?_
    norm_num
    linarith
  have hz : |((b : ℤ) - a)| < 1 := by exact_mod_cast hlt
  rw [Int.abs_lt_one_iff] at hz
  omega

/-- An exactly balanced reaction of declared species without third body is always accepted. -/
theorem balanced_accepted {kin : Kin} {r : Rxn} (h3 : r.third = none) (hn : kin.nDim = 3)
    (hd : Declared kin r.reactants ∧ Declared kin r.products ∧ Declared kin r.orders)
    (hb : ∀ e, total kin r.reactants e = total kin r.products e) :
    checkSpecies kin r = .ok true := by
  refine (checkSpecies_iff h3).mpr ⟨hd.1, hd.2.1, hd.2.2, fun e => ?_, fun h => absurd hn h⟩
  intro hpos
  rw [hb e, sub_self, abs_zero]
  rw [hb e] at hpos
  positivity

/-- Third-body reactions are added exactly if the species are declared, where undeclared
efficiencies of the generic third body may be skipped.  Balance is not required at all. -/
theorem third_body_iff {kin : Kin} {r : Rxn} {tb : TB} (h3 : r.third = some tb) :
    checkSpecies kin r = .ok true ↔ Declared kin r.reactants ∧ Declared kin r.products ∧
      Declared kin r.orders ∧
      (Declared kin tb.eff ∨ (kin.skipThird = true ∧ tb.name = "M")) := by
  unfold checkSpecies
  by_cases h1 : Declared kin r.reactants ∧ Declared kin r.products
  · rw [if_neg (by
      rw [undeclared_nil.mpr h1.1, undeclared_nil.mpr h1.2]; simp)]
    by_cases h2 : Declared kin r.orders
    · rw [if_neg (not_not.mpr (undeclared_nil.mpr h2)), h3]
      simp only [h1, h2, true_and]
      unfold tbCheck
      by_cases h4 : Declared kin tb.eff
      · rw [if_neg (not_not.mpr (undeclared_nil.mpr h4))]
        simp [h4]
      · rw [if_pos (fun h => h4 (undeclared_nil.mp h))]
        by_cases h5 : kin.skipThird = true
        · by_cases h6 : tb.name = "M" <;> simp [h4, h5, h6]
        · simp [h4, h5]
    · rw [if_pos (fun h => h2 (undeclared_nil.mp h))]
      split_ifs <;> simp [h2]
  · rw [if_pos (by
      intro h
      rw [List.append_eq_nil_iff, undeclared_nil, undeclared_nil] at h
      exact h1 h)]
    split_ifs <;> simp <;> intro ha hb <;> exact absurd ⟨ha, hb⟩ h1

/-- Third-body reactions are not checked at all: declared species are all that is needed. -/
theorem third_body_unchecked {kin : Kin} {r : Rxn} {tb : TB} (h3 : r.third = some tb)
    (hd : Declared kin r.reactants ∧ Declared kin r.products ∧ Declared kin r.orders)
    (he : Declared kin tb.eff) : checkSpecies kin r = .ok true :=
  (third_body_iff h3).mpr ⟨hd.1, hd.2.1, hd.2.2, Or.inl he⟩

/-- A gas of species with the counts of elements `O` and `E` given by the name. -/
def exPh : Ph :=
  { elements := ["O", "E"]
    index := fun n => if n = "O" then some 0 else if n = "O2" then some 1
      else if n = "O+" then some 2 else if n = "O++" then some 3 else none
    atoms := fun k m => if m = 0 then (if k = 1 then 2 else 1)
      else if k = 2 then -1 else if k = 3 then -2 else 0 }

/-- A kinetics object with this gas. -/
def exKin : Kin :=
  { phases := [exPh]
    nDim := 3
    surf := none
    skipSpecies := false
    skipThird := false }

/-- `O2 => 2 O` is accepted. -/
theorem exKin_ok : checkSpecies exKin ⟨[("O2", 1)], [("O", 2)], [], none⟩ = .ok true := by
  refine balanced_accepted rfl rfl ⟨?_, ?_, ?_⟩ (fun e => ?_)
  · intro x hx; simp at hx; subst hx; simp [exKin, find, exPh]
  · intro x hx; simp at hx; subst hx; simp [exKin, find, exPh]
  · intro x hx; simp at hx
  · simp [total, atomsOf, find, exKin, exPh, countFrom]

/-- `O2 + M => 5 O + M` is accepted although it creates three atoms of oxygen. -/
theorem third_body_wrong :
    ∃ r : Rxn, checkSpecies exKin r = .ok true ∧ total exKin r.reactants "O" = 2 ∧
      total exKin r.products "O" = 5 := by
  refine ⟨⟨[("O2", 1)], [("O", 5)], [], some ⟨"M", []⟩⟩, third_body_unchecked rfl ⟨?_, ?_, ?_⟩ ?_,
    ?_, ?_⟩
  · intro x hx; simp at hx; subst hx; simp [exKin, find, exPh]
  · intro x hx; simp at hx; subst hx; simp [exKin, find, exPh]
  · intro x hx; simp at hx
  · intro x hx; simp at hx
  · simp [total, atomsOf, find, exKin, exPh, countFrom]
  · simp [total, atomsOf, find, exKin, exPh, countFrom]

/-- `O+ => O++` is accepted although it does not conserve charge. -/
theorem charge_wrong :
    ∃ r : Rxn, r.third = none ∧ checkSpecies exKin r = .ok true ∧
      total exKin r.reactants "E" = -1 ∧ total exKin r.products "E" = -2 := by
  have t1 : ∀ e, total exKin [("O+", 1)] e = (if e = "O" then 1 else 0) + if e = "E" then -1 else 0 := by
    intro e
    simp [total, atomsOf, find, exKin, exPh, countFrom, eq_comm]
  have t2 : ∀ e, total exKin [("O++", 1)] e = (if e = "O" then 1 else 0) + if e = "E" then -2 else 0 := by
    intro e
    simp [total, atomsOf, find, exKin, exPh, countFrom, eq_comm]
  refine ⟨⟨[("O+", 1)], [("O++", 1)], [], none⟩, rfl, ?_, ?_, ?_⟩
  · refine (checkSpecies_iff rfl).mpr ⟨?_, ?_, ?_, fun e => ?_, fun h => absurd rfl h⟩
    · intro x hx; simp at hx; subst hx; simp [exKin, find, exPh]
    · intro x hx; simp at hx; subst hx; simp [exKin, find, exPh]
    · intro x hx; simp at hx
    · unfold Balanced
      simp only [t1, t2]
      by_cases h1 : e = "O"
      · subst h1; simp; norm_num
      · by_cases h2 : e = "E"
        · subst h2; simp; norm_num
        · simp [h1, h2]
  · simp [t1]
  · simp [t2]

example : ∃ r : Rxn, r.third = none ∧ checkSpecies exKin r = .ok true ∧
    NonNeg exKin r.reactants "O" ∧ NonNeg exKin r.products "O" := by
  refine ⟨_, rfl, exKin_ok, ?_, ?_⟩
  · intro x hx; simp at hx; subst hx
    simp [atomsOf, find, exKin, exPh, countFrom]
  · intro x hx; simp at hx; subst hx
    simp [atomsOf, find, exKin, exPh, countFrom]

end Verif.Balance
