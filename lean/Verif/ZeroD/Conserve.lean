import Verif.ZeroD.Mass
import Mathlib.Algebra.BigOperators.Field
import Mathlib.Tactic.NormNum
import Mathlib.Analysis.Calculus.MeanValue

/-!
# Conservation theorems for whole networks (C48)
-/

namespace Verif.ZeroD

open Finset

/-! ## Species tables -/

/-- Name of species `k`. -/
def Node.name (r : Node) (k : ℕ) : String := r.names.getD k ""

/-- Mass fraction by name. -/
def yOf (r : Node) (nm : String) : ℝ :=
  match speciesIndex r.names nm with
  | none => 0
  | some k => r.Y k

theorem index_some (l : List String) (nm : String) (k : ℕ) (h : speciesIndex l nm = some k) :
    l[k]? = some nm := by
  rw [speciesIndex, List.findIdx?_eq_some_iff_getElem] at h
  obtain ⟨hk, h1, _⟩ := h
  rw [List.getElem?_eq_getElem hk]
  simpa using h1

theorem index_none (l : List String) (nm : String) (h : speciesIndex l nm = none) : nm ∉ l := by
  rw [speciesIndex, List.findIdx?_eq_none_iff] at h
  intro hm
  have := h nm hm
  simp at this

/-- With distinct names, the species found under the name of species `k` is `k`. -/
theorem index_self (l : List String) (hl : l.Nodup) (k : ℕ) (nm : String) (h : l[k]? = some nm) :
    speciesIndex l nm = some k := by
  cases he : speciesIndex l nm with
  | none => exact absurd (List.mem_of_getElem? h) (index_none l nm he)
  | some j =>
    have hj := index_some l nm j he
    obtain ⟨hk', e1⟩ := List.getElem?_eq_some_iff.1 h
    obtain ⟨hj', e2⟩ := List.getElem?_eq_some_iff.1 hj
    have := (List.Nodup.getElem_inj_iff hl (hi := hk') (hj := hj')).1 (by rw [e1, e2])
    rw [this]

theorem name_eq (r : Node) (k : ℕ) (h : k < r.nsp) : r.names[k]? = some (r.name k) := by
  simp only [Node.nsp] at h
  simp [Node.name, List.getD, List.getElem?_eq_getElem h]

theorem yOf_self (r : Node) (hl : r.names.Nodup) (k : ℕ) (h : k < r.nsp) :
    yOf r (r.name k) = r.Y k := by
  simp [yOf, index_self _ hl k _ (name_eq r k h)]

theorem specRate_eq (N : Net) (d : Device) (k : ℕ) (h : k < (N.node d.dst).nsp) :
    specRate N d k = d.mdot * yOf (N.node d.src) ((N.node d.dst).name k) := by
  simp only [specRate, name_eq _ _ h, yOf]
  cases speciesIndex (N.node d.src).names ((N.node d.dst).name k) <;> simp

/-- Sum over species numbers as a sum over names. -/
theorem sum_names (r : Node) (hl : r.names.Nodup) (f : String → ℝ) :
    ∑ k ∈ range r.nsp, f (r.name k) = ∑ nm ∈ r.names.toFinset, f nm := by
  refine Finset.sum_bij (fun k _ => r.name k) ?_ ?_ ?_ ?_
  · intro k hk
    exact List.mem_toFinset.2 (List.mem_of_getElem? (name_eq r k (Finset.mem_range.1 hk)))
  · intro a ha b hb e
    have h1 := index_self _ hl a _ (name_eq r a (Finset.mem_range.1 ha))
    have h2 := index_self _ hl b _ (name_eq r b (Finset.mem_range.1 hb))
    have e : r.name a = r.name b := e
    rw [e, h2] at h1
    exact (Option.some.inj h1).symm
  · intro nm hm
    obtain ⟨k, hk, e⟩ := List.getElem_of_mem (List.mem_toFinset.1 hm)
    exact ⟨k, Finset.mem_range.2 hk, by simp [Node.name, List.getD, List.getElem?_eq_getElem hk, e]⟩
  · intro k _; rfl

/-- Every species carried by a device is known downstream. -/
def Carried (N : Net) (d : Device) : Prop :=
  ∀ k < (N.node d.src).nsp, (N.node d.src).Y k ≠ 0 →
    (N.node d.src).name k ∈ (N.node d.dst).names

/-- What a device carries into its downstream node is what is upstream, for every property `g`
per kilogram. -/
theorem carried_sum (N : Net) (d : Device) (g : String → ℝ) (hs : (N.node d.src).names.Nodup)
    (hd : (N.node d.dst).names.Nodup) (hc : Carried N d) :
    ∑ k ∈ range (N.node d.dst).nsp, g ((N.node d.dst).name k) * specRate N d k
      = d.mdot * ∑ k ∈ range (N.node d.src).nsp,
          g ((N.node d.src).name k) * (N.node d.src).Y k := by
  have e1 : ∑ k ∈ range (N.node d.dst).nsp, g ((N.node d.dst).name k) * specRate N d k
      = ∑ nm ∈ (N.node d.dst).names.toFinset, g nm * (d.mdot * yOf (N.node d.src) nm) := by
    rw [← sum_names _ hd (fun nm => g nm * (d.mdot * yOf (N.node d.src) nm))]
    exact Finset.sum_congr rfl fun k hk => by rw [specRate_eq _ _ _ (Finset.mem_range.1 hk)]
  have e2 : ∑ k ∈ range (N.node d.src).nsp, g ((N.node d.src).name k) * (N.node d.src).Y k
      = ∑ nm ∈ (N.node d.src).names.toFinset, g nm * yOf (N.node d.src) nm := by
    rw [← sum_names _ hs (fun nm => g nm * yOf (N.node d.src) nm)]
    exact Finset.sum_congr rfl fun k hk => by rw [yOf_self _ hs _ (Finset.mem_range.1 hk)]
  rw [e1, e2, Finset.mul_sum]
  have z : ∀ nm, nm ∉ (N.node d.src).names → yOf (N.node d.src) nm = 0 := by
    intro nm h
    unfold yOf
    cases he : speciesIndex (N.node d.src).names nm with
    | none => rfl
    | some k => exact absurd (List.mem_of_getElem? (index_some _ _ _ he)) h
  have z2 : ∀ nm, nm ∉ (N.node d.dst).names → yOf (N.node d.src) nm = 0 := by
    intro nm h
    unfold yOf
    cases he : speciesIndex (N.node d.src).names nm with
    | none => rfl
    | some k =>
      by_contra hy
      have hk := index_some _ _ _ he
      obtain ⟨hlt, e⟩ := List.getElem?_eq_some_iff.1 hk
      have hn : (N.node d.src).name k = nm := by
        simp [Node.name, List.getD, hk]
      exact h (hn ▸ hc k hlt hy)
  have u1 : ∑ nm ∈ (N.node d.dst).names.toFinset, g nm * (d.mdot * yOf (N.node d.src) nm)
      = ∑ nm ∈ (N.node d.dst).names.toFinset ∪ (N.node d.src).names.toFinset,
          g nm * (d.mdot * yOf (N.node d.src) nm) := by
    refine Finset.sum_subset Finset.subset_union_left fun nm _ h => ?_
    rw [z2 nm (fun hm => h (List.mem_toFinset.2 hm))]; ring
  have u2 : ∑ nm ∈ (N.node d.src).names.toFinset, d.mdot * (g nm * yOf (N.node d.src) nm)
      = ∑ nm ∈ (N.node d.dst).names.toFinset ∪ (N.node d.src).names.toFinset,
          d.mdot * (g nm * yOf (N.node d.src) nm) := by
    refine Finset.sum_subset Finset.subset_union_right fun nm _ h => ?_
    rw [z nm (fun hm => h (List.mem_toFinset.2 hm))]; ring
  rw [u1, u2]
  exact Finset.sum_congr rfl fun nm _ => by ring

/-! ## Gas phase balances -/

/-- Content per kilogram of the flow through a device: `g` is the content of a species per kmol,
`W` its molecular weight. -/
noncomputable def flowContent (N : Net) (g W : String → ℝ) (d : Device) : ℝ :=
  d.mdot * ∑ k ∈ range (N.node d.src).nsp,
    g ((N.node d.src).name k) / W ((N.node d.src).name k) * (N.node d.src).Y k

/-- Rate of change of the content of the gas of reactor `i`. -/
noncomputable def gasRate (N : Net) (g : String → ℝ) (i : ℕ) : ℝ :=
  ∑ k ∈ range (N.node i).nsp, g ((N.node i).name k) * moleRate N i k

/-- Assumptions on a network whose reactors are the nodes `0..n-1`: molecular weights are
positive and depend on the species name only, names are distinct within a node, masses are not
zero, every flow into a reactor carries species that the reactor knows, and a mole-based reactor
has the same species table as every node downstream of it. The last one is what the code needs
and should not. -/
structure Good (N : Net) (n : ℕ) (W : String → ℝ) : Prop where
  pos : ∀ nm, 0 < W nm
  mw : ∀ i k, k < (N.node i).nsp → (N.node i).mw k = W ((N.node i).name k)
  nodup : ∀ i, (N.node i).names.Nodup
  mass : ∀ i, (N.node i).mass ≠ 0
  carried : ∀ d ∈ N.devices, d.dst < n → Carried N d
  same : ∀ d ∈ N.devices, d.src < n → (N.node d.src).kind.massBased = false →
    (N.node d.src).names = (N.node d.dst).names

theorem outTerm_sum {N : Net} {n : ℕ} {W : String → ℝ} (G : Good N n W) (g : String → ℝ)
    (d : Device) (hd : d ∈ N.devices) (hs : d.src < n) :
    ∑ k ∈ range (N.node d.src).nsp, g ((N.node d.src).name k) * outTerm N d.src k d
      = flowContent N g W d := by
  rw [flowContent, Finset.mul_sum]
  refine Finset.sum_congr rfl fun k hk => ?_
  have hk := Finset.mem_range.1 hk
  rw [← G.mw _ _ hk]
  unfold outTerm
  by_cases h : (N.node d.src).kind.massBased = true
  · rw [if_pos h]; ring
  · have h' : (N.node d.src).kind.massBased = false := by simpa using h
    have e := G.same d hd hs h'
    have hk2 : k < (N.node d.dst).nsp := by simpa [Node.nsp, ← e] using hk
    have hn : (N.node d.dst).name k = (N.node d.src).name k := by simp [Node.name, e]
    rw [if_neg h, specRate_eq _ _ _ hk2, hn, yOf_self _ (G.nodup _) _ hk]
    ring

theorem inTerm_sum {N : Net} {n : ℕ} {W : String → ℝ} (G : Good N n W) (g : String → ℝ)
    (d : Device) (hd : d ∈ N.devices) (hs : d.dst < n) :
    ∑ k ∈ range (N.node d.dst).nsp,
        g ((N.node d.dst).name k) * (specRate N d k / (N.node d.dst).mw k)
      = flowContent N g W d := by
  have := carried_sum N d (fun nm => g nm / W nm) (G.nodup _) (G.nodup _) (G.carried d hd hs)
  rw [flowContent, ← this]
  refine Finset.sum_congr rfl fun k hk => ?_
  rw [G.mw _ _ (Finset.mem_range.1 hk)]
  ring

/-- Balance of one reactor. -/
theorem gasRate_eq {N : Net} {n : ℕ} {W : String → ℝ} (G : Good N n W) (g : String → ℝ)
    (i : ℕ) (hi : i < n) :
    gasRate N g i
      = (∑ k ∈ range (N.node i).nsp, g ((N.node i).name k)
          * (newWdot (N.node i) k * (N.node i).vol + surfaceSource (N.node i) k))
        - dsum (outlets N i) (flowContent N g W) + dsum (inlets N i) (flowContent N g W) := by
  have h1 : ∀ k ∈ range (N.node i).nsp, g ((N.node i).name k) * moleRate N i k
      = g ((N.node i).name k)
          * (newWdot (N.node i) k * (N.node i).vol + surfaceSource (N.node i) k)
        - dsum (outlets N i) (fun d => g ((N.node i).name k) * outTerm N i k d)
        + dsum (inlets N i)
            (fun d => g ((N.node i).name k) * (specRate N d k / (N.node i).mw k)) := by
    intro k hk
    have hk := Finset.mem_range.1 hk
    rw [moleRate_closed N i k hk (fun _ => G.mass i) (by rw [G.mw i k hk]; exact (G.pos _).ne'),
      dsum_mul, dsum_mul]
    ring
  rw [gasRate, Finset.sum_congr rfl h1, Finset.sum_add_distrib, Finset.sum_sub_distrib,
    sum_dsum, sum_dsum]
  congr 1
  · congr 1
    refine dsum_congr _ _ _ fun d hd => ?_
    obtain ⟨hm, h2⟩ := List.mem_filter.1 hd
    have h2 : d.src = i := by simpa using h2
    subst h2
    exact outTerm_sum G g d hm hi
  · refine dsum_congr _ _ _ fun d hd => ?_
    obtain ⟨hm, h2⟩ := List.mem_filter.1 hd
    have h2 : d.dst = i := by simpa using h2
    subst h2
    exact inTerm_sum G g d hm hi

/-- Devices entering (leaving) the reactors `0..n-1`. -/
def entering (N : Net) (n : ℕ) : List Device := N.devices.filter (fun d => decide (d.dst < n))
def leaving (N : Net) (n : ℕ) : List Device := N.devices.filter (fun d => decide (d.src < n))

/-- **Balance of the gas of a whole network**: every quantity that the species carry in fixed
proportion changes only by reactions and by flows from and to reservoirs. -/
theorem network_gas_partial {N : Net} {n : ℕ} {W : String → ℝ} (G : Good N n W) (g : String → ℝ) :
    ∑ i ∈ range n, gasRate N g i
      = (∑ i ∈ range n, ∑ k ∈ range (N.node i).nsp, g ((N.node i).name k)
          * (newWdot (N.node i) k * (N.node i).vol + surfaceSource (N.node i) k))
        - dsum (leaving N n) (flowContent N g W) + dsum (entering N n) (flowContent N g W) := by
  rw [Finset.sum_congr rfl fun i hi => gasRate_eq G g i (Finset.mem_range.1 hi),
    Finset.sum_add_distrib, Finset.sum_sub_distrib]
  have a := sum_filter (fun d : Device => d.src) n N.devices (flowContent N g W)
  have b := sum_filter (fun d : Device => d.dst) n N.devices (flowContent N g W)
  unfold outlets inlets
  rw [a, b]
  rfl

/-! ## Surfaces -/

/-- Rate of change of the moles of surface species `k` of a surface whose entries begin at `loc`:
a coverage `θ` of species `k` is `θ Γ A / size_k` moles. -/
noncomputable def surfMoleRate (kd : Kind) (rhs : ℕ → ℝ) (loc : ℕ) (s : Surf) (k : ℕ) : ℝ :=
  if kd.massBased then rhs (loc + k) * s.area * s.site / s.size k else rhs (loc + k)

/-- Rate of change of the content of all surfaces, stored one after the other. -/
noncomputable def surfRate (kd : Kind) (rhs : ℕ → ℝ) (sg : Surf → ℕ → ℝ) :
    ℕ → List Surf → ℝ
  | _, [] => 0
  | loc, s :: l => (∑ k ∈ range s.nk, sg s k * surfMoleRate kd rhs loc s k)
      + surfRate kd rhs sg (loc + s.nk) l

/-- A surface mechanism that conserves sites and the content `g` (`sg` for surface species). For
mole-based reactors the theorems also need every surface species to occupy one site. -/
structure Balanced (r : Node) (g : String → ℝ) (sg : Surf → ℕ → ℝ) : Prop where
  site : ∀ s ∈ r.surfs, s.site ≠ 0
  size : ∀ s ∈ r.surfs, ∀ k, s.size k ≠ 0
  sites : ∀ s ∈ r.surfs, ∑ k ∈ range s.nk, s.size k * s.work k = 0
  content : ∀ s ∈ r.surfs, (∑ k ∈ range s.nk, sg s k * s.work k)
    + ∑ k ∈ range r.nsp, g (r.name k) * s.work (s.bulk + k) = 0
  one : r.kind.massBased = false → ∀ s ∈ r.surfs, ∀ k, s.size k = 1
  gas : ∑ k ∈ range r.nsp, g (r.name k) * newWdot r k = 0

theorem surfMoleRate_eq (N : Net) (i : ℕ) (g : String → ℝ) (sg : Surf → ℕ → ℝ)
    (B : Balanced (N.node i) g sg) (l l' : List Surf) (s : Surf)
    (h : (N.node i).surfs = l ++ s :: l') (k : ℕ) (hk : k < s.nk) :
    surfMoleRate (N.node i).kind (eval N i).surf (offset l) s k = s.work k * s.area := by
  have hs : s ∈ (N.node i).surfs := by rw [h]; simp
  have h1 := B.site s hs
  have h2 := B.size s hs k
  unfold surfMoleRate
  by_cases hm : (N.node i).kind.massBased = true
  · rw [if_pos hm, (mass_closed N i hm).2.2.2, coverage_rate _ l l' s h k hk]
    by_cases h0 : k = 0
    · subst h0
      rw [if_pos rfl]
      have := B.sites s hs
      obtain ⟨m, hm'⟩ : ∃ m, s.nk = m + 1 := ⟨s.nk - 1, by omega⟩
      have e : ∑ j ∈ range s.nk, (if j = 0 then 0 else s.work j * (1 / s.site) * s.size j)
          = 1 / s.site * (-(s.size 0 * s.work 0)) := by
        rw [hm', Finset.sum_range_succ'] at this ⊢
        simp only [Nat.add_eq_zero_iff, one_ne_zero, and_false, if_false, if_true, add_zero]
        have : -(s.size 0 * s.work 0) = ∑ j ∈ range m, s.size (j + 1) * s.work (j + 1) := by
          linarith
        rw [this, Finset.mul_sum]
        exact Finset.sum_congr rfl fun j _ => by ring
      rw [e]
      field_simp
    · rw [if_neg h0]
      field_simp
  · have hm' : (N.node i).kind.massBased = false := by simpa using hm
    rw [if_neg hm, (mole_closed N i hm').2.2, surface_mole_rate _ l l' s h k hk,
      B.one hm' s hs k, div_one]

theorem surfRate_eq (N : Net) (i : ℕ) (g : String → ℝ) (sg : Surf → ℕ → ℝ)
    (B : Balanced (N.node i) g sg) :
    surfRate (N.node i).kind (eval N i).surf sg 0 (N.node i).surfs
      = dsum (N.node i).surfs (fun s => ∑ k ∈ range s.nk, sg s k * (s.work k * s.area)) := by
  have key : ∀ (l' l : List Surf), (N.node i).surfs = l ++ l' →
      surfRate (N.node i).kind (eval N i).surf sg (offset l) l'
        = dsum l' (fun s => ∑ k ∈ range s.nk, sg s k * (s.work k * s.area)) := by
    intro l'
    induction l' with
    | nil => intro l _; rfl
    | cons s l' ih =>
      intro l h
      rw [surfRate, dsum_cons]
      have h' : (N.node i).surfs = (l ++ [s]) ++ l' := by rw [h]; simp
      have e := ih (l ++ [s]) h'
      have ho : offset (l ++ [s]) = offset l + s.nk := by simp [offset]
      rw [ho] at e
      rw [e]
      congr 1
      refine Finset.sum_congr rfl fun k hk => ?_
      rw [surfMoleRate_eq N i g sg B l l' s h k (Finset.mem_range.1 hk)]
  simpa [offset] using key (N.node i).surfs [] rfl

/-- Rate of change of the content of gas and surfaces of reactor `i`. -/
noncomputable def totalRate (N : Net) (g : String → ℝ) (sg : Surf → ℕ → ℝ) (i : ℕ) : ℝ :=
  gasRate N g i + surfRate (N.node i).kind (eval N i).surf sg 0 (N.node i).surfs

/-- **Elements are conserved**: for balanced mechanisms, the content of gas and surfaces of the
whole network changes only by flows from and to reservoirs. `g` is the number of atoms of an
element in a gas species (or its weight), `sg` in a surface species. -/
theorem network_elements_partial {N : Net} {n : ℕ} {W : String → ℝ} (G : Good N n W)
    (g : String → ℝ) (sg : Surf → ℕ → ℝ) (B : ∀ i < n, Balanced (N.node i) g sg) :
    ∑ i ∈ range n, totalRate N g sg i
      = dsum (entering N n) (flowContent N g W) - dsum (leaving N n) (flowContent N g W) := by
  have h := network_gas_partial G g
  have z : ∀ i ∈ range n, (∑ k ∈ range (N.node i).nsp, g ((N.node i).name k)
        * (newWdot (N.node i) k * (N.node i).vol + surfaceSource (N.node i) k))
      + surfRate (N.node i).kind (eval N i).surf sg 0 (N.node i).surfs = 0 := by
    intro i hi
    have Bi := B i (Finset.mem_range.1 hi)
    rw [surfRate_eq N i g sg Bi]
    have e1 : ∑ k ∈ range (N.node i).nsp, g ((N.node i).name k)
        * (newWdot (N.node i) k * (N.node i).vol + surfaceSource (N.node i) k)
        = (∑ k ∈ range (N.node i).nsp, g ((N.node i).name k) * newWdot (N.node i) k)
            * (N.node i).vol
          + dsum (N.node i).surfs (fun s => ∑ k ∈ range (N.node i).nsp,
              g ((N.node i).name k) * (s.work (s.bulk + k) * s.area)) := by
      rw [← sum_dsum, Finset.sum_mul, ← Finset.sum_add_distrib]
      refine Finset.sum_congr rfl fun k _ => ?_
      rw [dsum_mul, surfaceSource]; ring
    rw [e1, Bi.gas, zero_mul, zero_add, ← dsum_add]
    refine dsum_zero _ _ fun s hs => ?_
    have := Bi.content s hs
    rw [Finset.sum_congr rfl fun k _ =>
        (mul_assoc (g ((N.node i).name k)) (s.work (s.bulk + k)) s.area).symm,
      Finset.sum_congr rfl fun k _ => (mul_assoc (sg s k) (s.work k) s.area).symm,
      ← Finset.sum_mul, ← Finset.sum_mul, ← add_mul, add_comm, this, zero_mul]
  have z' := Finset.sum_eq_zero z
  rw [Finset.sum_add_distrib] at z'
  simp only [totalRate]
  rw [Finset.sum_add_distrib, h]
  linarith

/-- In a network without reservoirs the content is constant. -/
theorem closed_network_partial {N : Net} {n : ℕ} {W : String → ℝ} (G : Good N n W)
    (g : String → ℝ) (sg : Surf → ℕ → ℝ) (B : ∀ i < n, Balanced (N.node i) g sg)
    (hc : ∀ d ∈ N.devices, d.src < n ∧ d.dst < n) :
    ∑ i ∈ range n, totalRate N g sg i = 0 := by
  rw [network_elements_partial G g sg B]
  have e1 : entering N n = N.devices :=
    List.filter_eq_self.2 fun d hd => by simp [(hc d hd).2]
  have e2 : leaving N n = N.devices :=
    List.filter_eq_self.2 fun d hd => by simp [(hc d hd).1]
  rw [e1, e2, sub_self]

/-! ## Mass -/

/-- The mass of a reactor: its mass equation if it has one, otherwise the mass of its moles. -/
noncomputable def massRate (N : Net) (i : ℕ) : ℝ :=
  if (N.node i).kind.massBased then (eval N i).dm
  else ∑ k ∈ range (N.node i).nsp, (N.node i).mw k * moleRate N i k

/-- Mass fractions of a node add up to one. -/
def Normal (r : Node) : Prop := ∑ k ∈ range r.nsp, r.Y k = 1

/-- **Mass fractions keep their sum**: in a mass-based reactor with balanced gas chemistry whose
inlets carry known species only, the rates of change of the mass fractions add up to zero. -/
theorem fractions_sum_partial (N : Net) (i : ℕ) (h : (N.node i).kind.massBased = true)
    (hn : ∀ j, (N.node j).names.Nodup) (hY : ∀ j, Normal (N.node j))
    (hw : ∑ k ∈ range (N.node i).nsp, newWdot (N.node i) k * (N.node i).mw k = 0)
    (hc : ∀ d ∈ N.devices, d.dst = i → Carried N d) :
    ∑ k ∈ range (N.node i).nsp, (eval N i).dY k / (eval N i).lY = 0 := by
  rw [← Finset.sum_div]
  have e := (mass_closed N i h).2.1
  rw [Finset.sum_congr rfl fun k _ => e k, Finset.sum_add_distrib, Finset.sum_sub_distrib,
    ← Finset.sum_mul, hY i, sum_dsum]
  have e1 : ∑ k ∈ range (N.node i).nsp,
      (newWdot (N.node i) k * (N.node i).vol + (massSurfaces (N.node i)).sdot k) * (N.node i).mw k
      = (∑ k ∈ range (N.node i).nsp, newWdot (N.node i) k * (N.node i).mw k) * (N.node i).vol
        + ∑ k ∈ range (N.node i).nsp, (massSurfaces (N.node i)).sdot k * (N.node i).mw k := by
    rw [Finset.sum_mul, ← Finset.sum_add_distrib]
    exact Finset.sum_congr rfl fun k _ => by ring
  rw [e1, hw]
  have e2 : dsum (inlets N i) (fun d => ∑ k ∈ range (N.node i).nsp,
      (specRate N d k - d.mdot * (N.node i).Y k)) = 0 := by
    refine dsum_zero _ _ fun d hd => ?_
    obtain ⟨h1, h2⟩ := List.mem_filter.1 hd
    have h2 : d.dst = i := by simpa using h2
    subst h2
    have := carried_sum N d (fun _ => 1) (hn _) (hn _) (hc d h1 rfl)
    simp only [one_mul] at this
    rw [Finset.sum_sub_distrib, ← Finset.mul_sum, this, hY, hY d.dst]
    ring
  rw [e2]
  ring

/-- **Total mass**: the mass of the gas of a network changes only by surface reactions and by flows
from and to reservoirs. -/
theorem network_mass_partial {N : Net} {n : ℕ} {W : String → ℝ} (G : Good N n W)
    (hY : ∀ j, Normal (N.node j))
    (hw : ∀ i < n, ∑ k ∈ range (N.node i).nsp, newWdot (N.node i) k * (N.node i).mw k = 0) :
    ∑ i ∈ range n, massRate N i
      = (∑ i ∈ range n, ∑ k ∈ range (N.node i).nsp,
          surfaceSource (N.node i) k * (N.node i).mw k)
        - dsum (leaving N n) (fun d => d.mdot) + dsum (entering N n) (fun d => d.mdot) := by
  have one : ∀ d : Device, flowContent N W W d = d.mdot := by
    intro d
    rw [flowContent, Finset.sum_congr rfl fun k _ => by rw [div_self (G.pos _).ne', one_mul], hY,
      mul_one]
  have each : ∀ i ∈ range n, massRate N i
      = (∑ k ∈ range (N.node i).nsp, surfaceSource (N.node i) k * (N.node i).mw k)
        - dsum (outlets N i) (fun d => d.mdot) + dsum (inlets N i) (fun d => d.mdot) := by
    intro i hi
    unfold massRate
    by_cases h : (N.node i).kind.massBased = true
    · rw [if_pos h, (mass_closed N i h).1]
      congr 2
      exact Finset.sum_congr rfl fun k hk => by
        rw [massSurfaces_sdot _ _ (Finset.mem_range.1 hk)]
    · rw [if_neg h]
      have e := gasRate_eq G W i (Finset.mem_range.1 hi)
      unfold gasRate at e
      rw [Finset.sum_congr rfl fun k hk => by rw [G.mw i k (Finset.mem_range.1 hk)], e,
        dsum_congr _ _ _ fun d _ => one d, dsum_congr _ _ _ fun d _ => one d]
      congr 2
      have : ∑ k ∈ range (N.node i).nsp, W ((N.node i).name k)
          * (newWdot (N.node i) k * (N.node i).vol + surfaceSource (N.node i) k)
          = (∑ k ∈ range (N.node i).nsp, newWdot (N.node i) k * (N.node i).mw k)
              * (N.node i).vol
            + ∑ k ∈ range (N.node i).nsp, surfaceSource (N.node i) k * (N.node i).mw k := by
        rw [Finset.sum_mul, ← Finset.sum_add_distrib]
        refine Finset.sum_congr rfl fun k hk => ?_
        rw [G.mw i k (Finset.mem_range.1 hk)]; ring
      rw [this, hw i (Finset.mem_range.1 hi), zero_mul, zero_add]
  rw [Finset.sum_congr rfl each, Finset.sum_add_distrib, Finset.sum_sub_distrib]
  unfold outlets inlets
  rw [sum_filter (fun d : Device => d.src) n, sum_filter (fun d : Device => d.dst) n]
  rfl

/-! ## Sites and volume -/

/-- **Coverages keep their sum** on every surface of a mass-based reactor, whatever the rates. -/
theorem coverages_sum (N : Net) (i : ℕ) (h : (N.node i).kind.massBased = true)
    (l l' : List Surf) (s : Surf) (hs : (N.node i).surfs = l ++ s :: l') (hk : 0 < s.nk) :
    ∑ k ∈ range s.nk, (eval N i).surf (offset l + k) = 0 := by
  rw [(mass_closed N i h).2.2.2,
    Finset.sum_congr rfl fun k hk => coverage_rate _ l l' s hs k (Finset.mem_range.1 hk)]
  obtain ⟨m, hm⟩ : ∃ m, s.nk = m + 1 := ⟨s.nk - 1, by omega⟩
  rw [hm, Finset.sum_range_succ' _ m]
  simp only [Nat.add_eq_zero_iff, one_ne_zero, and_false, if_false, if_true]
  rw [Finset.sum_range_succ' _ m]
  simp

/-- Signed contributions of the walls of a node: `+` on the left side, `-` on the right side. -/
theorem evalWalls_eq (N : Net) (i : ℕ) :
    evalWalls N i
      = (dsum (N.walls.filter (fun w => w.left == i)) (expansionRate N)
          - dsum (N.walls.filter (fun w => w.right == i)) (expansionRate N),
         dsum (N.walls.filter (fun w => w.right == i)) (heatRate N)
          - dsum (N.walls.filter (fun w => w.left == i)) (heatRate N)) := by
  have e1 := fold_add (fun a : ℝ × ℝ => a.1)
    (fun s : Wall × ℕ => -(2 * (s.2 : ℝ) - 1) * expansionRate N s.1)
    (fun a s => (a.1 - (2 * (s.2 : ℝ) - 1) * expansionRate N s.1,
      a.2 + (2 * (s.2 : ℝ) - 1) * heatRate N s.1))
    (by intro a d; simp only []; ring) (sides N i) (0, 0)
  have e2 := fold_add (fun a : ℝ × ℝ => a.2)
    (fun s : Wall × ℕ => (2 * (s.2 : ℝ) - 1) * heatRate N s.1)
    (fun a s => (a.1 - (2 * (s.2 : ℝ) - 1) * expansionRate N s.1,
      a.2 + (2 * (s.2 : ℝ) - 1) * heatRate N s.1))
    (by intro a d; rfl) (sides N i) (0, 0)
  have s1 : ∀ l : List Wall, dsum (l.flatMap fun w =>
        (if w.left = i then [(w, 0)] else []) ++ (if w.right = i then [(w, 1)] else []))
        (fun s : Wall × ℕ => -(2 * (s.2 : ℝ) - 1) * expansionRate N s.1)
      = dsum (l.filter (fun w => w.left == i)) (expansionRate N)
        - dsum (l.filter (fun w => w.right == i)) (expansionRate N) := by
    intro l
    induction l with
    | nil => simp [dsum]
    | cons w l ih =>
      rw [List.flatMap_cons, dsum_append, ih]
      by_cases a : w.left = i <;> by_cases b : w.right = i <;>
        simp only [a, b, List.filter_cons, beq_self_eq_true, if_true, if_false,
          dsum_cons, dsum_nil, List.nil_append, List.append_nil, beq_iff_eq, List.cons_append] <;>
        push_cast <;> ring
  have s2 : ∀ l : List Wall, dsum (l.flatMap fun w =>
        (if w.left = i then [(w, 0)] else []) ++ (if w.right = i then [(w, 1)] else []))
        (fun s : Wall × ℕ => (2 * (s.2 : ℝ) - 1) * heatRate N s.1)
      = dsum (l.filter (fun w => w.right == i)) (heatRate N)
        - dsum (l.filter (fun w => w.left == i)) (heatRate N) := by
    intro l
    induction l with
    | nil => simp [dsum]
    | cons w l ih =>
      rw [List.flatMap_cons, dsum_append, ih]
      by_cases a : w.left = i <;> by_cases b : w.right = i <;>
        simp only [a, b, List.filter_cons, beq_self_eq_true, if_true, if_false,
          dsum_cons, dsum_nil, List.nil_append, List.append_nil, beq_iff_eq, List.cons_append] <;>
        push_cast <;> ring
  rw [evalWalls]
  refine Prod.ext ?_ ?_
  · rw [e1]
    simp only [sides, zero_add]
    exact s1 N.walls
  · rw [e2]
    simp only [sides, zero_add]
    exact s2 N.walls

theorem constV_dV (N : Net) (i : ℕ) (h : (N.node i).kind.constV = true) :
    (eval N i).dV = (evalWalls N i).1 := by
  cases hk : (N.node i).kind <;> rw [hk] at h <;> simp [Kind.constV] at h <;>
    simp only [eval, hk, evalReactor, evalIdeal, evalMole, evalIdealMole]
  all_goals
    rw [fold_keep (fun a : Rates => a.dV) _ (by intro a d; rfl),
      fold_keep (fun a : Rates => a.dV) _ (by intro a d; rfl)]

/-- **Walls conserve the total volume** of reactors with a volume equation. -/
theorem network_volume (N : Net) (n : ℕ) (h : ∀ i < n, (N.node i).kind.constV = true)
    (hc : ∀ w ∈ N.walls, w.left < n ∧ w.right < n) :
    ∑ i ∈ range n, (eval N i).dV = 0 := by
  rw [Finset.sum_congr rfl fun i hi => by
      rw [constV_dV N i (h i (Finset.mem_range.1 hi)), evalWalls_eq N i],
    Finset.sum_sub_distrib, sum_filter (fun w : Wall => w.left) n,
    sum_filter (fun w : Wall => w.right) n,
    List.filter_eq_self.2 fun w hw => by simp [(hc w hw).1],
    List.filter_eq_self.2 fun w hw => by simp [(hc w hw).2], sub_self]

end Verif.ZeroD
