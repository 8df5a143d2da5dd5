import Verif.ZeroD.Conserve

/-!
# Examples and violations for C48
-/

namespace Verif.ZeroD

open Finset

/-! ## A concrete network that satisfies the assumptions -/

/-- Adsorption of `A` on a vacant site. -/
def exSurf : Surf :=
  { nk := 2, site := 1, area := 1, size := fun _ => 1, bulk := 2
    work := fun k => if k = 0 then -1 else if k = 1 then 1 else if k = 2 then -1 else 0 }

/-- A node with species `A` and `B`, reacting `A → B`. -/
def exNode (kd : Kind) (names : List String) (surfs : List Surf) : Node :=
  { kind := kd, names := names, mw := fun _ => 2, Y := fun k => if k = 0 then 1 else 0
    h := 3, p := 1, T := 300, vol := 1, mass := 1, energy := true, chem := true
    wdot := fun _ => 0, rates := fun k => if k = 0 then -1 else if k = 1 then 1 else 0
    uk := fun _ => 4, hk := fun _ => 6, cv := 1, cp := 2, surfs := surfs }

/-- A mass-based and a mole-based reactor exchanging gas, with a reservoir. -/
def exNet : Net :=
  { node := fun i => if i = 0 then exNode .ideal ["A", "B"] [exSurf]
      else if i = 1 then exNode .mole ["A", "B"] [exSurf] else exNode .reactor ["B", "A"] []
    devices := [⟨0, 1, 1⟩, ⟨1, 0, 3⟩, ⟨2, 0, 1⟩]
    walls := [⟨0, 1, 1, 1, none, 1, 0, none⟩, ⟨1, 0, 1, 2, some 3, 1, 1, some 2⟩] }

theorem exGood : Good exNet 2 (fun _ => 2) where
  pos := by intro _; norm_num
  mw := by intro i k _; simp only [exNet, exNode]; split_ifs <;> rfl
  nodup := by intro i; simp only [exNet, exNode]; split_ifs <;> decide
  mass := by intro i; simp only [exNet, exNode]; split_ifs <;> norm_num
  carried := by
    intro d hd _ k hk _
    simp only [exNet, List.mem_cons, List.not_mem_nil, or_false] at hd
    have : k = 0 ∨ k = 1 := by
      rcases hd with rfl | rfl | rfl <;> simp [exNet, exNode, Node.nsp] at hk <;> omega
    rcases hd with rfl | rfl | rfl <;> rcases this with rfl | rfl <;>
      simp [exNet, exNode, Node.name]
  same := by
    intro d hd _ hm
    simp only [exNet, List.mem_cons, List.not_mem_nil, or_false] at hd
    rcases hd with rfl | rfl | rfl
    · simp [exNet, exNode, Kind.massBased] at hm
    · simp [exNet, exNode]
    · simp [exNet, exNode, Kind.massBased] at hm

/-- The element contained in `A`, in `B` and in the adsorbed species. -/
theorem exBalanced : ∀ i < 2, Balanced (exNet.node i) (fun _ => 1)
    (fun _ k => if k = 1 then 1 else 0) := by
  intro i hi
  have : i = 0 ∨ i = 1 := by omega
  rcases this with rfl | rfl
  all_goals
    constructor
    · simp [exNet, exNode, exSurf]
    · simp [exNet, exNode, exSurf]
    · simp [exNet, exNode, exSurf, Finset.sum_range_succ]
    · simp [exNet, exNode, exSurf, Finset.sum_range_succ, Node.nsp]
    · simp [exNet, exNode, exSurf, Kind.massBased]
    · simp [exNet, exNode, exSurf, Finset.sum_range_succ, Node.nsp, newWdot]

theorem exNormal (j : ℕ) : Normal (exNet.node j) := by
  simp only [Normal, exNet, exNode]
  split_ifs <;> simp [Node.nsp]

/-- The atoms of the network increase by those that enter from the reservoir. -/
example : ∑ i ∈ range 2, totalRate exNet (fun _ => 1) (fun _ k => if k = 1 then 1 else 0) i
    = 1 / 2 := by
  rw [network_elements_partial exGood _ _ exBalanced]
  have e1 : entering exNet 2 = exNet.devices := rfl
  have e2 : leaving exNet 2 = [⟨0, 1, 1⟩, ⟨1, 0, 3⟩] := rfl
  have e3 : exNet.devices = [⟨0, 1, 1⟩, ⟨1, 0, 3⟩, ⟨2, 0, 1⟩] := rfl
  rw [e1, e2, e3]
  simp only [dsum_cons, dsum_nil, flowContent]
  norm_num [exNet, exNode, Node.nsp, Finset.sum_range_succ]

/-- The mass of gas, fed by the reservoir and consumed by adsorption. -/
example : ∑ i ∈ range 2, massRate exNet i = -3 := by
  rw [network_mass_partial exGood exNormal (by
    intro i hi
    have : i = 0 ∨ i = 1 := by omega
    rcases this with rfl | rfl <;>
      simp [exNet, exNode, newWdot, Finset.sum_range_succ, Node.nsp])]
  have e1 : entering exNet 2 = exNet.devices := rfl
  have e2 : leaving exNet 2 = [⟨0, 1, 1⟩, ⟨1, 0, 3⟩] := rfl
  have e3 : exNet.devices = [⟨0, 1, 1⟩, ⟨1, 0, 3⟩, ⟨2, 0, 1⟩] := rfl
  rw [e1, e2, e3]
  simp only [dsum_cons, dsum_nil, surfaceSource]
  norm_num [exNet, exNode, exSurf, Node.nsp, Finset.sum_range_succ, dsum]

example : ∑ k ∈ range 2, (eval exNet 0).dY k / (eval exNet 0).lY = 0 :=
  fractions_sum_partial exNet 0 rfl exGood.nodup exNormal
    (by simp [exNet, exNode, newWdot, Finset.sum_range_succ, Node.nsp])
    (by intro d hd h; exact exGood.carried d hd (by omega))

example : ∑ i ∈ range 2, (eval exNet i).dV = 0 :=
  network_volume exNet 2
    (by
      intro i hi
      have : i = 0 ∨ i = 1 := by omega
      rcases this with rfl | rfl <;> rfl)
    (by simp [exNet])

/-- The walls do move. -/
example : (eval exNet 0).dV = -6 := by
  rw [constV_dV exNet 0 rfl, evalWalls_eq]
  have e1 : exNet.walls.filter (fun w => w.left == 0)
      = [⟨0, 1, 1, 1, none, 1, 0, none⟩] := rfl
  have e2 : exNet.walls.filter (fun w => w.right == 0)
      = [⟨1, 0, 1, 2, some 3, 1, 1, some 2⟩] := rfl
  rw [e1, e2]
  simp only [dsum_cons, dsum_nil, expansionRate]
  norm_num [exNet, exNode]

example : ∑ k ∈ range 2, (eval exNet 0).surf (offset [] + k) = 0 :=
  coverages_sum exNet 0 rfl [] [] exSurf rfl (by decide)

/-! ## Solutions -/

/-- Along every solution of a network without reservoirs, the content is constant. `C` is the
content as a function of time, whose derivative is the sum of the rates of the reactors
(`moleRate_deriv_mass`, `moleRate_deriv_mole`). -/
theorem solution_const_partial {n : ℕ} {W : String → ℝ} (N : ℝ → Net) (G : ∀ t, Good (N t) n W)
    (g : String → ℝ) (sg : Surf → ℕ → ℝ) (B : ∀ t, ∀ i < n, Balanced ((N t).node i) g sg)
    (hc : ∀ t, ∀ d ∈ (N t).devices, d.src < n ∧ d.dst < n)
    (C : ℝ → ℝ) (hC : ∀ t, HasDerivAt C (∑ i ∈ range n, totalRate (N t) g sg i) t) (t t' : ℝ) :
    C t = C t' := by
  refine is_const_of_deriv_eq_zero (fun s => (hC s).differentiableAt) (fun s => ?_) t t'
  rw [(hC s).deriv, closed_network_partial (G s) g sg (B s) (hc s)]

/-- One reactor with a flow back into itself. -/
def exClosed : Net :=
  { node := fun _ => exNode .reactor ["A", "B"] [exSurf], devices := [⟨0, 0, 1⟩], walls := [] }

theorem exClosedGood : Good exClosed 1 (fun _ => 2) where
  pos := by intro _; norm_num
  mw := by intro i k _; rfl
  nodup := by intro i; simp [exClosed, exNode]
  mass := by intro i; simp [exClosed, exNode]
  carried := by
    intro d _ _ k hk _
    have : k = 0 ∨ k = 1 := by simp [exClosed, exNode, Node.nsp] at hk; omega
    rcases this with rfl | rfl <;> simp [exClosed, exNode, Node.name]
  same := by intro d _ _ _; rfl

example (C : ℝ → ℝ) (hC : ∀ t, HasDerivAt C (∑ i ∈ range 1, totalRate exClosed (fun _ => 1)
    (fun _ k => if k = 1 then 1 else 0) i) t) (t : ℝ) : C t = C 0 :=
  solution_const_partial (fun _ => exClosed) (fun _ => exClosedGood) _ _
    (fun _ i hi => by
      have : i = 0 := by omega
      subst this
      exact exBalanced 0 (by omega) |> fun b => ⟨b.site, b.size, b.sites, b.content,
        (by simp [exClosed, exNode, Kind.massBased]), b.gas⟩)
    (by simp [exClosed]) C hC t 0

/-! ## Violations -/

/-- A mole-based reactor feeding a node with another species table. -/
def badNet (kd : Kind) (dn : List String) : Net :=
  { node := fun i => if i = 0 then { exNode kd ["A", "B"] [] with chem := false }
      else exNode .reactor dn []
    devices := [⟨0, 1, 1⟩]
    walls := [] }

/-- **Violation**: a mole-based reactor looks up the flow of its own species `n` under the number
`n` of the downstream node (MoleReactor.cpp:261, ConstPressureMoleReactor.cpp:89,
IdealGasMoleReactor.cpp:130, IdealGasConstPressureMoleReactor.cpp:99). If the node downstream
has another table, no mole leaves the reactor although mass flows out ... -/
theorem mole_outlet_keeps (kd : Kind) (h : kd.massBased = false) (k : ℕ) (hk : k < 2) :
    moleRate (badNet kd ["C"]) 0 k = 0 ∧
      dsum (outlets (badNet kd ["C"]) 0) (fun d => d.mdot) = 1 := by
  refine ⟨?_, by simp [badNet, outlets, dsum]⟩
  rw [moleRate_closed _ _ _ (by simpa [badNet, exNode, Node.nsp] using hk)
    (by simp [badNet, exNode]) (by simp [badNet, exNode])]
  have : k = 0 ∨ k = 1 := by omega
  rcases this with rfl | rfl <;>
  simp [badNet, exNode, newWdot, surfaceSource, dsum, outlets, inlets, outTerm, h, specRate,
    speciesIndex, List.findIdx?, List.findIdx?.go]

/-- ... or the wrong species leaves: here the reactor holds `A` only, and `B` is removed. -/
theorem mole_outlet_wrong (kd : Kind) (h : kd.massBased = false) :
    moleRate (badNet kd ["B", "A"]) 0 0 = 0 ∧ moleRate (badNet kd ["B", "A"]) 0 1 = -1 / 2 ∧
      ((badNet kd ["B", "A"]).node 0).Y 1 = 0 := by
  refine ⟨?_, ?_, by simp [badNet, exNode]⟩
  all_goals
    rw [moleRate_closed _ _ _ (by simp [badNet, exNode, Node.nsp])
      (by simp [badNet, exNode]) (by simp [badNet, exNode])]
    simp [badNet, exNode, newWdot, surfaceSource, dsum, outlets, inlets, outTerm, h, specRate,
      speciesIndex, List.findIdx?, List.findIdx?.go]
  norm_num

/-- A mass-based reactor removes its own composition in the same networks. -/
theorem mass_outlet_right (kd : Kind) (h : kd.massBased = true) :
    moleRate (badNet kd ["B", "A"]) 0 0 = -1 / 2 ∧ moleRate (badNet kd ["B", "A"]) 0 1 = 0 := by
  refine ⟨?_, ?_⟩
  all_goals
    rw [moleRate_closed _ _ _ (by simp [badNet, exNode, Node.nsp])
      (by simp [badNet, exNode]) (by simp [badNet, exNode])]
    simp [badNet, exNode, newWdot, surfaceSource, dsum, outlets, inlets, outTerm, h]
  norm_num

/-- A mass-based reactor fed with a species it does not know. -/
def unknownNet : Net :=
  { node := fun i => if i = 0 then { exNode .reactor ["A"] [] with chem := false }
      else exNode .reactor ["C"] []
    devices := [⟨1, 0, 1⟩]
    walls := [] }

/-- **Violation**: a species unknown downstream adds to the mass of the downstream reactor but to
no species, so the mass fractions no longer add up to one. -/
theorem unknown_species_lost :
    (eval unknownNet 0).dm = 1 ∧ (eval unknownNet 0).dY 0 / (eval unknownNet 0).lY = -1 := by
  obtain ⟨e1, e2, e3, -⟩ := mass_closed unknownNet 0 rfl
  rw [e1, e2, e3]
  constructor <;>
  simp [unknownNet, exNode, newWdot, massSurfaces, dsum, outlets, inlets, specRate, speciesIndex,
    List.findIdx?, List.findIdx?.go]

/-- Adsorption of `A` as a species occupying two sites. -/
def biSurf : Surf :=
  { nk := 2, site := 1, area := 1, size := fun k => if k = 0 then 1 else 2, bulk := 2
    work := fun k => if k = 0 then -2 else if k = 1 then 1 else if k = 2 then -1 else 0 }

def biNet (kd : Kind) : Net :=
  { node := fun _ => { exNode kd ["A", "B"] [biSurf] with chem := false }
    devices := []
    walls := [] }

/-- **Violation**: in mole-based reactors the moles of a surface species that occupies several
sites grow by the production rate divided by the number of sites (MoleReactor.cpp:73), although
the state is in moles (MoleReactor.cpp:32): one atom leaves the gas, half an atom arrives on the
surface. -/
theorem bidentate_lost (kd : Kind) (h : kd.massBased = false) :
    totalRate (biNet kd) (fun nm => if nm = "A" then 1 else 0) (fun _ k => if k = 1 then 1 else 0) 0
      = -1 / 2 := by
  have hs := surface_mole_rate ((biNet kd).node 0) [] [] biSurf rfl 1 (by decide)
  have e := (mole_closed (biNet kd) 0 (by simp [biNet, exNode, h])).2.2
  have hg : gasRate (biNet kd) (fun nm => if nm = "A" then 1 else 0) 0 = -1 := by
    unfold gasRate
    have hr : ∀ k ∈ range ((biNet kd).node 0).nsp,
        (fun nm : String => if nm = "A" then (1:ℝ) else 0) (((biNet kd).node 0).name k)
          * moleRate (biNet kd) 0 k = if k = 0 then -1 else 0 := by
      intro k hk
      have hk := Finset.mem_range.1 hk
      rw [moleRate_closed _ _ _ hk (by simp [biNet, exNode]) (by simp [biNet, exNode])]
      have : k = 0 ∨ k = 1 := by simp [biNet, exNode, Node.nsp] at hk; omega
      rcases this with rfl | rfl <;>
      simp [biNet, exNode, newWdot, surfaceSource, dsum, outlets, inlets, Node.name, biSurf]
    rw [Finset.sum_congr rfl hr]
    simp [biNet, exNode, Node.nsp]
  unfold totalRate
  rw [hg]
  have hk : ((biNet kd).node 0).kind.massBased = false := by simp [biNet, exNode, h]
  have hsf : ((biNet kd).node 0).surfs = [biSurf] := rfl
  simp only [offset, List.map_nil, List.sum_nil, zero_add] at hs
  rw [hsf]
  have : surfRate ((biNet kd).node 0).kind (eval (biNet kd) 0).surf
      (fun _ k => if k = 1 then 1 else 0) 0 [biSurf] = 1 / 2 := by
    have hnk : biSurf.nk = 2 := rfl
    simp only [surfRate, hnk, Finset.sum_range_succ, Finset.range_zero, Finset.sum_empty,
      surfMoleRate, hk, e, hs]
    simp [biSurf]
  rw [this]
  norm_num

/-- The mechanism of the counterexample conserves the element and the sites. -/
example : (∑ k ∈ range 2, (if k = 1 then (1:ℝ) else 0) * biSurf.work k) + biSurf.work 2 = 0 ∧
    ∑ k ∈ range 2, biSurf.size k * biSurf.work k = 0 := by
  simp [biSurf, Finset.sum_range_succ]

/-- The same surface in a mass-based reactor conserves the element. -/
theorem bidentate_mass (kd : Kind) (h : kd.massBased = true) :
    surfMoleRate kd (massSurfaces ((biNet kd).node 0)).rhs 0 biSurf 1 = 1 := by
  have hs := coverage_rate ((biNet kd).node 0) [] [] biSurf rfl 1 (by decide)
  simp only [offset, List.map_nil, List.sum_nil, zero_add] at hs
  simp only [surfMoleRate, h, if_true, zero_add, hs]
  simp [biSurf]

end Verif.ZeroD
