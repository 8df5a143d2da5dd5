import Verif.Kinetics.Model

/-!
# Specification vocabulary for kinetics

Only declared reaction data (`Rxn`) and plain sums/products occur here.
-/

namespace Verif.Kinetics

open Verif Verif.Stoich

/-- Well-formed reaction: what `std::map` (distinct keys) and the equation parser (non-negative
coefficients) guarantee. -/
structure Rxn.OK (r : Rxn) : Prop where
  rnodup : (r.reactants.map (·.1)).Nodup
  pnodup : (r.products.map (·.1)).Nodup
  onodup : (r.orders.map (·.1)).Nodup
  rnonneg : ∀ x ∈ r.reactants, 0 ≤ x.2
  pnonneg : ∀ x ∈ r.products, 0 ≤ x.2

/-- Total coefficient of species `k` on one side of a reaction. -/
noncomputable def coeff (l : List (ℕ × ℝ)) (k : ℕ) : ℝ :=
  (l.map (fun x => if x.1 = k then x.2 else 0)).sum

/-- Effective forward orders of a reaction. -/
noncomputable def Rxn.effOrders (r : Rxn) : List (ℕ × ℝ) :=
  r.reactants.map (fun x => (x.1, (r.orders.lookup x.1).getD x.2)) ++
    r.orders.filter (fun o => o.1 ∉ r.reactants.map (·.1))

/-- Concentrations at which the declared powers make sense. -/
def Rxn.ConcOK (r : Rxn) (c : ℕ → ℝ) : Prop :=
  (∀ x ∈ r.effOrders, 0 < c x.1 ∨ (c x.1 = 0 ∧ 0 ≤ x.2)) ∧ (∀ x ∈ r.products, 0 ≤ c x.1)

/-- Product of powers. -/
noncomputable def powProd (l : List (ℕ × ℝ)) (c : ℕ → ℝ) : ℝ := (l.map (fun x => c x.1 ^ x.2)).prod

/-- Change of a species property over the reaction. -/
noncomputable def Rxn.delta (r : Rxn) (g : ℕ → ℝ) : ℝ :=
  (r.products.map (fun x => x.2 * g x.1)).sum - (r.reactants.map (fun x => x.2 * g x.1)).sum

/-- Change of the number of moles. -/
noncomputable def Rxn.deltaN (r : Rxn) : ℝ := r.delta (fun _ => 1)

/-- Efficiency of collider `k`. -/
noncomputable def ThirdBody.efficiency (b : ThirdBody) (k : ℕ) : ℝ := (b.eff.lookup k).getD b.dflt

/-- Effective third-body concentration for `nsp` species: efficiency weighted sum. -/
noncomputable def ThirdBody.conc (b : ThirdBody) (nsp : ℕ) (c : ℕ → ℝ) : ℝ :=
  ∑ k ∈ Finset.range nsp, b.efficiency k * c k

/-- Factor a third body contributes to the rate of progress. -/
noncomputable def Rxn.mFactor (r : Rxn) (nsp : ℕ) (c : ℕ → ℝ) : ℝ :=
  match r.thirdBody with
  | some b => if b.massAction then b.conc nsp c else 1
  | none => 1

/-- Declared collider efficiencies refer to existing species and are distinct. -/
def Rxn.TBOK (r : Rxn) (nsp : ℕ) : Prop :=
  ∀ b, r.thirdBody = some b → (b.eff.map (·.1)).Nodup ∧ ∀ x ∈ b.eff, x.1 < nsp

end Verif.Kinetics
