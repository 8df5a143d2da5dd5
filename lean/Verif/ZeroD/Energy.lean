import Verif.ZeroD.ConserveEx
import Mathlib.Analysis.Calculus.Deriv.Comp
import Mathlib.Tactic.GCongr
import Mathlib.Tactic.Positivity

/-!
# Energy balance of reactors and networks (C49)
-/

namespace Verif.ZeroD

open Finset

/-- Heat capacity of the contents, at constant volume or pressure. -/
noncomputable def heatCap (r : Node) : ℝ := if r.kind.constV then r.mass * r.cv else r.mass * r.cp

/-- Partial molar internal energies or enthalpies. -/
def partialE (r : Node) : ℕ → ℝ := if r.kind.constV then r.uk else r.hk

/-- Rate of change of the internal energy (enthalpy at constant pressure) of the gas of a
reactor: the energy equation itself, or by the chain rule from the temperature and species
equations if the type integrates the temperature. -/
noncomputable def energyRate (N : Net) (i : ℕ) : ℝ :=
  let r := N.node i
  let e := eval N i
  if r.kind.thermal then
    heatCap r * (e.dE / e.lE) + ∑ k ∈ range r.nsp, partialE r k * moleRate N i k
  else e.dE / e.lE

/-- For a type that integrates the temperature, `energyRate` is the time derivative of
`Σ n_k e_k(T)` along every solution, if `e_k` has the derivative `c_k` and `Σ n_k c_k` is the
heat capacity, as for ideal gases. -/
theorem energyRate_deriv (N : Net) (i : ℕ) (h : (N.node i).kind.thermal = true)
    (n : ℕ → ℝ → ℝ) (e c : ℕ → ℝ → ℝ) (T : ℝ → ℝ) (t : ℝ)
    (hn : ∀ k < (N.node i).nsp, HasDerivAt (n k) (moleRate N i k) t)
    (he : ∀ k < (N.node i).nsp, HasDerivAt (e k) (c k (T t)) (T t))
    (hT : HasDerivAt T ((eval N i).dE / (eval N i).lE) t)
    (hv : ∀ k < (N.node i).nsp, e k (T t) = partialE (N.node i) k)
    (hc : ∑ k ∈ range (N.node i).nsp, n k t * c k (T t) = heatCap (N.node i)) :
    HasDerivAt (fun s => ∑ k ∈ range (N.node i).nsp, n k s * e k (T s)) (energyRate N i) t := by
  have each : ∀ k ∈ range (N.node i).nsp, HasDerivAt (fun s => n k s * e k (T s))
      (moleRate N i k * e k (T t) + n k t * (c k (T t) * ((eval N i).dE / (eval N i).lE))) t := by
    intro k hk
    have hk := Finset.mem_range.1 hk
    exact (hn k hk).mul ((he k hk).comp t hT)
  have := HasDerivAt.fun_sum each
  have e : energyRate N i = ∑ k ∈ range (N.node i).nsp,
      (moleRate N i k * e k (T t) + n k t * (c k (T t) * ((eval N i).dE / (eval N i).lE))) := by
    rw [Finset.sum_add_distrib]
    have a : ∑ k ∈ range (N.node i).nsp,
        n k t * (c k (T t) * ((eval N i).dE / (eval N i).lE))
        = heatCap (N.node i) * ((eval N i).dE / (eval N i).lE) := by
      rw [← hc, Finset.sum_mul]
      exact Finset.sum_congr rfl fun k _ => by ring
    have b : ∑ k ∈ range (N.node i).nsp, moleRate N i k * e k (T t)
        = ∑ k ∈ range (N.node i).nsp, partialE (N.node i) k * moleRate N i k :=
      Finset.sum_congr rfl fun k hk => by rw [hv k (Finset.mem_range.1 hk)]; ring
    rw [a, b]
    simp only [energyRate, h, if_true]
    ring
  rw [e]
  exact this

/-- Energy passed to the contents by walls: heat, and work at constant volume types. -/
noncomputable def wallPower (N : Net) (i : ℕ) : ℝ :=
  (if (N.node i).kind.constV then -(N.node i).p * (evalWalls N i).1 else 0) + (evalWalls N i).2

section closed
variable (N : Net) (i : ℕ)

theorem energy_closed (h : (N.node i).kind.thermal = false) (he : (N.node i).energy = true) :
    (eval N i).dE = wallPower N i - dsum (outlets N i) (fun d => d.mdot * (N.node i).h)
      + dsum (inlets N i) (fun d => d.mdot * (N.node d.src).h) ∧ (eval N i).lE = 1 := by
  cases hk : (N.node i).kind <;> rw [hk] at h <;> simp [Kind.thermal] at h <;>
    simp only [eval, hk, evalReactor, evalConstP, evalMole, evalConstPMole, he, if_true] <;>
    refine ⟨?_, ?_⟩
  all_goals first
    | (rw [fold_keep (fun a : Rates => a.lE) _ (by intro a d; rfl),
         fold_keep (fun a : Rates => a.lE) _ (by intro a d; rfl)])
    | (rw [fold_add (fun a : Rates => a.dE) (fun d : Device => d.mdot * (N.node d.src).h) _
           (by intro a d; simp only [mul_comm]),
         fold_add (fun a : Rates => a.dE) (fun d : Device => -1 * (d.mdot * (N.node i).h)) _
           (by intro a d; simp only []; ring),
         dsum_mul]
       simp only [wallPower, hk, Kind.constV, if_true, Bool.false_eq_true, if_false]
       ring)

/-- Flow work of an outlet in the temperature equation. -/
noncomputable def flowWork (r : Node) : ℝ :=
  if r.kind.constV then r.p * r.vol / r.mass else 0

theorem thermal_closed (h : (N.node i).kind.thermal = true) (he : (N.node i).energy = true) :
    (eval N i).dE = wallPower N i
      - (∑ n ∈ range (N.node i).nsp, partialE (N.node i) n
          * (newWdot (N.node i) n * (N.node i).vol + surfaceSource (N.node i) n))
      - dsum (outlets N i) (fun d => d.mdot * flowWork (N.node i))
      + dsum (inlets N i) (fun d => d.mdot * (N.node d.src).h
          - ∑ n ∈ range (N.node i).nsp,
              partialE (N.node i) n * (specRate N d n / (N.node i).mw n)) ∧
    (eval N i).lE = heatCap (N.node i) := by
  have s1 : ∀ f : ℕ → ℝ, ∑ n ∈ range (N.node i).nsp, (newWdot (N.node i) n * f n * (N.node i).vol
        + (massSurfaces (N.node i)).sdot n * f n)
      = ∑ n ∈ range (N.node i).nsp, f n
          * (newWdot (N.node i) n * (N.node i).vol + surfaceSource (N.node i) n) := by
    intro f
    refine Finset.sum_congr rfl fun n hn => ?_
    rw [massSurfaces_sdot _ _ (Finset.mem_range.1 hn)]; ring
  have s2 : ∀ f : ℕ → ℝ, ∑ n ∈ range (N.node i).nsp, (newWdot (N.node i) n * f n * (N.node i).vol
        + (moleSurfaces (N.node i)).sdot n * f n)
      = ∑ n ∈ range (N.node i).nsp, f n
          * (newWdot (N.node i) n * (N.node i).vol + surfaceSource (N.node i) n) := by
    intro f
    refine Finset.sum_congr rfl fun n hn => ?_
    rw [moleSurfaces_sdot _ _ (Finset.mem_range.1 hn)]; ring
  have s3 : ∀ (f : ℕ → ℝ) (d : Device), ∑ n ∈ range (N.node i).nsp,
        f n / (N.node i).mw n * specRate N d n
      = ∑ n ∈ range (N.node i).nsp, f n * (specRate N d n / (N.node i).mw n) := by
    intro f d
    exact Finset.sum_congr rfl fun n _ => by ring
  have s4 : ∀ (f : ℕ → ℝ) (d : Device), ∑ n ∈ range (N.node i).nsp,
        f n * (1 / (N.node i).mw n) * specRate N d n
      = ∑ n ∈ range (N.node i).nsp, f n * (specRate N d n / (N.node i).mw n) := by
    intro f d
    exact Finset.sum_congr rfl fun n _ => by ring
  cases hk : (N.node i).kind <;> rw [hk] at h <;> simp [Kind.thermal] at h <;>
    simp only [eval, hk, evalIdeal, evalIdealConstP, evalIdealMole, evalIdealConstPMole, he,
      if_true, heatCap, partialE, wallPower, flowWork, Kind.constV, Bool.false_eq_true, if_false,
      and_true]
  · rw [fold_add (fun a : Rates => a.dE) (fun d : Device => d.mdot * (N.node d.src).h
          - ∑ n ∈ range (N.node i).nsp, (N.node i).uk n * (specRate N d n / (N.node i).mw n)) _
          (by intro a d; simp only [s3]; ring),
      fold_add (fun a : Rates => a.dE)
          (fun d : Device => -1 * (d.mdot * ((N.node i).p * (N.node i).vol / (N.node i).mass))) _
          (by intro a d; simp only []; ring), dsum_mul, s1]
    ring
  · rw [fold_add (fun a : Rates => a.dE) (fun d : Device => d.mdot * (N.node d.src).h
          - ∑ n ∈ range (N.node i).nsp, (N.node i).hk n * (specRate N d n / (N.node i).mw n)) _
          (by intro a d; simp only [s3]; ring),
      fold_keep (fun a : Rates => a.dE) _ (by intro a d; rfl), s1,
      dsum_zero (outlets N i) (fun d => d.mdot * 0) (fun d _ => mul_zero _)]
    ring
  · rw [fold_add (fun a : Rates => a.dE) (fun d : Device => d.mdot * (N.node d.src).h
          - ∑ n ∈ range (N.node i).nsp, (N.node i).uk n * (specRate N d n / (N.node i).mw n)) _
          (by intro a d; simp only [s4]; ring),
      fold_add (fun a : Rates => a.dE)
          (fun d : Device => -1 * (d.mdot * ((N.node i).p * (N.node i).vol / (N.node i).mass))) _
          (by intro a d; simp only []; ring), dsum_mul, s2]
    ring
  · rw [fold_add (fun a : Rates => a.dE) (fun d : Device => d.mdot * (N.node d.src).h
          - ∑ n ∈ range (N.node i).nsp, (N.node i).hk n * (specRate N d n / (N.node i).mw n)) _
          (by intro a d; simp only [s4]; ring),
      fold_keep (fun a : Rates => a.dE) _ (by intro a d; rfl), s2,
      dsum_zero (outlets N i) (fun d => d.mdot * 0) (fun d _ => mul_zero _)]
    ring

end closed

/-- Specific enthalpy and partial molar quantities of a node agree: `Σ Y_k h_k / W_k = h`, and
`Σ Y_k u_k / W_k = h - P V / m`. -/
def Consistent (r : Node) : Prop :=
  ∑ k ∈ range r.nsp, r.Y k / r.mw k * partialE r k
    = r.h - if r.kind.constV then r.p * r.vol / r.mass else 0

/-- **Energy balance**, for all eight types: wall work and heat, enthalpy carried in minus
enthalpy carried out. For mole-based types the nodes downstream must have the same species table
(C48, `mole_outlet_wrong`). -/
theorem energy_balance_partial (N : Net) (i : ℕ) (he : (N.node i).energy = true)
    (hm : (N.node i).mass ≠ 0) (hw : ∀ k, (N.node i).mw k ≠ 0) (hn : (N.node i).names.Nodup)
    (hs : (N.node i).kind.massBased = false → ∀ d ∈ outlets N i,
      (N.node d.dst).names = (N.node i).names)
    (hc : (N.node i).kind.thermal = true → heatCap (N.node i) ≠ 0 ∧ Consistent (N.node i)) :
    energyRate N i = wallPower N i - dsum (outlets N i) (fun d => d.mdot * (N.node i).h)
      + dsum (inlets N i) (fun d => d.mdot * (N.node d.src).h) := by
  by_cases h : (N.node i).kind.thermal = true
  · obtain ⟨hcap, hcon⟩ := hc h
    obtain ⟨e1, e2⟩ := thermal_closed N i h he
    simp only [energyRate, h, if_true]
    rw [e2, mul_div_cancel₀ _ hcap, e1]
    have each : ∀ k ∈ range (N.node i).nsp, partialE (N.node i) k * moleRate N i k
        = partialE (N.node i) k
            * (newWdot (N.node i) k * (N.node i).vol + surfaceSource (N.node i) k)
          - dsum (outlets N i) (fun d => partialE (N.node i) k * outTerm N i k d)
          + dsum (inlets N i)
              (fun d => partialE (N.node i) k * (specRate N d k / (N.node i).mw k)) := by
      intro k hk
      rw [moleRate_closed N i k (Finset.mem_range.1 hk) (fun _ => hm) (hw k), dsum_mul, dsum_mul]
      ring
    rw [Finset.sum_congr rfl each, Finset.sum_add_distrib, Finset.sum_sub_distrib, sum_dsum,
      sum_dsum, dsum_sub]
    have out : dsum (outlets N i)
          (fun d => ∑ k ∈ range (N.node i).nsp, partialE (N.node i) k * outTerm N i k d)
        = dsum (outlets N i) (fun d => d.mdot * (N.node i).h)
          - dsum (outlets N i) (fun d => d.mdot * flowWork (N.node i)) := by
      rw [← dsum_sub]
      refine dsum_congr _ _ _ fun d hd => ?_
      have ht : ∀ k ∈ range (N.node i).nsp, partialE (N.node i) k * outTerm N i k d
          = d.mdot * ((N.node i).Y k / (N.node i).mw k * partialE (N.node i) k) := by
        intro k hk
        have hk := Finset.mem_range.1 hk
        unfold outTerm
        by_cases hb : (N.node i).kind.massBased = true
        · rw [if_pos hb]; ring
        · have hb' : (N.node i).kind.massBased = false := by simpa using hb
          have e := hs hb' d hd
          have hsrc : d.src = i := by
            have := (List.mem_filter.1 hd).2; simpa using this
          have hk2 : k < (N.node d.dst).nsp := by simpa [Node.nsp, e] using hk
          have hnm : (N.node d.dst).name k = (N.node i).name k := by simp [Node.name, e]
          rw [if_neg hb, specRate_eq _ _ _ hk2, hnm, hsrc, yOf_self _ hn _ hk]
          ring
      rw [Finset.sum_congr rfl ht, ← Finset.mul_sum]
      have hcon : ∑ k ∈ range (N.node i).nsp,
          (N.node i).Y k / (N.node i).mw k * partialE (N.node i) k
          = (N.node i).h - flowWork (N.node i) := hcon
      rw [hcon]
      ring
    rw [out]
    ring
  · have h' : (N.node i).kind.thermal = false := by simpa using h
    obtain ⟨e1, e2⟩ := energy_closed N i h' he
    simp only [energyRate, h', Bool.false_eq_true, if_false]
    rw [e2, div_one, e1]

/-- With the energy equation disabled the energy (or temperature) variable is constant. -/
theorem energy_off (N : Net) (i : ℕ) (he : (N.node i).energy = false) : (eval N i).dE = 0 := by
  cases hk : (N.node i).kind <;>
    simp only [eval, hk, evalReactor, evalConstP, evalMole, evalConstPMole, evalIdeal,
      evalIdealConstP, evalIdealMole, evalIdealConstPMole, he, Bool.false_eq_true, if_false]
  all_goals
    rw [fold_keep (fun a : Rates => a.dE) _ (by intro a d; rfl),
      fold_keep (fun a : Rates => a.dE) _ (by intro a d; rfl)]

/-! ## Networks -/

/-- Heat through walls between reactors cancels. -/
theorem network_heat (N : Net) (n : ℕ) (hc : ∀ w ∈ N.walls, w.left < n ∧ w.right < n) :
    ∑ i ∈ range n, (evalWalls N i).2 = 0 := by
  rw [Finset.sum_congr rfl fun i _ => by rw [evalWalls_eq N i],
    Finset.sum_sub_distrib, sum_filter (fun w : Wall => w.right) n,
    sum_filter (fun w : Wall => w.left) n,
    List.filter_eq_self.2 fun w hw => by simp [(hc w hw).2],
    List.filter_eq_self.2 fun w hw => by simp [(hc w hw).1], sub_self]

/-- Assumptions of `energy_balance_partial` for all reactors, which are of constant volume
types. -/
structure Energetic (N : Net) (n : ℕ) : Prop where
  constV : ∀ i < n, (N.node i).kind.constV = true
  energy : ∀ i < n, (N.node i).energy = true
  mass : ∀ i < n, (N.node i).mass ≠ 0
  mw : ∀ i < n, ∀ k, (N.node i).mw k ≠ 0
  nodup : ∀ i < n, (N.node i).names.Nodup
  same : ∀ i < n, (N.node i).kind.massBased = false → ∀ d ∈ outlets N i,
      (N.node d.dst).names = (N.node i).names
  cap : ∀ i < n, (N.node i).kind.thermal = true → heatCap (N.node i) ≠ 0 ∧ Consistent (N.node i)

/-- **Energy of a network** of constant volume types whose walls are between its reactors: it
changes by the enthalpy of flows from and to reservoirs, and by walls that move although the
pressures on both sides differ. -/
theorem network_energy_partial {N : Net} {n : ℕ} (E : Energetic N n)
    (hc : ∀ w ∈ N.walls, w.left < n ∧ w.right < n) :
    ∑ i ∈ range n, energyRate N i
      = dsum (entering N n) (fun d => d.mdot * (N.node d.src).h)
        - dsum (leaving N n) (fun d => d.mdot * (N.node d.src).h)
        - dsum N.walls (fun w => ((N.node w.left).p - (N.node w.right).p) * expansionRate N w) := by
  have each : ∀ i ∈ range n, energyRate N i
      = (evalWalls N i).2
        - (dsum (N.walls.filter (fun w => w.left == i))
              (fun w => (N.node w.left).p * expansionRate N w)
          - dsum (N.walls.filter (fun w => w.right == i))
              (fun w => (N.node w.right).p * expansionRate N w))
        - dsum (outlets N i) (fun d => d.mdot * (N.node d.src).h)
        + dsum (inlets N i) (fun d => d.mdot * (N.node d.src).h) := by
    intro i hi
    have hi := Finset.mem_range.1 hi
    rw [energy_balance_partial N i (E.energy i hi) (E.mass i hi) (E.mw i hi) (E.nodup i hi)
      (E.same i hi) (E.cap i hi)]
    have e1 : dsum (outlets N i) (fun d => d.mdot * (N.node i).h)
        = dsum (outlets N i) (fun d => d.mdot * (N.node d.src).h) := by
      refine dsum_congr _ _ _ fun d hd => ?_
      have : d.src = i := by have := (List.mem_filter.1 hd).2; simpa using this
      rw [this]
    have e2 : dsum (N.walls.filter (fun w => w.left == i))
          (fun w => (N.node w.left).p * expansionRate N w)
        = (N.node i).p * dsum (N.walls.filter (fun w => w.left == i)) (expansionRate N) := by
      rw [← dsum_mul]
      refine dsum_congr _ _ _ fun w hw => ?_
      have : w.left = i := by have := (List.mem_filter.1 hw).2; simpa using this
      rw [this]
    have e3 : dsum (N.walls.filter (fun w => w.right == i))
          (fun w => (N.node w.right).p * expansionRate N w)
        = (N.node i).p * dsum (N.walls.filter (fun w => w.right == i)) (expansionRate N) := by
      rw [← dsum_mul]
      refine dsum_congr _ _ _ fun w hw => ?_
      have : w.right = i := by have := (List.mem_filter.1 hw).2; simpa using this
      rw [this]
    simp only [wallPower, E.constV i hi, if_true]
    rw [e1, e2, e3, evalWalls_eq N i]
    ring
  rw [Finset.sum_congr rfl each, Finset.sum_add_distrib, Finset.sum_sub_distrib,
    Finset.sum_sub_distrib, network_heat N n hc, Finset.sum_sub_distrib,
    sum_filter (fun w : Wall => w.left) n, sum_filter (fun w : Wall => w.right) n,
    List.filter_eq_self.2 fun w hw => by simp [(hc w hw).1],
    List.filter_eq_self.2 fun w hw => by simp [(hc w hw).2], ← dsum_sub]
  unfold outlets inlets
  rw [sum_filter (fun d : Device => d.src) n, sum_filter (fun d : Device => d.dst) n]
  have : dsum N.walls (fun w => ((N.node w.left).p - (N.node w.right).p) * expansionRate N w)
      = dsum N.walls (fun w => (N.node w.left).p * expansionRate N w
          - (N.node w.right).p * expansionRate N w) :=
    dsum_congr _ _ _ fun w _ => by ring
  rw [this]
  simp only [entering, leaving]
  ring

/-- A closed network between whose reactors pressures have equalised keeps its energy. -/
theorem network_energy_equal_partial {N : Net} {n : ℕ} (E : Energetic N n)
    (hc : ∀ w ∈ N.walls, w.left < n ∧ w.right < n)
    (hd : ∀ d ∈ N.devices, d.src < n ∧ d.dst < n)
    (hp : ∀ w ∈ N.walls, (N.node w.left).p = (N.node w.right).p ∨ expansionRate N w = 0) :
    ∑ i ∈ range n, energyRate N i = 0 := by
  rw [network_energy_partial E hc]
  have e1 : entering N n = N.devices := List.filter_eq_self.2 fun d h => by simp [(hd d h).2]
  have e2 : leaving N n = N.devices := List.filter_eq_self.2 fun d h => by simp [(hd d h).1]
  rw [e1, e2, dsum_zero N.walls _ fun w hw => by rcases hp w hw with h | h <;> rw [h] <;> ring]
  ring

theorem dsum_nonneg {D : Type} (l : List D) (f : D → ℝ) (h : ∀ d ∈ l, 0 ≤ f d) : 0 ≤ dsum l f := by
  induction l with
  | nil => simp [dsum]
  | cons d l ih =>
    rw [dsum_cons]
    exact add_nonneg (h d (by simp)) (ih fun x hx => h x (by simp [hx]))

/-- Walls driven by the pressure difference alone dissipate: a closed network never gains energy
from them (and loses it while pressures differ, since no type accounts for the work). -/
theorem network_energy_le_partial {N : Net} {n : ℕ} (E : Energetic N n)
    (hc : ∀ w ∈ N.walls, w.left < n ∧ w.right < n)
    (hd : ∀ d ∈ N.devices, d.src < n ∧ d.dst < n)
    (hp : ∀ w ∈ N.walls, w.vf = none ∧ 0 ≤ w.k ∧ 0 ≤ w.area) :
    ∑ i ∈ range n, energyRate N i ≤ 0 := by
  rw [network_energy_partial E hc]
  have e1 : entering N n = N.devices := List.filter_eq_self.2 fun d h => by simp [(hd d h).2]
  have e2 : leaving N n = N.devices := List.filter_eq_self.2 fun d h => by simp [(hd d h).1]
  have : 0 ≤ dsum N.walls
      (fun w => ((N.node w.left).p - (N.node w.right).p) * expansionRate N w) := by
    refine dsum_nonneg _ _ fun w hw => ?_
    obtain ⟨h1, h2, h3⟩ := hp w hw
    simp only [expansionRate, h1]
    have : ((N.node w.left).p - (N.node w.right).p)
          * (w.k * w.area * ((N.node w.left).p - (N.node w.right).p))
        = w.k * w.area * ((N.node w.left).p - (N.node w.right).p) ^ 2 := by ring
    rw [this]
    positivity
  rw [e1, e2]
  linarith

/-- Heat flows from the hotter to the colder side of a wall without an imposed heat flux. -/
theorem heat_downhill (N : Net) (w : Wall) (hq : w.qf = none) (ha : 0 ≤ w.area) (hr : 0 ≤ w.rrth)
    (h0 : 0 ≤ (N.node w.right).T) (h : (N.node w.right).T ≤ (N.node w.left).T) :
    0 ≤ heatRate N w := by
  simp only [heatRate, hq]
  have h1 : 0 ≤ w.area * w.rrth * ((N.node w.left).T - (N.node w.right).T) :=
    mul_nonneg (mul_nonneg ha hr) (by linarith)
  split_ifs with he
  · have h2 : (N.node w.right).T * (N.node w.right).T * (N.node w.right).T * (N.node w.right).T
        ≤ (N.node w.left).T * (N.node w.left).T * (N.node w.left).T * (N.node w.left).T := by
      have hl := h0.trans h
      gcongr
    have h3 : 0 ≤ w.emiss * w.area * stefanBoltz :=
      mul_nonneg (mul_nonneg he.le ha) (by unfold stefanBoltz; positivity)
    have := mul_nonneg h3 (sub_nonneg.2 h2)
    linarith
  · exact h1

/-- An imposed heat flux is received by the right reactor and given off by the left one. -/
theorem heat_imposed (N : Net) (l r : ℕ) (hlr : l ≠ r) (a q : ℝ)
    (hw : N.walls = [⟨l, r, 0, a, none, 0, 0, some q⟩]) :
    (evalWalls N r).2 = a * q ∧ (evalWalls N l).2 = -(a * q) := by
  rw [evalWalls_eq, evalWalls_eq, hw]
  constructor <;> simp [dsum, heatRate, hlr, hlr.symm]

/-! ## Examples -/

theorem exEnergetic : Energetic exNet 2 where
  constV := by
    intro i hi
    have : i = 0 ∨ i = 1 := by omega
    rcases this with rfl | rfl <;> rfl
  energy := by
    intro i hi
    have : i = 0 ∨ i = 1 := by omega
    rcases this with rfl | rfl <;> rfl
  mass := by intro i _; exact exGood.mass i
  mw := by
    intro i hi k
    have : i = 0 ∨ i = 1 := by omega
    rcases this with rfl | rfl <;> simp [exNet, exNode]
  nodup := by intro i _; exact exGood.nodup i
  same := by
    intro i hi hm d hd
    have h1 := (List.mem_filter.1 hd).1
    have h2 : d.src = i := by have := (List.mem_filter.1 hd).2; simpa using this
    subst h2
    exact (exGood.same d h1 hi hm).symm
  cap := by
    intro i hi h
    have : i = 0 ∨ i = 1 := by omega
    rcases this with rfl | rfl
    · refine ⟨by simp [exNet, exNode, heatCap, Kind.constV], ?_⟩
      norm_num [Consistent, exNet, exNode, partialE, Kind.constV, Node.nsp, Finset.sum_range_succ]
    · simp [exNet, exNode, Kind.thermal] at h

/-- The enthalpy from the reservoir is all that changes the energy of the example. -/
example : ∑ i ∈ range 2, energyRate exNet i = 3 := by
  rw [network_energy_partial exEnergetic (by simp [exNet])]
  have e1 : entering exNet 2 = exNet.devices := rfl
  have e2 : leaving exNet 2 = [⟨0, 1, 1⟩, ⟨1, 0, 3⟩] := rfl
  have e3 : exNet.devices = [⟨0, 1, 1⟩, ⟨1, 0, 3⟩, ⟨2, 0, 1⟩] := rfl
  rw [e1, e2, e3]
  simp only [dsum_cons, dsum_nil]
  norm_num [exNet, exNode, dsum]

/-- A constant pressure reactor of the temperature type, fed and drained. -/
def exConstP (kd : Kind) : Net :=
  { node := fun i => if i = 0 then { exNode kd ["A", "B"] [] with hk := fun _ => 6, h := 3 }
      else exNode .reactor ["A", "B"] []
    devices := [⟨0, 1, 1⟩, ⟨1, 0, 2⟩]
    walls := [] }

example : energyRate (exConstP .idealConstPMole) 0 = 3 := by
  rw [energy_balance_partial _ _ rfl (by simp [exConstP, exNode]) (by simp [exConstP, exNode])
    (by simp [exConstP, exNode]) (by
      intro _ d _
      simp only [exConstP, exNode]
      split_ifs <;> simp)
    (by
      intro _
      refine ⟨by simp [exConstP, exNode, heatCap, Kind.constV], ?_⟩
      norm_num [Consistent, exConstP, exNode, partialE, Kind.constV, Node.nsp,
        Finset.sum_range_succ])]
  have e1 : outlets (exConstP .idealConstPMole) 0 = [⟨0, 1, 1⟩] := rfl
  have e2 : inlets (exConstP .idealConstPMole) 0 = [⟨1, 0, 2⟩] := rfl
  rw [e1, e2]
  simp only [wallPower, evalWalls_eq, dsum_cons, dsum_nil]
  norm_num [exConstP, exNode, dsum, Kind.constV]

/-- A closed network with equal pressures. -/
example : ∑ i ∈ range 2,
    energyRate { exNet with devices := [⟨0, 1, 1⟩, ⟨1, 0, 3⟩] } i = 0 :=
  network_energy_equal_partial
    { constV := exEnergetic.constV
      energy := exEnergetic.energy
      mass := exEnergetic.mass
      mw := exEnergetic.mw
      nodup := exEnergetic.nodup
      same := by
        intro i hi hm d hd
        refine exEnergetic.same i hi hm d ?_
        obtain ⟨h1, h2⟩ := List.mem_filter.1 hd
        refine List.mem_filter.2 ⟨?_, h2⟩
        simp only [List.mem_cons, List.not_mem_nil, or_false] at h1
        rcases h1 with rfl | rfl <;> simp [exNet]
      cap := exEnergetic.cap }
    (by simp [exNet]) (by simp) (by intro w hw; left; simp [exNet] at hw ⊢; rcases hw with rfl | rfl <;> simp [exNode])

/-- Two reactors at different pressures separated by a free wall. -/
def exPiston (vf : Option ℝ) : Net :=
  { node := fun i => { exNode .reactor ["A", "B"] [] with p := if i = 0 then 3 else 1 }
    devices := []
    walls := [⟨0, 1, 1, 5, vf, 1, 0, none⟩] }

theorem exPiston_energetic (vf : Option ℝ) : Energetic (exPiston vf) 2 where
  constV := by intro i _; rfl
  energy := by intro i _; rfl
  mass := by intro i _; simp [exPiston, exNode]
  mw := by intro i _; simp [exPiston, exNode]
  nodup := by intro i _; simp [exPiston, exNode]
  same := by intro i _ _ d _; rfl
  cap := by intro i _ h; simp [exPiston, exNode, Kind.thermal] at h

/-- Together they lose energy: the work done by the wall is not returned to either. -/
theorem piston_loses : ∑ i ∈ range 2, energyRate (exPiston none) i = -20 := by
  rw [network_energy_partial (exPiston_energetic none) (by simp [exPiston])]
  have e1 : (exPiston none).walls = [⟨0, 1, 1, 5, none, 1, 0, none⟩] := rfl
  have e2 : entering (exPiston none) 2 = [] := rfl
  have e3 : leaving (exPiston none) 2 = [] := rfl
  rw [e1, e2, e3]
  simp only [dsum_cons, dsum_nil, expansionRate]
  norm_num [exPiston, exNode]

/-- A wall also moved by a velocity function. -/
theorem piston_driven (v : ℝ) :
    ∑ i ∈ range 2, energyRate (exPiston (some v)) i = -20 - 10 * v := by
  rw [network_energy_partial (exPiston_energetic (some v)) (by simp [exPiston])]
  have e1 : (exPiston (some v)).walls = [⟨0, 1, 1, 5, some v, 1, 0, none⟩] := rfl
  have e2 : entering (exPiston (some v)) 2 = [] := rfl
  have e3 : leaving (exPiston (some v)) 2 = [] := rfl
  rw [e1, e2, e3]
  simp only [dsum_cons, dsum_nil, expansionRate]
  norm_num [exPiston, exNode]
  ring

example : ∑ i ∈ range 2, energyRate (exPiston none) i ≤ 0 :=
  network_energy_le_partial (exPiston_energetic none) (by simp [exPiston]) (by simp [exPiston])
    (by simp [exPiston])

example : 0 ≤ heatRate exNet ⟨0, 1, 1, 1, none, 1, 1, none⟩ :=
  heat_downhill _ _ rfl (by norm_num) (by norm_num) (by norm_num [exNet, exNode])
    (by simp [exNet, exNode])

/-- **Violation**: a mole-based reactor with another species table downstream loses enthalpy with
an outflow that removes no moles. -/
theorem mole_outlet_energy :
    energyRate (badNet .constPMole ["C"]) 0 = -3 ∧
      ∀ k < 2, moleRate (badNet .constPMole ["C"]) 0 k = 0 := by
  refine ⟨?_, fun k hk => (mole_outlet_keeps .constPMole rfl k hk).1⟩
  obtain ⟨e1, e2⟩ := energy_closed (badNet .constPMole ["C"]) 0 rfl rfl
  have ht : ((badNet .constPMole ["C"]).node 0).kind.thermal = false := rfl
  simp only [energyRate, ht, Bool.false_eq_true, if_false, e1, e2]
  have o : outlets (badNet .constPMole ["C"]) 0 = [⟨0, 1, 1⟩] := rfl
  have n : inlets (badNet .constPMole ["C"]) 0 = [] := rfl
  rw [o, n]
  simp only [wallPower, evalWalls_eq, dsum_cons, dsum_nil]
  norm_num [badNet, exNode, dsum, Kind.constV]

end Verif.ZeroD
