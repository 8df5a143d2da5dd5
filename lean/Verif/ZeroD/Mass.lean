import Verif.ZeroD.Net
import Mathlib.Algebra.BigOperators.Ring.Finset
import Mathlib.Algebra.BigOperators.Group.List.Basic
import Mathlib.Data.List.Nodup
import Mathlib.Data.Finset.Dedup
import Mathlib.Tactic.FieldSimp
import Mathlib.Analysis.Calculus.Deriv.Mul
import Mathlib.Analysis.Calculus.Deriv.Add

/-!
# Conservation of mass, elements, sites and volume by reactor networks (C48)
-/

namespace Verif.ZeroD

open Finset

/-! ## Sums over devices -/

/-- Sum of a quantity over a list of devices (walls). -/
def dsum {D : Type} (l : List D) (f : D → ℝ) : ℝ := (l.map f).sum

theorem dsum_nil {D : Type} (f : D → ℝ) : dsum [] f = 0 := rfl

theorem dsum_cons {D : Type} (d : D) (l : List D) (f : D → ℝ) :
    dsum (d :: l) f = f d + dsum l f := by simp [dsum]

theorem dsum_append {D : Type} (l l' : List D) (f : D → ℝ) :
    dsum (l ++ l') f = dsum l f + dsum l' f := by simp [dsum]

theorem dsum_add {D : Type} (l : List D) (f g : D → ℝ) :
    dsum l (fun d => f d + g d) = dsum l f + dsum l g := by
  induction l with
  | nil => simp [dsum]
  | cons d l ih => rw [dsum_cons, dsum_cons, dsum_cons, ih]; ring

theorem dsum_sub {D : Type} (l : List D) (f g : D → ℝ) :
    dsum l (fun d => f d - g d) = dsum l f - dsum l g := by
  induction l with
  | nil => simp [dsum]
  | cons d l ih => rw [dsum_cons, dsum_cons, dsum_cons, ih]; ring

theorem dsum_mul {D : Type} (l : List D) (c : ℝ) (f : D → ℝ) :
    dsum l (fun d => c * f d) = c * dsum l f := by
  induction l with
  | nil => simp [dsum]
  | cons d l ih => rw [dsum_cons, dsum_cons, ih]; ring

theorem dsum_mul_right {D : Type} (l : List D) (c : ℝ) (f : D → ℝ) :
    dsum l (fun d => f d * c) = dsum l f * c := by
  induction l with
  | nil => simp [dsum]
  | cons d l ih => rw [dsum_cons, dsum_cons, ih]; ring

theorem dsum_congr {D : Type} (l : List D) (f g : D → ℝ) (h : ∀ d ∈ l, f d = g d) :
    dsum l f = dsum l g := by
  induction l with
  | nil => rfl
  | cons d l ih =>
    rw [dsum_cons, dsum_cons, h d (by simp), ih (fun x hx => h x (by simp [hx]))]

theorem dsum_zero {D : Type} (l : List D) (f : D → ℝ) (h : ∀ d ∈ l, f d = 0) : dsum l f = 0 := by
  rw [dsum_congr l f (fun _ => 0) h]
  induction l with
  | nil => rfl
  | cons d l ih => rw [dsum_cons, ih (fun x hx => h x (by simp [hx]))]; ring

theorem sum_dsum {D : Type} (S : Finset ℕ) (l : List D) (f : ℕ → D → ℝ) :
    ∑ k ∈ S, dsum l (f k) = dsum l (fun d => ∑ k ∈ S, f k d) := by
  induction l with
  | nil => simp [dsum]
  | cons d l ih => simp only [dsum_cons, Finset.sum_add_distrib, ih]

/-- The lists of devices of the nodes `0..n-1` are together the devices ending there. -/
theorem sum_filter {D : Type} (key : D → ℕ) (n : ℕ) (l : List D) (f : D → ℝ) :
    ∑ i ∈ range n, dsum (l.filter (fun d => key d == i)) f
      = dsum (l.filter (fun d => decide (key d < n))) f := by
  induction l with
  | nil => simp [dsum]
  | cons d l ih =>
    by_cases h : key d < n
    · have hf : (d :: l).filter (fun d => decide (key d < n))
          = d :: l.filter (fun d => decide (key d < n)) := by simp [h]
      rw [hf, dsum_cons, ← ih]
      have : ∀ i ∈ range n, dsum ((d :: l).filter (fun d => key d == i)) f
          = (if i = key d then f d else 0) + dsum (l.filter (fun d => key d == i)) f := by
        intro i _
        by_cases hi : key d = i
        · simp [hi, dsum]
        · simp [hi, dsum, Ne.symm hi]
      rw [Finset.sum_congr rfl this, Finset.sum_add_distrib, Finset.sum_ite_eq',
        if_pos (Finset.mem_range.2 h)]
    · have hf : (d :: l).filter (fun d => decide (key d < n))
          = l.filter (fun d => decide (key d < n)) := by simp [h]
      rw [hf, ← ih]
      refine Finset.sum_congr rfl fun i hi => ?_
      have hne : ¬ key d = i := by
        intro e; exact h (e ▸ Finset.mem_range.1 hi)
      simp [hne]

/-- A loop that adds to one field per element. -/
theorem fold_add {A D : Type} (g : A → ℝ) (f : D → ℝ) (step : A → D → A)
    (h : ∀ a d, g (step a d) = g a + f d) (l : List D) (a : A) :
    g (l.foldl step a) = g a + dsum l f := by
  induction l generalizing a with
  | nil => simp [dsum]
  | cons d l ih => rw [List.foldl_cons, ih, h, dsum_cons]; ring

/-- A loop that leaves one field alone. -/
theorem fold_keep {A B D : Type} (g : A → B) (step : A → D → A) (h : ∀ a d, g (step a d) = g a)
    (l : List D) (a : A) : g (l.foldl step a) = g a := by
  induction l generalizing a with
  | nil => rfl
  | cons d l ih => rw [List.foldl_cons, ih, h]

/-! ## What the equations mean -/

/-- Net production of gas species `k` by the gas phase and by the surfaces of a node (kmol/s). -/
def surfaceSource (r : Node) (k : ℕ) : ℝ := dsum r.surfs (fun s => s.work (s.bulk + k) * s.area)

/-- Rate of change of the moles `m Y_k / W_k` (or `n_k`) of gas species `k` of reactor `i`: by the
product rule from `m' = dm` and `Y_k' = dY_k / lY`, the derivatives passed to the integrator
(ReactorNet.cpp:372-374). -/
noncomputable def moleRate (N : Net) (i k : ℕ) : ℝ :=
  let r := N.node i
  let e := eval N i
  if r.kind.massBased then (r.mass * (e.dY k / e.lY) + r.Y k * e.dm) / r.mw k else e.dY k / e.lY

/-- `moleRate` is the time derivative of the moles along every solution (mass-based types). -/
theorem moleRate_deriv_mass (N : Net) (i k : ℕ) (h : (N.node i).kind.massBased = true)
    (m y : ℝ → ℝ) (t : ℝ) (hm : m t = (N.node i).mass) (hy : y t = (N.node i).Y k)
    (dm : HasDerivAt m (eval N i).dm t)
    (dy : HasDerivAt y ((eval N i).dY k / (eval N i).lY) t) :
    HasDerivAt (fun s => m s * y s / (N.node i).mw k) (moleRate N i k) t := by
  have := (dm.mul dy).div_const ((N.node i).mw k)
  have e : moleRate N i k
      = ((eval N i).dm * y t + m t * ((eval N i).dY k / (eval N i).lY)) / (N.node i).mw k := by
    simp only [moleRate, h, if_true, hm, hy]; ring
  rw [e]; exact this

/-- ... and for the types whose state holds moles. -/
theorem moleRate_deriv_mole (N : Net) (i k : ℕ) (h : (N.node i).kind.massBased = false)
    (n : ℝ → ℝ) (t : ℝ) (dn : HasDerivAt n ((eval N i).dY k / (eval N i).lY) t) :
    HasDerivAt n (moleRate N i k) t := by
  have e : moleRate N i k = (eval N i).dY k / (eval N i).lY := by simp [moleRate, h]
  rw [e]; exact dn

/-! ## Surfaces -/

theorem massSurfaces_sdot (r : Node) (k : ℕ) (h : k < r.nsp) :
    (massSurfaces r).sdot k = surfaceSource r k := by
  have := fold_add (fun a : SurfAcc => a.sdot k) (fun s : Surf => s.work (s.bulk + k) * s.area)
    (massSurfStep r.nsp) (by intro a d; simp [massSurfStep, h]) r.surfs
    ⟨0, fun _ => 0, fun _ => 0⟩
  simpa [massSurfaces, surfaceSource] using this

theorem moleSurfaces_sdot (r : Node) (k : ℕ) (h : k < r.nsp) :
    (moleSurfaces r).sdot k = surfaceSource r k := by
  have := fold_add (fun a : SurfAcc => a.sdot k) (fun s : Surf => s.work (s.bulk + k) * s.area)
    (moleSurfStep r.nsp) (by intro a d; simp [moleSurfStep, h]) r.surfs
    ⟨0, fun _ => 0, fun _ => 0⟩
  simpa [moleSurfaces, surfaceSource] using this

theorem range_foldl_sub (f : ℕ → ℝ) (n : ℕ) (a : ℝ) :
    (List.range n).foldl (fun acc k => if k = 0 then acc else acc - f k) a
      = a - ∑ k ∈ range n, (if k = 0 then 0 else f k) := by
  induction n with
  | zero => simp
  | succ n ih =>
    rw [List.range_succ, List.foldl_append, ih, Finset.sum_range_succ]
    by_cases h : n = 0
    · simp [h]
    · simp [h]; ring

/-- A step leaves the entries of earlier surfaces alone. -/
theorem massSurfStep_before (nsp : ℕ) (a : SurfAcc) (s : Surf) (i : ℕ) (h : i < a.loc) :
    (massSurfStep nsp a s).rhs i = a.rhs i := by
  simp only [massSurfStep]
  rw [if_neg (by omega), if_neg (by omega)]

theorem moleSurfStep_before (nsp : ℕ) (a : SurfAcc) (s : Surf) (i : ℕ) (h : i < a.loc) :
    (moleSurfStep nsp a s).rhs i = a.rhs i := by
  simp only [moleSurfStep]
  rw [if_neg (by omega)]

theorem massFold_before (nsp : ℕ) (l : List Surf) (a : SurfAcc) (i : ℕ) (h : i < a.loc) :
    (l.foldl (massSurfStep nsp) a).rhs i = a.rhs i := by
  induction l generalizing a with
  | nil => rfl
  | cons s l ih =>
    rw [List.foldl_cons, ih _ (by simp only [massSurfStep]; omega), massSurfStep_before _ _ _ _ h]

theorem moleFold_before (nsp : ℕ) (l : List Surf) (a : SurfAcc) (i : ℕ) (h : i < a.loc) :
    (l.foldl (moleSurfStep nsp) a).rhs i = a.rhs i := by
  induction l generalizing a with
  | nil => rfl
  | cons s l ih =>
    rw [List.foldl_cons, ih _ (by simp only [moleSurfStep]; omega), moleSurfStep_before _ _ _ _ h]

/-- First entry of surface `l` in a list of surfaces: entries are stored surface after surface. -/
def offset (l : List Surf) : ℕ := (l.map Surf.nk).sum

theorem massFold_loc (nsp : ℕ) (l : List Surf) (a : SurfAcc) :
    (l.foldl (massSurfStep nsp) a).loc = a.loc + offset l := by
  induction l generalizing a with
  | nil => simp [offset]
  | cons s l ih =>
    rw [List.foldl_cons, ih]
    simp [massSurfStep, offset]; omega

theorem moleFold_loc (nsp : ℕ) (l : List Surf) (a : SurfAcc) :
    (l.foldl (moleSurfStep nsp) a).loc = a.loc + offset l := by
  induction l generalizing a with
  | nil => simp [offset]
  | cons s l ih =>
    rw [List.foldl_cons, ih]
    simp [moleSurfStep, offset]; omega

/-- Rates of change of the coverages of a surface of a mass-based reactor. -/
theorem coverage_rate (r : Node) (l l' : List Surf) (s : Surf) (h : r.surfs = l ++ s :: l')
    (k : ℕ) (hk : k < s.nk) :
    (massSurfaces r).rhs (offset l + k)
      = if k = 0 then -∑ j ∈ range s.nk, (if j = 0 then 0 else s.work j * (1 / s.site) * s.size j)
        else s.work k * (1 / s.site) * s.size k := by
  have hloc := massFold_loc r.nsp l ⟨0, fun _ => 0, fun _ => 0⟩
  simp only [zero_add] at hloc
  rw [massSurfaces, h, List.foldl_append, List.foldl_cons,
    massFold_before _ _ _ _ (by simp only [massSurfStep, hloc]; omega)]
  simp only [massSurfStep, hloc]
  rw [range_foldl_sub]
  by_cases h0 : k = 0
  · subst h0
    rw [if_pos (by omega), if_pos rfl, zero_sub, neg_inj]
    refine Finset.sum_congr rfl fun j hj => ?_
    have hj := Finset.mem_range.1 hj
    by_cases hz : j = 0
    · simp [hz]
    · rw [if_neg hz, if_neg hz, if_pos (by omega), Nat.add_sub_cancel_left]
  · rw [if_neg (by omega), if_neg h0, if_pos (by omega), Nat.add_sub_cancel_left]

/-- Rates of change of the moles on a surface of a mole-based reactor. -/
theorem surface_mole_rate (r : Node) (l l' : List Surf) (s : Surf) (h : r.surfs = l ++ s :: l')
    (k : ℕ) (hk : k < s.nk) :
    (moleSurfaces r).rhs (offset l + k) = s.work k * s.area / s.size k := by
  have hloc := moleFold_loc r.nsp l ⟨0, fun _ => 0, fun _ => 0⟩
  simp only [zero_add] at hloc
  rw [moleSurfaces, h, List.foldl_append, List.foldl_cons,
    moleFold_before _ _ _ _ (by simp only [moleSurfStep, hloc]; omega)]
  simp only [moleSurfStep, hloc]
  rw [if_pos (by omega), Nat.add_sub_cancel_left]

/-! ## Closed forms -/

/-- Moles of species `k` leaving through a device, as accounted by the upstream reactor. -/
noncomputable def outTerm (N : Net) (i k : ℕ) (d : Device) : ℝ :=
  if (N.node i).kind.massBased then d.mdot * (N.node i).Y k / (N.node i).mw k
  else specRate N d k / (N.node i).mw k

section closed
variable (N : Net) (i : ℕ)

/-- The mass, species and surface parts shared by the four mass-based types. -/
theorem mass_closed (h : (N.node i).kind.massBased = true) :
    (eval N i).dm = (∑ k ∈ range (N.node i).nsp, (massSurfaces (N.node i)).sdot k * (N.node i).mw k)
        - dsum (outlets N i) (fun d => d.mdot) + dsum (inlets N i) (fun d => d.mdot) ∧
    (∀ k, (eval N i).dY k
      = (newWdot (N.node i) k * (N.node i).vol + (massSurfaces (N.node i)).sdot k) * (N.node i).mw k
        - (N.node i).Y k
          * (∑ k ∈ range (N.node i).nsp, (massSurfaces (N.node i)).sdot k * (N.node i).mw k)
        + dsum (inlets N i) (fun d => specRate N d k - d.mdot * (N.node i).Y k)) ∧
    (eval N i).lY = (N.node i).mass ∧ (eval N i).surf = (massSurfaces (N.node i)).rhs := by
  cases hk : (N.node i).kind <;> rw [hk] at h <;> simp [Kind.massBased] at h <;>
    simp only [eval, hk] <;> refine ⟨?_, fun k => ?_, ?_, ?_⟩
  all_goals first
    | (simp only [evalReactor, evalConstP, evalIdeal, evalIdealConstP]
       rw [fold_add (fun a : Rates => a.dm) (fun d : Device => d.mdot) _ (by intro a d; rfl),
         fold_add (fun a : Rates => a.dm) (fun d : Device => -1 * d.mdot) _
           (by intro a d; simp only []; ring),
         dsum_mul]
       ring)
    | (simp only [evalReactor, evalConstP, evalIdeal, evalIdealConstP]
       rw [fold_add (fun a : Rates => a.dY k)
           (fun d : Device => specRate N d k - d.mdot * (N.node i).Y k) _ (by intro a d; rfl),
         fold_keep (fun a : Rates => a.dY k) _ (by intro a d; rfl)])
    | (simp only [evalReactor, evalConstP, evalIdeal, evalIdealConstP]
       rw [fold_keep (fun a : Rates => a.lY) _ (by intro a d; rfl),
         fold_keep (fun a : Rates => a.lY) _ (by intro a d; rfl)])
    | (simp only [evalReactor, evalConstP, evalIdeal, evalIdealConstP]
       rw [fold_keep (fun a : Rates => a.surf) _ (by intro a d; rfl),
         fold_keep (fun a : Rates => a.surf) _ (by intro a d; rfl)])

/-- The species and surface parts shared by the four mole-based types. -/
theorem mole_closed (h : (N.node i).kind.massBased = false) :
    (∀ k, (eval N i).dY k
      = newWdot (N.node i) k * (N.node i).vol + (moleSurfaces (N.node i)).sdot k
        - dsum (outlets N i) (fun d => specRate N d k / (N.node i).mw k)
        + dsum (inlets N i) (fun d => specRate N d k / (N.node i).mw k)) ∧
    (eval N i).lY = 1 ∧ (eval N i).surf = (moleSurfaces (N.node i)).rhs := by
  cases hk : (N.node i).kind <;> rw [hk] at h <;> simp [Kind.massBased] at h <;>
    simp only [eval, hk] <;> refine ⟨fun k => ?_, ?_, ?_⟩
  all_goals first
    | (simp only [evalMole, evalConstPMole, evalIdealMole, evalIdealConstPMole]
       rw [fold_add (fun a : Rates => a.dY k)
           (fun d : Device => specRate N d k / (N.node i).mw k) _
           (by intro a d; simp only []; rw [mul_one_div]),
         fold_add (fun a : Rates => a.dY k)
           (fun d : Device => -1 * (specRate N d k / (N.node i).mw k)) _
           (by intro a d; simp only []; rw [mul_one_div]; ring),
         dsum_mul]
       ring)
    | (simp only [evalMole, evalConstPMole, evalIdealMole, evalIdealConstPMole]
       rw [fold_keep (fun a : Rates => a.lY) _ (by intro a d; rfl),
         fold_keep (fun a : Rates => a.lY) _ (by intro a d; rfl)])
    | (simp only [evalMole, evalConstPMole, evalIdealMole, evalIdealConstPMole]
       rw [fold_keep (fun a : Rates => a.surf) _ (by intro a d; rfl),
         fold_keep (fun a : Rates => a.surf) _ (by intro a d; rfl)])

/-- The moles of a species change by reactions, outlets and inlets, for all eight types. -/
theorem moleRate_closed (k : ℕ) (hk : k < (N.node i).nsp)
    (hm : (N.node i).kind.massBased = true → (N.node i).mass ≠ 0) (hw : (N.node i).mw k ≠ 0) :
    moleRate N i k = newWdot (N.node i) k * (N.node i).vol + surfaceSource (N.node i) k
      - dsum (outlets N i) (outTerm N i k)
      + dsum (inlets N i) (fun d => specRate N d k / (N.node i).mw k) := by
  by_cases h : (N.node i).kind.massBased = true
  · obtain ⟨e1, e2, e3, -⟩ := mass_closed N i h
    have hm := hm h
    simp only [moleRate, h, if_true, e1, e2 k, e3]
    have ho : dsum (outlets N i) (outTerm N i k)
        = dsum (outlets N i) (fun d => d.mdot) * ((N.node i).Y k / (N.node i).mw k) := by
      rw [← dsum_mul_right]
      exact dsum_congr _ _ _ fun d _ => by simp only [outTerm, h, if_true]; ring
    have hi : dsum (inlets N i) (fun d => specRate N d k / (N.node i).mw k)
        = dsum (inlets N i) (fun d => specRate N d k) * (1 / (N.node i).mw k) := by
      rw [← dsum_mul_right]
      exact dsum_congr _ _ _ fun d _ => by ring
    rw [ho, hi, dsum_sub, dsum_mul_right, mul_div_cancel₀ _ hm, massSurfaces_sdot _ _ hk]
    field_simp
    ring
  · have h : (N.node i).kind.massBased = false := by simpa using h
    obtain ⟨e2, e3, -⟩ := mole_closed N i h
    have ho : dsum (outlets N i) (outTerm N i k)
        = dsum (outlets N i) (fun d => specRate N d k / (N.node i).mw k) :=
      dsum_congr _ _ _ fun d _ => by simp [outTerm, h]
    simp only [moleRate, h, e2 k, e3, ho, moleSurfaces_sdot _ _ hk]
    simp

end closed

end Verif.ZeroD
