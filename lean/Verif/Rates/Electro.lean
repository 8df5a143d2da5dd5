import Verif.Kinetics.InterfaceFlow
import Verif.Rates.Arrhenius

/-!
# C60: charge transfer reactions

Sources: src/kinetics/InterfaceRate.cpp:253-310, include/cantera/kinetics/InterfaceRate.h:142-185, 418-425,
src/kinetics/Reaction.cpp:713-743; on top of `Verif.Kinetics.Interface` (C57).

Simplifications: `RT` is `GasConstant * temperature`; the standard potentials and concentrations in the shared data
are those of the phases (C62).
-/

namespace Verif.Rates.Electro

open Verif Verif.Stoich Verif.Kinetics Verif.Kinetics.Interface

/-- Members of `InterfaceRateBase` for charge transfer (InterfaceRate.h:236-241, 256-260). -/
structure Ctx where
  ct : Bool
  exch : Bool
  beta : ℝ
  stoich : List (ℕ × ℝ)
  net : List (ℕ × ℝ)

/-- `charge(k - start)` of the phase of species `k` (InterfaceRate.cpp:305-307, Reaction.cpp:720-722). -/
noncomputable def chargeOf (ps : List IPhase) (phOf : ℕ → ℕ) (k : ℕ) : ℝ :=
  match ps[phOf k]? with
  | none => 0
  | some p => p.charge (k - startAt ps (phOf k))

/-- `e_counter` (Reaction.cpp:716-734). -/
noncomputable def counter (ps : List IPhase) (phOf : ℕ → ℕ) (r : Rxn) : ℕ → ℝ :=
  let c := r.products.foldl (fun c x =>
    Function.update c (phOf x.1) (c (phOf x.1) + x.2 * chargeOf ps phOf x.1)) (fun _ => 0)
  r.reactants.foldl (fun c x =>
    Function.update c (phOf x.1) (c (phOf x.1) - x.2 * chargeOf ps phOf x.1)) c

open Classical in
/-- `Reaction::usesElectrochemistry` (Reaction.cpp:713-743). -/
noncomputable def usesElectro (ps : List IPhase) (phOf : ℕ → ℕ) (r : Rxn) : Bool :=
  (List.range ps.length).any (fun q => decide (|counter ps phOf r q| > 1e-4))

/-- `InterfaceRateBase::setContext` (InterfaceRate.cpp:278-310), charges. -/
noncomputable def Ctx.setContext (c : Ctx) (ps : List IPhase) (phOf : ℕ → ℕ) (r : Rxn) : Ctx :=
  if usesElectro ps phOf r = true then
    let st := r.reactants.map (fun x => (x.1, -x.2)) ++ r.products
    { c with ct := true, stoich := st,
             net := st.map (fun x => (phOf x.1, faraday * chargeOf ps phOf x.1 * x.2)) }
  else { c with ct := false }

/-- `m_deltaPotential_RT` (l. 254-261). -/
noncomputable def Ctx.dPot (c : Ctx) (ps : List IPhase) (RT : ℝ) : ℝ :=
  c.net.foldl (fun s x => s + ((ps[x.1]?).map IPhase.phi).getD 0 * x.2) 0 / RT

/-- `m_deltaGibbs0_RT` (l. 264-275). -/
noncomputable def Ctx.dGibbs (c : Ctx) (mu0 : ℕ → ℝ) (RT : ℝ) : ℝ :=
  c.stoich.foldl (fun s x => s + mu0 x.1 * x.2) 0 / RT

open Classical in
/-- `m_prodStandardConcentrations` (l. 266-273). -/
noncomputable def Ctx.prodC (c : Ctx) (c0 : ℕ → ℝ) : ℝ :=
  c.stoich.foldl (fun s x => if x.2 > 0 then s * c0 x.1 else s) 1

open Classical in
/-- `voltageCorrection` (InterfaceRate.h:162-185). -/
noncomputable def Ctx.correction (c : Ctx) (ps : List IPhase) (mu0 c0 : ℕ → ℝ) (RT : ℝ) : ℝ :=
  let v := if c.dPot ps RT ≠ 0 then Real.exp (-c.beta * c.dPot ps RT) else 1
  if c.exch then v * (Real.exp (-c.beta * c.dGibbs mu0 RT) / (c.prodC c0 * faraday)) else v

/-- `evalFromStruct` (InterfaceRate.h:418-425); `k` is the rate without correction. -/
noncomputable def Ctx.eval (c : Ctx) (ps : List IPhase) (mu0 c0 : ℕ → ℝ) (RT k : ℝ) : ℝ :=
  if c.ct then k * c.correction ps mu0 c0 RT else k

/-! ## Lemmas -/

theorem foldl_sum {α : Type} (l : List α) (f : α → ℝ) (s : ℝ) :
    l.foldl (fun s x => s + f x) s = s + (l.map f).sum := by
  induction l generalizing s with
  | nil => simp
  | cons x l ih => rw [List.foldl_cons, ih, List.map_cons, List.sum_cons]; ring

theorem sum_neg {α : Type} (l : List α) (f : α → ℝ) : (l.map (fun x => -f x)).sum = -(l.map f).sum := by
  induction l with
  | nil => simp
  | cons x l ih => simp only [List.map_cons, List.sum_cons, ih]; ring

theorem foldl_counter (phOf : ℕ → ℕ) (z : ℕ → ℝ) (l : List (ℕ × ℝ)) (c : ℕ → ℝ) (sg : ℝ) (q : ℕ) :
    l.foldl (fun c x => Function.update c (phOf x.1) (c (phOf x.1) + sg * (x.2 * z x.1))) c q =
      c q + sg * (l.map (fun x => x.2 * (if phOf x.1 = q then z x.1 else 0))).sum := by
  induction l generalizing c with
  | nil => simp
  | cons x l ih =>
    rw [List.foldl_cons, ih, List.map_cons, List.sum_cons, Function.update_apply]
    by_cases e : q = phOf x.1
    · subst e; simp; ring
    · rw [if_neg e, if_neg (fun h => e h.symm)]; simp

/-- Net charge transferred to phase `q`. -/
theorem counter_eq (ps : List IPhase) (phOf : ℕ → ℕ) (r : Rxn) (q : ℕ) :
    counter ps phOf r q = r.delta (fun k => if phOf k = q then chargeOf ps phOf k else 0) := by
  have h1 := foldl_counter phOf (chargeOf ps phOf) r.products (fun _ => 0) 1 q
  simp only [one_mul, zero_add] at h1
  have h2 := foldl_counter phOf (chargeOf ps phOf) r.reactants
    (r.products.foldl (fun c x =>
      Function.update c (phOf x.1) (c (phOf x.1) + x.2 * chargeOf ps phOf x.1)) (fun _ => 0)) (-1) q
  have e : (fun (c : ℕ → ℝ) (x : ℕ × ℝ) =>
      Function.update c (phOf x.1) (c (phOf x.1) - x.2 * chargeOf ps phOf x.1)) = (fun c x =>
      Function.update c (phOf x.1) (c (phOf x.1) + -1 * (x.2 * chargeOf ps phOf x.1))) := by
    funext c x; congr 1; ring
  rw [counter]
  simp only [e]
  rw [h2, h1, Rxn.delta]
  ring

/-- `phOf` assigns the right phases. -/
def PhOK (ps : List IPhase) (phOf : ℕ → ℕ) : Prop :=
  ∀ n p k, ps[n]? = some p → k < p.n → phOf (startAt ps n + k) = n

theorem chargeOf_at (ps : List IPhase) (phOf : ℕ → ℕ) (hp : PhOK ps phOf) (n : ℕ) (p : IPhase) (k : ℕ)
    (h : ps[n]? = some p) (hk : k < p.n) : chargeOf ps phOf (startAt ps n + k) = p.charge k := by
  simp only [chargeOf, hp n p k h hk, h]
  congr 1; omega

/-- Electric potential energy of the species (InterfaceRate.h:146-154). -/
def IsEnergy (ps : List IPhase) (E : ℕ → ℝ) : Prop :=
  IsGather ps (fun _ p j => faraday * p.phi * p.charge j) E

theorem energy_eq (ps : List IPhase) (phOf : ℕ → ℕ) (hp : PhOK ps phOf) (E : ℕ → ℝ) (hE : IsEnergy ps E)
    (r : Rxn) (hin : Rxn.InRange ps r) : ∀ x ∈ r.reactants ++ r.products,
    E x.1 = ((ps[phOf x.1]?).map IPhase.phi).getD 0 * (faraday * chargeOf ps phOf x.1) := by
  intro x hx
  obtain ⟨n, p, k, h1, h2, h3⟩ := hin x hx
  rw [h3, hE n p k h1 h2, hp n p k h1 h2, chargeOf_at ps phOf hp n p k h1 h2, h1]
  simp only [Option.map_some, Option.getD_some]
  ring

theorem dPot_eq (c : Ctx) (ps : List IPhase) (phOf : ℕ → ℕ) (hp : PhOK ps phOf) (E : ℕ → ℝ)
    (hE : IsEnergy ps E) (r : Rxn) (hin : Rxn.InRange ps r) (RT : ℝ)
    (hct : usesElectro ps phOf r = true) :
    (c.setContext ps phOf r).dPot ps RT = r.delta E / RT := by
  rw [Ctx.setContext, if_pos hct]
  simp only [Ctx.dPot]
  rw [foldl_sum, zero_add]
  congr 1
  simp only [List.map_append, List.map_map, List.sum_append, Rxn.delta]
  have he := energy_eq ps phOf hp E hE r hin
  have e1 : r.products.map ((fun x : ℕ × ℝ => ((ps[x.1]?).map IPhase.phi).getD 0 * x.2) ∘
      fun x : ℕ × ℝ => (phOf x.1, faraday * chargeOf ps phOf x.1 * x.2)) =
      r.products.map (fun x => x.2 * E x.1) := by
    apply List.map_congr_left
    intro x hx
    rw [he x (by simp [hx])]
    simp only [Function.comp]
    ring
  have e2 : (r.reactants.map (((fun x : ℕ × ℝ => ((ps[x.1]?).map IPhase.phi).getD 0 * x.2) ∘
      fun x : ℕ × ℝ => (phOf x.1, faraday * chargeOf ps phOf x.1 * x.2)) ∘ fun x : ℕ × ℝ => (x.1, -x.2))).sum =
      -(r.reactants.map (fun x => x.2 * E x.1)).sum := by
    rw [← sum_neg]
    congr 1
    apply List.map_congr_left
    intro x hx
    rw [he x (by simp [hx])]
    simp only [Function.comp]
    ring
  rw [e1]
  rw [Function.comp_assoc] at e2
  rw [e2]
  ring

theorem energy_phases (ps : List IPhase) (phOf : ℕ → ℕ) (hp : PhOK ps phOf) (E : ℕ → ℝ) (hE : IsEnergy ps E)
    (r : Rxn) (hin : Rxn.InRange ps r) :
    r.delta E = ∑ q ∈ Finset.range ps.length, faraday * ((ps[q]?).map IPhase.phi).getD 0 *
      counter ps phOf r q := by
  have he := energy_eq ps phOf hp E hE r hin
  have h1 : r.delta E = r.delta (fun k => ∑ q ∈ Finset.range ps.length,
      faraday * ((ps[q]?).map IPhase.phi).getD 0 * (if phOf k = q then chargeOf ps phOf k else 0)) := by
    apply delta_congr
    intro x hx
    obtain ⟨n, p, k, h1, h2, h3⟩ := hin x hx
    have hn : n < ps.length := (List.getElem?_eq_some_iff.1 h1).1
    rw [he x hx, Finset.sum_eq_single (phOf x.1)]
    · rw [if_pos rfl]; ring
    · intro q _ hq; rw [if_neg (Ne.symm hq), mul_zero]
    · intro h; rw [h3, hp n p k h1 h2] at h; exact absurd (Finset.mem_range.2 hn) h
  rw [h1, delta_sum]
  refine Finset.sum_congr rfl fun q _ => ?_
  have := delta_lin r (fun _ => 0) (fun k => if phOf k = q then chargeOf ps phOf k else 0)
    (faraday * ((ps[q]?).map IPhase.phi).getD 0)
  simp only [zero_add] at this
  rw [this, counter_eq]
  simp [Rxn.delta]

/-- Charges transferred to a phase are either zero or at least the tolerance of the code, as is the case for integer
charges and coefficients. -/
def Resolved (ps : List IPhase) (phOf : ℕ → ℕ) (r : Rxn) : Prop :=
  ∀ q < ps.length, counter ps phOf r q = 0 ∨ |counter ps phOf r q| > 1e-4

theorem uses_iff (ps : List IPhase) (phOf : ℕ → ℕ) (r : Rxn) :
    usesElectro ps phOf r = true ↔ ∃ q < ps.length, |counter ps phOf r q| > 1e-4 := by
  simp [usesElectro, List.any_eq_true]

theorem correction_plain (c : Ctx) (ps : List IPhase) (mu0 c0 : ℕ → ℝ) (RT : ℝ) (h : c.exch = false) :
    c.correction ps mu0 c0 RT = Real.exp (-c.beta * c.dPot ps RT) := by
  rw [Ctx.correction]
  simp only [h, Bool.false_eq_true, if_false]
  by_cases e : c.dPot ps RT = 0
  · rw [if_neg (by simpa using e), e]; simp
  · rw [if_pos e]

theorem correction_exch (c : Ctx) (ps : List IPhase) (mu0 c0 : ℕ → ℝ) (RT : ℝ) (h : c.exch = true) :
    c.correction ps mu0 c0 RT = Real.exp (-c.beta * c.dPot ps RT) *
      (Real.exp (-c.beta * c.dGibbs mu0 RT) / (c.prodC c0 * faraday)) := by
  rw [Ctx.correction]
  simp only [h, if_true]
  by_cases e : c.dPot ps RT = 0
  · rw [if_neg (by simpa using e), e]; simp
  · rw [if_pos e]

/-! ## Voltage correction -/

/-- C60: the forward rate constant is `k exp(-β ΔE/RT)` with `ΔE = Σ ν F φ z` over all species, whether or not the
reaction is recognized as charge transfer reaction. -/
theorem voltage_correction (c : Ctx) (hx : c.exch = false) (ps : List IPhase) (phOf : ℕ → ℕ)
    (hp : PhOK ps phOf) (E : ℕ → ℝ) (hE : IsEnergy ps E) (r : Rxn) (hin : Rxn.InRange ps r)
    (hres : Resolved ps phOf r) (mu0 c0 : ℕ → ℝ) (RT k : ℝ) :
    (c.setContext ps phOf r).eval ps mu0 c0 RT k = k * Real.exp (-c.beta * (r.delta E / RT)) := by
  by_cases hct : usesElectro ps phOf r = true
  · have h1 := dPot_eq c ps phOf hp E hE r hin RT hct
    have hc : (c.setContext ps phOf r).ct = true := by rw [Ctx.setContext, if_pos hct]
    have hb : (c.setContext ps phOf r).beta = c.beta := by rw [Ctx.setContext, if_pos hct]
    have hxx : (c.setContext ps phOf r).exch = false := by rw [Ctx.setContext, if_pos hct]; exact hx
    rw [Ctx.eval, if_pos hc, correction_plain _ _ _ _ _ hxx, h1, hb]
  · have hc : (c.setContext ps phOf r).ct = false := by rw [Ctx.setContext, if_neg hct]
    have h0 : r.delta E = 0 := by
      rw [energy_phases ps phOf hp E hE r hin]
      refine Finset.sum_eq_zero fun q hq => ?_
      rcases hres q (Finset.mem_range.1 hq) with h | h
      · rw [h, mul_zero]
      · exact absurd ((uses_iff ps phOf r).2 ⟨q, Finset.mem_range.1 hq, h⟩) hct
    rw [Ctx.eval, hc, h0]
    simp

/-- Rate of progress of a charge transfer reaction (C57) as function of the potential energy. -/
theorem transfer_rates (ps : List IPhase) (r : Rxn) (hin : Rxn.InRange ps r) (E : ℕ → ℝ)
    (hE : IsEnergy ps E) (mc : ℕ → ℝ) (RT : ℝ)
    (hmc : IsGather ps (fun _ p j => p.mu0 j - RT * p.logc0 j) mc) (old : ℕ → ℝ) :
    r.delta (muKc ps RT old) = r.delta mc + r.delta E := by
  have := delta_lin r mc E 1
  simp only [one_mul] at this
  rw [← this]
  apply delta_congr
  intro x hx
  obtain ⟨n, p, k, h1, h2, h3⟩ := hin x hx
  rw [h3, muKc_at ps RT old n p h1 k h2, hmc n p k h1 h2, hE n p k h1 h2]
  ring

/-- C60: for every reversible reaction between phases at any electric potentials, with all phases existing, the rates computed
by the kinetics object from the voltage corrected rate constant are the documented ones
(doc/sphinx/reference/kinetics/reaction-rates.md:143-162): barriers shifted by `β ΔE` forwards and `(1-β) ΔE` backwards. -/
theorem charge_transfer_rates {np : ℕ} {phOf : ℕ → ℕ} {rs : List Rxn} {ops : List POp} {I : IK}
    (hv : ∀ r ∈ rs, r.OK) (hI : IBuilt np phOf rs ops I) (hex : ∀ p < np, I.ex p = true)
    (ps : List IPhase) (hp : PhOK ps phOf) (E : ℕ → ℝ) (hE : IsEnergy ps E) (RT : ℝ) (mc : ℕ → ℝ)
    (hmc : IsGather ps (fun _ p j => p.mu0 j - RT * p.logc0 j) mc)
    (i : ℕ) (r : Rxn) (hr : rs[i]? = some r) (hin : Rxn.InRange ps r) (hrev : r.reversible = true)
    (hres : Resolved ps phOf r) (c : Ctx) (hx : c.exch = false) (k : ℝ)
    (act mu0 c0 old rfn : ℕ → ℝ) (hc : r.ConcOK act)
    (hk : rfn i = (c.setContext ps phOf r).eval ps mu0 c0 RT k) :
    ∃ R, I.updateROP RT (muKc ps RT old) act rfn (fun _ => 1) = .ok R ∧
      R.ropf i = k * Real.exp (-c.beta * (r.delta E / RT)) * powProd r.effOrders act ∧
      R.ropr i = k * Real.exp (r.delta mc / RT) * Real.exp ((1 - c.beta) * (r.delta E / RT)) *
        powProd r.products act := by
  obtain ⟨R, hR, h⟩ := interface_rates hv hI hex RT (muKc ps RT old) act rfn (fun _ => 1)
  obtain ⟨h1, h2, -⟩ := h i r hr hc
  refine ⟨R, hR, ?_, ?_⟩
  · rw [h1, hk, voltage_correction c hx ps phOf hp E hE r hin hres, mul_one]
  · rw [h2, if_pos hrev, hk, voltage_correction c hx ps phOf hp E hE r hin hres, mul_one,
      transfer_rates ps r hin E hE mc RT hmc old]
    have : Real.exp (-c.beta * (r.delta E / RT)) * Real.exp ((r.delta mc + r.delta E) / RT) =
        Real.exp (r.delta mc / RT) * Real.exp ((1 - c.beta) * (r.delta E / RT)) := by
      rw [← Real.exp_add, ← Real.exp_add]; congr 1; ring
    linear_combination k * powProd r.products act * this

/-- The Butler–Volmer form of two exponentials. -/
theorem bv (P Q beta x : ℝ) (hP : 0 < P) (hQ : 0 < Q) :
    P * Real.exp (-beta * x) - Q * Real.exp ((1 - beta) * x) =
      P ^ (1 - beta) * Q ^ beta * (Real.exp (-beta * (x - Real.log (P / Q))) -
        Real.exp ((1 - beta) * (x - Real.log (P / Q)))) := by
  obtain ⟨u, rfl⟩ : ∃ u, P = Real.exp u := ⟨Real.log P, (Real.exp_log hP).symm⟩
  obtain ⟨w, rfl⟩ : ∃ w, Q = Real.exp w := ⟨Real.log Q, (Real.exp_log hQ).symm⟩
  rw [← Real.exp_sub, Real.log_exp, ← Real.exp_mul, ← Real.exp_mul, mul_sub, ← Real.exp_add, ← Real.exp_add,
    ← Real.exp_add, ← Real.exp_add, ← Real.exp_add]
  congr 2 <;> ring

/-- C60: the net rate has the documented Butler–Volmer form (reaction-rates.md:178-200): with
`k_r = k exp(Δ(μ°-RT ln c°)/RT)`, the exchange rate `i₀/(nF) = k^(1-β) k_r^β Π C^((1-β)ν') Π C^(βν'')` and the overpotential
energy `ΔE - ΔE_equil`. -/
theorem butler_volmer {np : ℕ} {phOf : ℕ → ℕ} {rs : List Rxn} {ops : List POp} {I : IK}
    (hv : ∀ r ∈ rs, r.OK) (hI : IBuilt np phOf rs ops I) (hex : ∀ p < np, I.ex p = true)
    (ps : List IPhase) (hp : PhOK ps phOf) (E : ℕ → ℝ) (hE : IsEnergy ps E) (RT : ℝ) (mc : ℕ → ℝ)
    (hmc : IsGather ps (fun _ p j => p.mu0 j - RT * p.logc0 j) mc)
    (i : ℕ) (r : Rxn) (hr : rs[i]? = some r) (hin : Rxn.InRange ps r) (hrev : r.reversible = true)
    (hord : r.orders = []) (hres : Resolved ps phOf r) (c : Ctx) (hx : c.exch = false) (k : ℝ) (hk0 : 0 < k)
    (act mu0 c0 old rfn : ℕ → ℝ) (hc : ∀ x ∈ r.reactants ++ r.products, 0 < act x.1)
    (hk : rfn i = (c.setContext ps phOf r).eval ps mu0 c0 RT k) :
    let kr := k * Real.exp (r.delta mc / RT)
    let eq := Real.log (k * powProd r.reactants act / (kr * powProd r.products act))
    ∃ R, I.updateROP RT (muKc ps RT old) act rfn (fun _ => 1) = .ok R ∧
      R.ropnet i = k ^ (1 - c.beta) * kr ^ c.beta * (powProd r.reactants act) ^ (1 - c.beta) *
        (powProd r.products act) ^ c.beta *
        (Real.exp (-c.beta * (r.delta E / RT - eq)) - Real.exp ((1 - c.beta) * (r.delta E / RT - eq))) := by
  intro kr eq
  have heff : r.effOrders = r.reactants := by rw [Rxn.effOrders, hord]; simp
  have hco : r.ConcOK act := by
    refine ⟨?_, fun x hx => (hc x (by simp [hx])).le⟩
    rw [heff]; intro x hx; exact Or.inl (hc x (by simp [hx]))
  obtain ⟨R, hR, h1, h2⟩ := charge_transfer_rates hv hI hex ps hp E hE RT mc hmc i r hr hin hrev hres c hx k act
    mu0 c0 old rfn hco hk
  refine ⟨R, hR, ?_⟩
  have hn := (rop_consistent hv hI RT _ _ _ _ R hR i r hr).1
  have pos : ∀ l : List (ℕ × ℝ), (∀ x ∈ l, 0 < act x.1) → 0 < powProd l act := by
    intro l hl
    rw [powProd_exp l act hl]; exact Real.exp_pos _
  have hP := pos r.reactants (fun x hx => hc x (by simp [hx]))
  have hQ := pos r.products (fun x hx => hc x (by simp [hx]))
  have hkr : 0 < kr := mul_pos hk0 (Real.exp_pos _)
  have := bv (k * powProd r.reactants act) (kr * powProd r.products act) c.beta (r.delta E / RT)
    (mul_pos hk0 hP) (mul_pos hkr hQ)
  rw [hn, h1, h2, heff, show k * Real.exp (-c.beta * (r.delta E / RT)) * powProd r.reactants act -
    k * Real.exp (r.delta mc / RT) * Real.exp ((1 - c.beta) * (r.delta E / RT)) * powProd r.products act =
    k * powProd r.reactants act * Real.exp (-c.beta * (r.delta E / RT)) -
    kr * powProd r.products act * Real.exp ((1 - c.beta) * (r.delta E / RT)) by simp only [kr]; ring, this,
    Real.mul_rpow hk0.le hP.le, Real.mul_rpow hkr.le hQ.le]
  simp only [eq]
  ring

theorem elec_ph : PhOK elecPhases (fun k => if k = 0 then 0 else 1) := by
  intro n p k h hk
  match n with
  | 0 =>
    simp [elecPhases] at h; subst h
    simp [startAt] at hk ⊢; exact hk
  | 1 => simp [elecPhases] at h; subst h; simp [startAt, elecPhases]
  | n + 2 => simp [elecPhases] at h

/-- Energies of the example: the ion at potential 1. -/
noncomputable def elecE (k : ℕ) : ℝ := if k = 1 then faraday else 0

theorem elecE_ok : IsEnergy elecPhases elecE := by
  intro n p k h hk
  match n with
  | 0 =>
    simp [elecPhases] at h; subst h
    have : k = 0 := by simpa using hk
    subst this; simp [startAt, elecE]
  | 1 =>
    simp [elecPhases] at h; subst h
    have : k = 0 ∨ k = 1 := by simp at hk; omega
    rcases this with rfl | rfl <;> simp [startAt, elecPhases, elecE]
  | n + 2 => simp [elecPhases] at h

theorem elec_mc : IsGather elecPhases (fun _ p j => p.mu0 j - 1 * p.logc0 j) (fun _ => 0) := by
  intro n p k h hk
  match n with
  | 0 => simp [elecPhases] at h; subst h; simp
  | 1 => simp [elecPhases] at h; subst h; simp
  | n + 2 => simp [elecPhases] at h

theorem elec_counter (q : ℕ) : counter elecPhases (fun k => if k = 0 then 0 else 1) elecRxns[0] q =
    if q = 0 then 1 else if q = 1 then -1 else 0 := by
  rw [counter_eq]
  match q with
  | 0 => simp [elecRxns, Rxn.delta, chargeOf, elecPhases, startAt]
  | 1 => simp [elecRxns, Rxn.delta, chargeOf, elecPhases, startAt]
  | q + 2 => simp [elecRxns, Rxn.delta]

theorem elec_res : Resolved elecPhases (fun k => if k = 0 then 0 else 1) elecRxns[0] := by
  intro q hq
  rw [elec_counter]
  have : q = 0 ∨ q = 1 := by simp [elecPhases] at hq; omega
  rcases this with rfl | rfl <;> norm_num

/-- An electron transfer with β = 1/2 at unit activities. -/
example : ∃ I R, IBuilt 2 (fun k => if k = 0 then 0 else 1) elecRxns [] I ∧
    I.updateROP 1 (muKc elecPhases 1 (fun _ => 0)) (fun _ => 1)
      (fun _ => ((⟨false, false, 1 / 2, [], []⟩ : Ctx).setContext elecPhases (fun k => if k = 0 then 0 else 1)
        elecRxns[0]).eval elecPhases (fun _ => 0) (fun _ => 1) 1 3) (fun _ => 1) = .ok R ∧
    R.ropf 0 = 3 * Real.exp (1 / 2 * faraday) ∧ R.ropr 0 = 3 * Real.exp (-(1 / 2 * faraday)) := by
  obtain ⟨I0, h0⟩ := ik_addAll_ok (fun k => if k = 0 then 0 else 1) elecRxns elecRxns_ok (IK.new 2)
  have hI : IBuilt 2 (fun k => if k = 0 then 0 else 1) elecRxns [] I0 := ⟨I0, h0, rfl⟩
  have hx := (ik_addAll _ _ _ _ h0).2.2.1
  have hone : elecRxns[0].ConcOK (fun _ => 1) := ⟨fun x _ => Or.inl one_pos, fun x _ => zero_le_one⟩
  obtain ⟨R, hR, h1, h2⟩ := charge_transfer_rates elecRxns_ok hI (fun p _ => by rw [hx]; rfl) elecPhases elec_ph
    elecE elecE_ok 1 (fun _ => 0) elec_mc 0 elecRxns[0] rfl (elec_in _ (by simp [elecRxns])) rfl elec_res
    ⟨false, false, 1 / 2, [], []⟩ rfl 3 (fun _ => 1) (fun _ => 0) (fun _ => 1) (fun _ => 0)
    (fun _ => ((⟨false, false, 1 / 2, [], []⟩ : Ctx).setContext elecPhases (fun k => if k = 0 then 0 else 1)
        elecRxns[0]).eval elecPhases (fun _ => 0) (fun _ => 1) 1 3) hone rfl
  refine ⟨I0, R, hI, hR, ?_, ?_⟩
  · rw [h1]; norm_num [Rxn.delta, elecRxns, elecE, powProd, Rxn.effOrders]
  · rw [h2]; norm_num [Rxn.delta, elecRxns, elecE, powProd, Rxn.effOrders]

/-! ## Exchange current density -/

open Classical in
theorem foldl_prodC (c0 : ℕ → ℝ) (l : List (ℕ × ℝ)) (s : ℝ) (h : ∀ x ∈ l, 0 < x.2) :
    l.foldl (fun s x => if x.2 > 0 then s * c0 x.1 else s) s = s * (l.map (fun x => c0 x.1)).prod := by
  induction l generalizing s with
  | nil => simp
  | cons x l ih =>
    rw [List.foldl_cons, if_pos (h x (by simp)), ih _ (fun y hy => h y (by simp [hy])), List.map_cons,
      List.prod_cons]; ring

open Classical in
theorem foldl_prodC_neg (c0 : ℕ → ℝ) (l : List (ℕ × ℝ)) (s : ℝ) (h : ∀ x ∈ l, x.2 ≤ 0) :
    l.foldl (fun s x => if x.2 > 0 then s * c0 x.1 else s) s = s := by
  induction l generalizing s with
  | nil => simp
  | cons x l ih =>
    rw [List.foldl_cons, if_neg (not_lt.2 (h x (by simp))), ih _ (fun y hy => h y (by simp [hy]))]

/-- C60, partial: rate constant in the exchange current density formulation. At the potential where the reaction is at equilibrium with all activities one
(`ΔE = -ΔG°`), the forward rate of progress times the Faraday constant is `A Π_reactants c°^ν' / Π_products c°`:
the number of electrons and the stoichiometric coefficients of the products do not enter, and the standard concentrations
of the products, not those of the reactants, are divided out. -/
theorem exchange_current_partial (c : Ctx) (hx : c.exch = true) (ps : List IPhase) (phOf : ℕ → ℕ)
    (hp : PhOK ps phOf) (E : ℕ → ℝ) (hE : IsEnergy ps E) (r : Rxn) (hok : r.OK) (hin : Rxn.InRange ps r)
    (hpos : ∀ x ∈ r.products, 0 < x.2)
    (hct : usesElectro ps phOf r = true) (mu0 c0 : ℕ → ℝ) (RT A : ℝ)
    (heq : r.delta E = -(r.delta mu0)) :
    (c.setContext ps phOf r).eval ps mu0 c0 RT A * powProd r.reactants c0 * faraday =
      A * powProd r.reactants c0 / (r.products.map (fun x => c0 x.1)).prod := by
  have h1 := dPot_eq c ps phOf hp E hE r hin RT hct
  have hc : (c.setContext ps phOf r).ct = true := by rw [Ctx.setContext, if_pos hct]
  have hb : (c.setContext ps phOf r).beta = c.beta := by rw [Ctx.setContext, if_pos hct]
  have hxx : (c.setContext ps phOf r).exch = true := by rw [Ctx.setContext, if_pos hct]; exact hx
  have hst : (c.setContext ps phOf r).stoich = r.reactants.map (fun x => (x.1, -x.2)) ++ r.products := by
    rw [Ctx.setContext, if_pos hct]
  have hg : (c.setContext ps phOf r).dGibbs mu0 RT = r.delta mu0 / RT := by
    rw [Ctx.dGibbs, hst, foldl_sum, zero_add]
    congr 1
    simp only [List.map_append, List.map_map, List.sum_append, Rxn.delta]
    have e2 : (r.reactants.map ((fun x : ℕ × ℝ => mu0 x.1 * x.2) ∘ fun x : ℕ × ℝ => (x.1, -x.2))).sum =
        -(r.reactants.map (fun x => x.2 * mu0 x.1)).sum := by
      rw [← sum_neg]
      congr 1
      apply List.map_congr_left
      intro x _
      simp only [Function.comp]
      ring
    rw [e2]
    have e3 : r.products.map (fun x => mu0 x.1 * x.2) = r.products.map (fun x => x.2 * mu0 x.1) :=
      List.map_congr_left fun x _ => mul_comm _ _
    rw [e3]; ring
  have hpc : (c.setContext ps phOf r).prodC c0 = (r.products.map (fun x => c0 x.1)).prod := by
    rw [Ctx.prodC, hst, List.foldl_append, foldl_prodC _ _ _ hpos, foldl_prodC_neg, one_mul]
    intro x hx
    obtain ⟨y, hy, rfl⟩ := List.mem_map.1 hx
    simpa using hok.rnonneg y hy
  have hF : faraday ≠ 0 := by norm_num [faraday]
  have hv : Real.exp (-c.beta * (-(r.delta mu0) / RT)) = Real.exp (c.beta * (r.delta mu0 / RT)) := by
    congr 1; ring
  rw [Ctx.eval, if_pos hc, correction_exch _ _ _ _ _ hxx, h1, hg, hpc, hb, heq, hv]
  have hee : Real.exp (c.beta * (r.delta mu0 / RT)) * Real.exp (-c.beta * (r.delta mu0 / RT)) = 1 := by
    rw [← Real.exp_add]; simp
  calc A * (Real.exp (c.beta * (r.delta mu0 / RT)) * (Real.exp (-c.beta * (r.delta mu0 / RT)) /
        ((r.products.map (fun x => c0 x.1)).prod * faraday))) * powProd r.reactants c0 * faraday
      = A * powProd r.reactants c0 * (Real.exp (c.beta * (r.delta mu0 / RT)) *
          Real.exp (-c.beta * (r.delta mu0 / RT))) * (faraday / faraday) /
          (r.products.map (fun x => c0 x.1)).prod := by
        rw [← div_div]; ring
    _ = _ := by rw [hee, div_self hF]; ring

theorem elec_uses : usesElectro elecPhases (fun k => if k = 0 then 0 else 1) elecRxns[0] = true := by
  rw [uses_iff]
  exact ⟨0, by simp [elecPhases], by rw [elec_counter]; norm_num⟩

/-- C60, negation: the constant given in this formulation is not the exchange current density in general: for
`e- + M+ <=> M` with one electron, standard concentrations 5 for the ion and 1 otherwise, unit activities and the
equilibrium potential, the exchange current `n F R_f` is five times the constant. -/
theorem exchange_current_not_constant : ∃ (c : Ctx) (c0 mu0 : ℕ → ℝ), c.exch = true ∧
    elecRxns[0].delta elecE = -(elecRxns[0].delta mu0) ∧
    1 * faraday * ((c.setContext elecPhases (fun k => if k = 0 then 0 else 1) elecRxns[0]).eval elecPhases mu0 c0
      1 2 * powProd elecRxns[0].reactants c0) = 5 * 2 := by
  refine ⟨⟨false, true, 1 / 2, [], []⟩, fun k => if k = 1 then 5 else 1, fun k => if k = 2 then faraday else 0,
    rfl, by simp [elecRxns, Rxn.delta, elecE], ?_⟩
  have := exchange_current_partial ⟨false, true, 1 / 2, [], []⟩ rfl elecPhases (fun k => if k = 0 then 0 else 1)
    elec_ph elecE elecE_ok elecRxns[0] (elecRxns_ok _ (by simp [elecRxns])) (elec_in _ (by simp [elecRxns]))
    (by intro x hx; simp [elecRxns] at hx; subst hx; norm_num) elec_uses
    (fun k => if k = 2 then faraday else 0) (fun k => if k = 1 then 5 else 1) 1 2
    (by simp [elecRxns, Rxn.delta, elecE])
  have e : (2 : ℝ) * powProd elecRxns[0].reactants (fun k => if k = 1 then 5 else 1) /
      (elecRxns[0].products.map (fun x => if x.1 = 1 then (5 : ℝ) else 1)).prod = 5 * 2 := by
    norm_num [elecRxns, powProd]
  rw [← e, ← this]
  ring

end Verif.Rates.Electro
