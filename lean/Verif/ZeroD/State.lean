import Verif.ZeroD.Mass
import Mathlib.Algebra.BigOperators.Field
import Mathlib.Data.List.Range

/-!
# State vector and flow rates of a reactor network (C52)

Modelled: `updateState` and `getState` of the eight lumped reactor types (src/zeroD/Reactor.cpp:50-83,
128-210, ConstPressureReactor.cpp:17-60, IdealGasReactor.cpp:27-70,
IdealGasConstPressureReactor.cpp:27-66, MoleReactor.cpp:21-59, 141-223,
ConstPressureMoleReactor.cpp:18-56, IdealGasMoleReactor.cpp:29-94,
IdealGasConstPressureMoleReactor.cpp:29-63), `ReactorNet::updateState`, `getState`
(src/zeroD/ReactorNet.cpp:437-443, 484-489), and the flow devices (src/zeroD/flowControllers.cpp).

Oracles: the equation of state of each phase and the solution of its inversions (the root finding of
Reactor.cpp:140-167, `setState_HP`, `setState_TP`); they are functions of the arguments given, that
is, the influence of the starting temperature within the solver's tolerance is not modelled.
`saveState`/`restoreState` of a phase copy temperature, density and mass fractions.
Not modelled: exceptions thrown on the way, `checkFinite`, walls (they only store the time).
-/

open Finset

namespace Verif.ZeroD.State

/-- State of a phase. -/
structure Ph where
  T : ℝ
  D : ℝ
  Y : ℕ → ℝ

/-- What the reactors use of a phase. `solveU Y rho m U` is the temperature at which the mass `m` of
density `rho` has internal energy `U`; `solveHP Y h p` temperature and density; `solveTP Y T p` the
density. -/
structure Eos where
  nsp : ℕ
  mw : ℕ → ℝ
  pres : Ph → ℝ
  u : Ph → ℝ
  h : Ph → ℝ
  solveU : (ℕ → ℝ) → ℝ → ℝ → ℝ → ℝ
  solveHP : (ℕ → ℝ) → ℝ → ℝ → ℝ × ℝ
  solveTP : (ℕ → ℝ) → ℝ → ℝ → ℝ

/-- Settings of a reactor: its phase `phase`, first component `start` (`m_start[n]`), number of
surface components, and for each of these the moles per unit coverage, `area · density / size`
(MoleReactor.cpp:25-33). -/
structure Rc where
  kind : Kind
  phase : ℕ
  energy : Bool
  start : ℕ
  nsurf : ℕ
  scale : ℕ → ℝ

/-- Mutable contents of a reactor: `m_mass`, `m_vol`, `m_pressure`, `m_state`, coverages of its
surfaces. -/
structure Rs where
  mass : ℝ
  vol : ℝ
  press : ℝ
  saved : Ph
  cov : ℕ → ℝ

/-- Index of the first species (`m_sidx` for mole-based types, include/cantera/zeroD/MoleReactor.h:62,
ConstPressureMoleReactor.h:42). -/
def sidx (kd : Kind) : ℕ :=
  if kd.massBased then (if kd.constV then 3 else 2) else (if kd.constV then 2 else 1)

/-- Index of energy, enthalpy or temperature. -/
def eidx (kd : Kind) : ℕ := if kd.massBased then (if kd.constV then 2 else 1) else 0

/-- Number of components, `m_nv` (Reactor.cpp:101-109, ConstPressureReactor.cpp:42,
MoleReactor.cpp:41, ConstPressureMoleReactor.cpp:38). -/
def nv (c : Rc) (e : Eos) : ℕ := sidx c.kind + e.nsp + c.nsurf

/-- Mass from the state vector: `y[0]`, or `setMassFromMoles` (MoleReactor.cpp:151-159). -/
noncomputable def massOf (c : Rc) (e : Eos) (y : ℕ → ℝ) : ℝ :=
  if c.kind.massBased then y 0 else ∑ k ∈ range e.nsp, y (sidx c.kind + k) * e.mw k

/-- Mass fractions: `setMassFractions_NoNorm` (Phase.cpp:355-364) or `setMolesNoTruncate`
(Phase.cpp:528-545). -/
noncomputable def fracOf (c : Rc) (e : Eos) (y : ℕ → ℝ) (k : ℕ) : ℝ :=
  if c.kind.massBased then y (sidx c.kind + k)
  else y (sidx c.kind + k) * e.mw k / ∑ j ∈ range e.nsp, y (sidx c.kind + j) * e.mw j

/-- The part of `updateState` before `updateConnected`, with its first part (Reactor.cpp:185-192):
the new state of the phase (current state `p`) and of the reactor. -/
noncomputable def newRx (c : Rc) (e : Eos) (y : ℕ → ℝ) (p : Ph) (r : Rs) : Ph × Rs :=
  let m := massOf c e y
  let Y := fracOf c e y
  let cov := fun j => if c.kind.massBased then y (sidx c.kind + e.nsp + j)
    else y (sidx c.kind + e.nsp + j) / c.scale j
  if c.kind.constV then
    let V := y 1
    let T := if c.kind.thermal then y (eidx c.kind)
      else if c.energy then e.solveU Y (m / V) m (y (eidx c.kind)) else p.T
    let q : Ph := ⟨T, m / V, Y⟩
    (q, ⟨m, V, e.pres q, q, cov⟩)
  else
    let TD : ℝ × ℝ := if c.kind.thermal then
        (y (eidx c.kind), e.solveTP Y (y (eidx c.kind)) r.press)
      else if c.energy then e.solveHP Y (y (eidx c.kind) / m) r.press
      else (p.T, e.solveTP Y p.T r.press)
    let q : Ph := ⟨TD.1, TD.2, Y⟩
    (q, ⟨m, m / TD.2, r.press, q, cov⟩)

/-- `getState`: component `j`. -/
noncomputable def getState (c : Rc) (e : Eos) (r : Rs) (j : ℕ) : ℝ :=
  let m := r.saved.D * r.vol
  if c.kind.massBased = true ∧ j = 0 then m
  else if c.kind.constV = true ∧ j = 1 then r.vol
  else if j = eidx c.kind then
    if c.kind.thermal then r.saved.T
    else if c.kind.constV then e.u r.saved * m else e.h r.saved * r.saved.D * r.vol
  else if j < sidx c.kind + e.nsp then
    if c.kind.massBased then r.saved.Y (j - sidx c.kind)
    else m * (1 / e.mw (j - sidx c.kind)) * r.saved.Y (j - sidx c.kind)
  else
    if c.kind.massBased then r.cov (j - (sidx c.kind + e.nsp))
    else r.cov (j - (sidx c.kind + e.nsp)) * c.scale (j - (sidx c.kind + e.nsp))

/-! ## Flow devices -/

/-- Types of devices; a pressure controller has a primary device. -/
inductive DK
  | mfc | valve | control (primary : ℕ)

/-- A flow device: ends, coefficient, functions of time and pressure. -/
structure Dev where
  kind : DK
  src : ℕ
  dst : ℕ
  coeff : ℝ
  tf : Option (ℝ → ℝ)
  pf : Option (ℝ → ℝ)

/-- A network: reactors `0, …, n-1`; nodes from `n` on are reservoirs. -/
structure Net where
  n : ℕ
  rc : ℕ → Rc
  eos : ℕ → Eos
  nd : ℕ
  dev : ℕ → Dev

/-- Factor of a time function. -/
def timeFactor (d : Dev) (t : ℝ) : ℝ := match d.tf with | some g => g t | none => 1

/-- Pressure function or difference. -/
def pressFactor (d : Dev) (P : ℕ → ℝ) : ℝ :=
  match d.pf with | some f => f (P d.src - P d.dst) | none => P d.src - P d.dst

/-- `updateMassFlowRate` (flowControllers.cpp:21-69): the rates of all devices afterwards; `none`: more
than `fuel` nested calls. -/
noncomputable def updDev (N : Net) (P : ℕ → ℝ) (t : ℝ) : ℕ → ℕ → (ℕ → ℝ) → Option (ℕ → ℝ)
  | 0, _, _ => none
  | fuel + 1, d, m =>
    match (N.dev d).kind with
    | .mfc => some fun i => if i = d then max ((N.dev d).coeff * timeFactor (N.dev d) t) 0 else m i
    | .valve => some fun i => if i = d then
        max ((N.dev d).coeff * timeFactor (N.dev d) t * pressFactor (N.dev d) P) 0 else m i
    | .control p =>
      match updDev N P t fuel p m with
      | none => none
      | some m' => some fun i => if i = d then
          max ((N.dev d).coeff * pressFactor (N.dev d) P + m' p) 0 else m' i

/-- Outlets, then inlets of a reactor, in the order of their creation. -/
def attached (N : Net) (i : ℕ) : List ℕ :=
  (List.range N.nd).filter (fun d => (N.dev d).src = i) ++
    (List.range N.nd).filter fun d => (N.dev d).dst = i

/-- Second part of `updateConnected` (Reactor.cpp:199-206). -/
noncomputable def updDevs (N : Net) (P : ℕ → ℝ) (t : ℝ) (fuel : ℕ) :
    List ℕ → (ℕ → ℝ) → Option (ℕ → ℝ)
  | [], m => some m
  | d :: l, m =>
    match updDev N P t fuel d m with
    | none => none
    | some m' => updDevs N P t fuel l m'

/-- Everything that changes: phases, reactors and reservoirs, rates. -/
structure World where
  ph : ℕ → Ph
  rx : ℕ → Rs
  mdot : ℕ → ℝ

/-- Pressures as seen by the devices. -/
def World.P (w : World) (i : ℕ) : ℝ := (w.rx i).press

/-- `updateState` of reactor `i`; `y` the state vector of the network. -/
noncomputable def updRx (N : Net) (t : ℝ) (y : ℕ → ℝ) (fuel i : ℕ) (w : World) : Option World :=
  let c := N.rc i
  let a := newRx c (N.eos c.phase) (fun j => y (c.start + j)) (w.ph c.phase) (w.rx i)
  let ph := fun q => if q = c.phase then a.1 else w.ph q
  let rx := fun j => if j = i then a.2 else w.rx j
  match updDevs N (fun j => (rx j).press) t fuel (attached N i) w.mdot with
  | none => none
  | some m => some ⟨ph, rx, m⟩

/-- Loop of `ReactorNet::updateState` (ReactorNet.cpp:440-442) over the first `i` reactors. -/
noncomputable def updLoop (N : Net) (t : ℝ) (y : ℕ → ℝ) (fuel : ℕ) : ℕ → World → Option World
  | 0, w => some w
  | i + 1, w =>
    match updLoop N t y fuel i w with
    | none => none
    | some w' => updRx N t y fuel i w'

/-- `ReactorNet::updateState`. -/
noncomputable def updateState (N : Net) (t : ℝ) (y : ℕ → ℝ) (fuel : ℕ) (w : World) : Option World :=
  updLoop N t y fuel N.n w

/-! ## Rates follow from the pressures -/

/-- The rate a device should have. -/
noncomputable def baseRate (d : Dev) (P : ℕ → ℝ) (t : ℝ) : ℝ :=
  match d.kind with
  | .valve => max (d.coeff * timeFactor d t * pressFactor d P) 0
  | _ => max (d.coeff * timeFactor d t) 0

/-- The same including pressure controllers with a primary that is not one. -/
noncomputable def rate (N : Net) (P : ℕ → ℝ) (t : ℝ) (d : ℕ) : ℝ :=
  match (N.dev d).kind with
  | .control p => max ((N.dev d).coeff * pressFactor (N.dev d) P + baseRate (N.dev p) P t) 0
  | _ => baseRate (N.dev d) P t

/-- Primaries of pressure controllers are mass flow controllers. -/
def Primary (N : Net) : Prop := ∀ d p, (N.dev d).kind = .control p → (N.dev p).kind = .mfc

theorem rate_nonneg (N : Net) (P : ℕ → ℝ) (t : ℝ) (d : ℕ) : 0 ≤ rate N P t d := by
  unfold rate baseRate
  split
  · exact le_max_right _ _
  · split <;> exact le_max_right _ _

theorem rate_congr (N : Net) (hp : Primary N) (P P' : ℕ → ℝ) (t : ℝ) (d : ℕ)
    (h1 : P (N.dev d).src = P' (N.dev d).src) (h2 : P (N.dev d).dst = P' (N.dev d).dst) :
    rate N P t d = rate N P' t d := by
  have hf : pressFactor (N.dev d) P = pressFactor (N.dev d) P' := by
    unfold pressFactor
    rw [h1, h2]
  unfold rate
  split
  · rename_i p hk
    rw [hf]
    have : baseRate (N.dev p) P t = baseRate (N.dev p) P' t := by
      simp only [baseRate, hp d p hk]
    rw [this]
  · simp only [baseRate, hf]

/-- One device: it gets its rate, devices that have theirs keep it. -/
theorem updDev_good (N : Net) (hp : Primary N) (P : ℕ → ℝ) (t : ℝ) (fuel d : ℕ) (m : ℕ → ℝ)
    (hf : 2 ≤ fuel) : ∃ m', updDev N P t fuel d m = some m' ∧ m' d = rate N P t d ∧
      ∀ i, m i = rate N P t i → m' i = rate N P t i := by
  obtain ⟨f, rfl⟩ : ∃ f, fuel = f + 1 + 1 := ⟨fuel - 2, by omega⟩
  rw [updDev]
  cases hk : (N.dev d).kind with
  | mfc =>
    have e : rate N P t d = max ((N.dev d).coeff * timeFactor (N.dev d) t) 0 := by
      simp only [rate, baseRate, hk]
    refine ⟨_, rfl, by rw [e]; simp, fun i hi => ?_⟩
    by_cases hid : i = d
    · rw [hid, e]; simp
    · simp [hid, hi]
  | valve =>
    have e : rate N P t d =
        max ((N.dev d).coeff * timeFactor (N.dev d) t * pressFactor (N.dev d) P) 0 := by
      simp only [rate, baseRate, hk]
    refine ⟨_, rfl, by rw [e]; simp, fun i hi => ?_⟩
    by_cases hid : i = d
    · rw [hid, e]; simp
    · simp [hid, hi]
  | control p =>
    have hkp := hp d p hk
    have ep : rate N P t p = max ((N.dev p).coeff * timeFactor (N.dev p) t) 0 := by
      simp only [rate, baseRate, hkp]
    have e : rate N P t d = max ((N.dev d).coeff * pressFactor (N.dev d) P + rate N P t p) 0 := by
      conv_lhs => rw [rate]
      simp only [hk]
      rw [ep]
      simp only [baseRate, hkp]
    have hu : updDev N P t (f + 1) p m = some fun i => if i = p then rate N P t p else m i := by
      rw [updDev]
      simp only [hkp, ep]
    simp only [hu]
    refine ⟨_, rfl, by rw [e]; simp, fun i hi => ?_⟩
    by_cases hid : i = d
    · rw [hid, e]; simp
    · by_cases hip : i = p
      · subst hip
        simp [hid]
      · simp [hid, hip, hi]

theorem updDevs_good (N : Net) (hp : Primary N) (P : ℕ → ℝ) (t : ℝ) (fuel : ℕ) (hf : 2 ≤ fuel)
    (l : List ℕ) (m : ℕ → ℝ) : ∃ m', updDevs N P t fuel l m = some m' ∧
      (∀ d ∈ l, m' d = rate N P t d) ∧ ∀ i, m i = rate N P t i → m' i = rate N P t i := by
  induction l generalizing m with
  | nil => exact ⟨m, rfl, fun d hd => absurd hd (List.not_mem_nil), fun i h => h⟩
  | cons d l ih =>
    obtain ⟨m1, h1, hd, hk⟩ := updDev_good N hp P t fuel d m hf
    obtain ⟨m2, h2, hl, hk2⟩ := ih m1
    refine ⟨m2, by rw [updDevs, h1]; exact h2, ?_, fun i hi => hk2 i (hk i hi)⟩
    intro x hx
    rcases List.mem_cons.1 hx with rfl | hx
    · exact hk2 _ hd
    · exact hl x hx

theorem mem_attached (N : Net) (i d : ℕ) :
    d ∈ attached N i ↔ d < N.nd ∧ ((N.dev d).src = i ∨ (N.dev d).dst = i) := by
  simp only [attached, List.mem_append, List.mem_filter, List.mem_range, decide_eq_true_eq]
  tauto

/-- Everything known about the loop after `i` reactors. -/
structure Inv (N : Net) (t : ℝ) (y : ℕ → ℝ) (w0 : World) (i : ℕ) (w : World) : Prop where
  later : ∀ j, i ≤ j → w.rx j = w0.rx j
  phases : ∀ q, (∀ j < i, (N.rc j).phase ≠ q) → w.ph q = w0.ph q
  done : ∀ j < i, ∃ p, w.rx j = (newRx (N.rc j) (N.eos (N.rc j).phase)
    (fun k => y ((N.rc j).start + k)) p (w0.rx j)).2 ∧
    ((∀ k < j, (N.rc k).phase ≠ (N.rc j).phase) → p = w0.ph (N.rc j).phase)
  rates : ∀ d < N.nd, ((N.dev d).src < N.n ∨ (N.dev d).dst < N.n) →
    ((N.dev d).src < i ∨ N.n ≤ (N.dev d).src) → ((N.dev d).dst < i ∨ N.n ≤ (N.dev d).dst) →
    w.mdot d = rate N w.P t d

theorem loop_inv (N : Net) (hp : Primary N) (t : ℝ) (y : ℕ → ℝ) (fuel : ℕ) (hf : 2 ≤ fuel)
    (w0 : World) (i : ℕ) (hi : i ≤ N.n) :
    ∃ w, updLoop N t y fuel i w0 = some w ∧ Inv N t y w0 i w := by
  induction i with
  | zero =>
    refine ⟨w0, rfl, fun j _ => rfl, fun q _ => rfl, fun j hj => absurd hj (by omega), ?_⟩
    intro d _ hr h1 h2
    omega
  | succ i ih =>
    obtain ⟨w, hw, I⟩ := ih (by omega)
    rw [updLoop, hw]
    simp only [updRx]
    set a := newRx (N.rc i) (N.eos (N.rc i).phase) (fun j => y ((N.rc i).start + j))
      (w.ph (N.rc i).phase) (w.rx i) with ha
    set rx : ℕ → Rs := fun j => if j = i then a.2 else w.rx j with hrx
    obtain ⟨m, hm, hin, hkeep⟩ := updDevs_good N hp (fun j => (rx j).press) t fuel hf
      (attached N i) w.mdot
    rw [hm]
    refine ⟨_, rfl, ?_, ?_, ?_, ?_⟩
    · intro j hj
      show rx j = _
      rw [hrx]
      simp only
      rw [if_neg (by omega)]
      exact I.later j (by omega)
    · intro q hq
      show (if q = (N.rc i).phase then a.1 else w.ph q) = _
      rw [if_neg (fun e => hq i (by omega) e.symm)]
      exact I.phases q fun j hj => hq j (by omega)
    · intro j hj
      by_cases hji : j = i
      · subst hji
        refine ⟨w.ph (N.rc j).phase, ?_, fun h => I.phases _ h⟩
        show rx j = _
        rw [hrx]
        simp only
        rw [if_pos trivial, ha, I.later j le_rfl]
      · obtain ⟨p, h1, h2⟩ := I.done j (by omega)
        refine ⟨p, ?_, h2⟩
        show rx j = _
        rw [hrx]
        simp only
        rw [if_neg hji]
        exact h1
    · intro d hd hr h1 h2
      show m d = rate N (fun j => (rx j).press) t d
      by_cases hend : (N.dev d).src = i ∨ (N.dev d).dst = i
      · exact hin d ((mem_attached N i d).2 ⟨hd, hend⟩)
      · push Not at hend
        apply hkeep
        rw [I.rates d hd hr (by omega) (by omega)]
        apply rate_congr N hp
        · show (w.rx _).press = (rx _).press
          rw [hrx]
          simp only
          rw [if_neg hend.1]
        · show (w.rx _).press = (rx _).press
          rw [hrx]
          simp only
          rw [if_neg hend.2]

/-! ## C52 -/

/-- `updateState` returns, and afterwards the rate of every device attached to a reactor follows from
the new pressures and the time.  Missing because the code violates it: pressure controllers whose
primary depends on pressures. -/
theorem rates_fresh_partial (N : Net) (hp : Primary N) (t : ℝ) (y : ℕ → ℝ) (fuel : ℕ)
    (hf : 2 ≤ fuel) (w0 : World) : ∃ w, updateState N t y fuel w0 = some w ∧
      ∀ d < N.nd, ((N.dev d).src < N.n ∨ (N.dev d).dst < N.n) → w.mdot d = rate N w.P t d := by
  obtain ⟨w, hw, I⟩ := loop_inv N hp t y fuel hf w0 N.n le_rfl
  exact ⟨w, hw, fun d hd hr => I.rates d hd hr (by omega) (by omega)⟩

/-- Flow rates are never negative, whatever the functions and primaries. -/
theorem updDev_nonneg (N : Net) (P : ℕ → ℝ) (t : ℝ) (fuel d : ℕ) (m m' : ℕ → ℝ)
    (h : updDev N P t fuel d m = some m') :
    0 ≤ m' d ∧ ∀ i, 0 ≤ m i → 0 ≤ m' i := by
  induction fuel generalizing d m m' with
  | zero => simp [updDev] at h
  | succ f ih =>
    rw [updDev] at h
    cases hk : (N.dev d).kind with
    | mfc =>
      simp only [hk, Option.some.injEq] at h
      subst h
      refine ⟨by simp, fun i hi => ?_⟩
      by_cases hid : i = d
      · simp [hid]
      · simpa [hid] using hi
    | valve =>
      simp only [hk, Option.some.injEq] at h
      subst h
      refine ⟨by simp, fun i hi => ?_⟩
      by_cases hid : i = d
      · simp [hid]
      · simpa [hid] using hi
    | control p =>
      simp only [hk] at h
      cases hu : updDev N P t f p m with
      | none => rw [hu] at h; simp at h
      | some m1 =>
        rw [hu] at h
        simp only [Option.some.injEq] at h
        subst h
        refine ⟨by simp, fun i hi => ?_⟩
        by_cases hid : i = d
        · simp [hid]
        · simpa [hid] using (ih p m m1 hu).2 i hi

theorem updDevs_nonneg (N : Net) (P : ℕ → ℝ) (t : ℝ) (fuel : ℕ) (l : List ℕ) (m m' : ℕ → ℝ)
    (h : updDevs N P t fuel l m = some m') :
    (∀ d ∈ l, 0 ≤ m' d) ∧ ∀ i, 0 ≤ m i → 0 ≤ m' i := by
  induction l generalizing m with
  | nil =>
    simp only [updDevs, Option.some.injEq] at h
    subst h
    exact ⟨fun d hd => absurd hd (List.not_mem_nil), fun i h => h⟩
  | cons d l ih =>
    rw [updDevs] at h
    cases hu : updDev N P t fuel d m with
    | none => rw [hu] at h; simp at h
    | some m1 =>
      rw [hu] at h
      have h1 := updDev_nonneg N P t fuel d m m1 hu
      have h2 := ih m1 h
      refine ⟨fun x hx => ?_, fun i hi => h2.2 i (h1.2 i hi)⟩
      rcases List.mem_cons.1 hx with rfl | hx
      · exact h2.2 _ h1.1
      · exact h2.1 x hx

/-- After `updateState` the rate of every device attached to a reactor is not negative. -/
theorem rates_nonneg (N : Net) (t : ℝ) (y : ℕ → ℝ) (fuel : ℕ) (w0 w : World)
    (h : updateState N t y fuel w0 = some w) (d : ℕ) (hd : d < N.nd)
    (hr : (N.dev d).src < N.n ∨ (N.dev d).dst < N.n) : 0 ≤ w.mdot d := by
  have key : ∀ i, ∀ w, updLoop N t y fuel i w0 = some w →
      ((N.dev d).src < i ∨ (N.dev d).dst < i) → 0 ≤ w.mdot d := by
    intro i
    induction i with
    | zero => intro w _ h; omega
    | succ i ih =>
      intro w hw hi
      rw [updLoop] at hw
      cases hl : updLoop N t y fuel i w0 with
      | none => rw [hl] at hw; simp at hw
      | some w1 =>
        rw [hl] at hw
        simp only [updRx] at hw
        split at hw
        · simp at hw
        · rename_i m hm
          simp only [Option.some.injEq] at hw
          subst hw
          have hm' := updDevs_nonneg N _ t fuel _ _ _ hm
          by_cases he : (N.dev d).src = i ∨ (N.dev d).dst = i
          · exact hm'.1 d ((mem_attached N i d).2 ⟨hd, he⟩)
          · exact hm'.2 d (ih w1 hl (by omega))
  exact key N.n w h hr

/-- A reactor whose temperature is not part of its state. -/
def isothermal (c : Rc) : Prop := c.kind.thermal = false ∧ c.energy = false

theorem newRx_congr (c : Rc) (e : Eos) (y : ℕ → ℝ) (p p' : Ph) (r r' : Rs)
    (hT : isothermal c → p.T = p'.T) (hP : c.kind.constV = false → r.press = r'.press) :
    newRx c e y p r = newRx c e y p' r' := by
  unfold newRx
  by_cases hv : c.kind.constV = true
  · simp only [hv, if_true]
    by_cases ht : c.kind.thermal = true
    · simp only [ht, if_true]
    · by_cases he : c.energy = true
      · simp only [ht, he, if_true]
      · rw [Bool.not_eq_true] at ht he
        rw [hT ⟨ht, he⟩]
  · rw [Bool.not_eq_true] at hv
    rw [hP hv]
    simp only [hv]
    by_cases ht : c.kind.thermal = true
    · simp only [ht, if_true]
    · by_cases he : c.energy = true
      · simp only [ht, he, if_true]
      · rw [Bool.not_eq_true] at ht he
        rw [hT ⟨ht, he⟩]

/-- The state of every reactor and the rate of every attached device are determined by the state
vector, the time, the reservoirs, the pressures of constant pressure reactors, and the temperatures
of the phases of isothermal reactors, which are not shared with other reactors.  Missing because the
code violates it: shared phases of isothermal reactors, pressure controllers whose primary depends on
pressures. -/
theorem history_free_partial (N : Net) (hp : Primary N) (t : ℝ) (y : ℕ → ℝ) (fuel : ℕ)
    (hf : 2 ≤ fuel) (w0 w0' : World)
    (hres : ∀ j, N.n ≤ j → w0.rx j = w0'.rx j)
    (hpress : ∀ j < N.n, (N.rc j).kind.constV = false → (w0.rx j).press = (w0'.rx j).press)
    (hiso : ∀ j < N.n, isothermal (N.rc j) →
      (w0.ph (N.rc j).phase).T = (w0'.ph (N.rc j).phase).T ∧
      ∀ k < N.n, k ≠ j → (N.rc k).phase ≠ (N.rc j).phase) :
    ∃ w w', updateState N t y fuel w0 = some w ∧ updateState N t y fuel w0' = some w' ∧
      (∀ j, w.rx j = w'.rx j) ∧
      ∀ d < N.nd, ((N.dev d).src < N.n ∨ (N.dev d).dst < N.n) → w.mdot d = w'.mdot d := by
  obtain ⟨w, hw, I⟩ := loop_inv N hp t y fuel hf w0 N.n le_rfl
  obtain ⟨w', hw', I'⟩ := loop_inv N hp t y fuel hf w0' N.n le_rfl
  have hrx : ∀ j, w.rx j = w'.rx j := by
    intro j
    by_cases hj : j < N.n
    · obtain ⟨p, h1, h2⟩ := I.done j hj
      obtain ⟨p', h1', h2'⟩ := I'.done j hj
      rw [h1, h1']
      congr 1
      apply newRx_congr
      · intro hi
        obtain ⟨hT, hs⟩ := hiso j hj hi
        rw [h2 fun k hk => hs k (by omega) (by omega), h2' fun k hk => hs k (by omega) (by omega)]
        exact hT
      · exact hpress j hj
    · rw [I.later j (by omega), I'.later j (by omega)]
      exact hres j (by omega)
  refine ⟨w, w', hw, hw', hrx, fun d hd hr => ?_⟩
  rw [I.rates d hd hr (by omega) (by omega), I'.rates d hd hr (by omega) (by omega)]
  apply rate_congr N hp
  · show (w.rx _).press = (w'.rx _).press
    rw [hrx]
  · show (w.rx _).press = (w'.rx _).press
    rw [hrx]

/-! ### Round trip -/

/-- The inversions solve their equations. -/
structure Solves (e : Eos) : Prop where
  energy : ∀ Y rho m U, m ≠ 0 → e.u ⟨e.solveU Y rho m U, rho, Y⟩ * m = U
  enthalpy : ∀ Y h p, e.h ⟨(e.solveHP Y h p).1, (e.solveHP Y h p).2, Y⟩ = h

/-- The vector that was set is read back, for reactors whose temperature is part of their state,
with positive mass, volume and density, and positive factors for surface species.  Missing because
the code violates it: the energy component of isothermal reactors. -/
theorem round_trip_partial (c : Rc) (e : Eos) (hs : Solves e) (y : ℕ → ℝ) (p : Ph) (r : Rs)
    (hi : ¬ isothermal c) (hm : massOf c e y ≠ 0) (hw : ∀ k < e.nsp, e.mw k ≠ 0)
    (hV : c.kind.constV = true → y 1 ≠ 0)
    (hD : c.kind.constV = false → (newRx c e y p r).1.D ≠ 0)
    (hsc : c.kind.massBased = false → ∀ j < c.nsurf, c.scale j ≠ 0)
    (j : ℕ) (hj : j < nv c e) : getState c e (newRx c e y p r).2 j = y j := by
  -- mass from density and volume
  have hmass : (newRx c e y p r).2.saved.D * (newRx c e y p r).2.vol = massOf c e y := by
    by_cases hv : c.kind.constV = true
    · have := hV hv
      simp only [newRx, hv, if_true]
      field_simp
    · rw [Bool.not_eq_true] at hv
      have := hD hv
      simp only [newRx, hv, Bool.false_eq_true, if_false] at this ⊢
      field_simp
  have hY : (newRx c e y p r).2.saved.Y = fracOf c e y := by
    unfold newRx
    by_cases hv : c.kind.constV = true
    · simp only [hv, if_true]
    · simp only [hv, Bool.false_eq_true, if_false]
  have hcov : (newRx c e y p r).2.cov = fun j => if c.kind.massBased then
      y (sidx c.kind + e.nsp + j) else y (sidx c.kind + e.nsp + j) / c.scale j := by
    unfold newRx
    by_cases hv : c.kind.constV = true
    · simp only [hv, if_true]
    · simp only [hv, Bool.false_eq_true, if_false]
  have hvol : c.kind.constV = true → (newRx c e y p r).2.vol = y 1 := by
    intro hv
    simp only [newRx, hv, if_true]
  have hthermal : c.kind.thermal = true → (newRx c e y p r).2.saved.T = y (eidx c.kind) := by
    intro ht
    unfold newRx
    by_cases hv : c.kind.constV = true
    · simp only [hv, ht, if_true]
    · simp only [hv, ht, if_true, Bool.false_eq_true, if_false]
  have henergy : c.kind.thermal = false → c.kind.constV = true →
      e.u (newRx c e y p r).2.saved * massOf c e y = y (eidx c.kind) := by
    intro ht hv
    have he : c.energy = true := by
      by_contra hn
      rw [Bool.not_eq_true] at hn
      exact hi ⟨ht, hn⟩
    simp only [newRx, hv, ht, he, if_true, Bool.false_eq_true, if_false]
    exact hs.energy _ _ _ _ hm
  have henthalpy : c.kind.thermal = false → c.kind.constV = false →
      e.h (newRx c e y p r).2.saved * massOf c e y = y (eidx c.kind) := by
    intro ht hv
    have he : c.energy = true := by
      by_contra hn
      rw [Bool.not_eq_true] at hn
      exact hi ⟨ht, hn⟩
    simp only [newRx, hv, ht, he, if_true, Bool.false_eq_true, if_false]
    rw [hs.enthalpy]
    field_simp
  unfold getState
  simp only [hmass, hY, hcov]
  by_cases h1 : c.kind.massBased = true ∧ j = 0
  · rw [if_pos h1, massOf, if_pos h1.1, h1.2]
  rw [if_neg h1]
  by_cases h2 : c.kind.constV = true ∧ j = 1
  · rw [if_pos h2, hvol h2.1, h2.2]
  rw [if_neg h2]
  by_cases h3 : j = eidx c.kind
  · rw [if_pos h3, h3]
    by_cases ht : c.kind.thermal = true
    · rw [if_pos ht, hthermal ht]
    · rw [if_neg ht]
      rw [Bool.not_eq_true] at ht
      by_cases hv : c.kind.constV = true
      · rw [if_pos hv, henergy ht hv]
      · rw [if_neg hv]
        rw [Bool.not_eq_true] at hv
        rw [mul_assoc, hmass, henthalpy ht hv]
  rw [if_neg h3]
  have hsi : sidx c.kind ≤ j := by
    unfold sidx
    unfold eidx at h3
    by_cases hb : c.kind.massBased = true <;> by_cases hv : c.kind.constV = true <;>
      simp only [hb, hv, true_and, if_true, Bool.false_eq_true, if_false, false_and] at * <;> omega
  by_cases h4 : j < sidx c.kind + e.nsp
  · rw [if_pos h4]
    have ej : sidx c.kind + (j - sidx c.kind) = j := by omega
    by_cases hb : c.kind.massBased = true
    · rw [if_pos hb, fracOf, if_pos hb, ej]
    · rw [if_neg hb, fracOf, if_neg hb, ej]
      have hmm : massOf c e y = ∑ k ∈ range e.nsp, y (sidx c.kind + k) * e.mw k := by
        rw [massOf, if_neg hb]
      rw [← hmm]
      have := hw (j - sidx c.kind) (by omega)
      field_simp
  · rw [if_neg h4]
    have ej : sidx c.kind + e.nsp + (j - (sidx c.kind + e.nsp)) = j := by omega
    by_cases hb : c.kind.massBased = true
    · rw [if_pos hb, if_pos hb, ej]
    · rw [if_neg hb, if_neg hb, ej]
      rw [Bool.not_eq_true] at hb
      have := hsc hb (j - (sidx c.kind + e.nsp)) (by unfold nv at hj; omega)
      field_simp

/-- The inversions recover the state from its energy, enthalpy or pressure. -/
structure Recovers (e : Eos) : Prop where
  energy : ∀ (q : Ph) (m : ℝ), m ≠ 0 → e.solveU q.Y q.D m (e.u q * m) = q.T
  enthalpy : ∀ q : Ph, e.solveHP q.Y (e.h q) (e.pres q) = (q.T, q.D)
  temperature : ∀ q : Ph, e.solveTP q.Y q.T (e.pres q) = q.D
  local_ : ∀ (q : Ph) (Y : ℕ → ℝ), (∀ k < e.nsp, Y k = q.Y k) →
    e.pres ⟨q.T, q.D, Y⟩ = e.pres q ∧ e.u ⟨q.T, q.D, Y⟩ = e.u q ∧ e.h ⟨q.T, q.D, Y⟩ = e.h q

/-- Setting the state vector read from a reactor leaves the reactor as it is, whatever the phase
contains (isothermal reactors: if the phase still has the temperature of the reactor). -/
theorem get_update (c : Rc) (e : Eos) (hr : Recovers e) (r : Rs) (p : Ph)
    (hi : isothermal c → p.T = r.saved.T) (hV : r.vol ≠ 0) (hD : r.saved.D ≠ 0)
    (hw : ∀ k < e.nsp, e.mw k ≠ 0) (hY : ∑ k ∈ range e.nsp, r.saved.Y k = 1)
    (hP : r.press = e.pres r.saved)
    (hsc : c.kind.massBased = false → ∀ j < c.nsurf, c.scale j ≠ 0) :
    let a := (newRx c e (getState c e r) p r).2
    a.saved.T = r.saved.T ∧ a.saved.D = r.saved.D ∧ (∀ k < e.nsp, a.saved.Y k = r.saved.Y k) ∧
      a.vol = r.vol ∧ a.press = r.press ∧ a.mass = r.saved.D * r.vol ∧
      ∀ j < c.nsurf, a.cov j = r.cov j := by
  have hm : r.saved.D * r.vol ≠ 0 := mul_ne_zero hD hV
  -- components of the vector
  have g0 : c.kind.massBased = true → getState c e r 0 = r.saved.D * r.vol := by
    intro h
    simp [getState, h]
  have g1 : c.kind.constV = true → getState c e r 1 = r.vol := by
    intro h
    simp [getState, h]
  have ge : getState c e r (eidx c.kind) = if c.kind.thermal then r.saved.T
      else if c.kind.constV then e.u r.saved * (r.saved.D * r.vol)
      else e.h r.saved * (r.saved.D * r.vol) := by
    unfold getState eidx
    by_cases hb : c.kind.massBased = true <;> by_cases hv : c.kind.constV = true <;>
      simp [hb, hv, mul_assoc]
  have gs : ∀ k < e.nsp, getState c e r (sidx c.kind + k) = if c.kind.massBased then r.saved.Y k
      else r.saved.D * r.vol * (1 / e.mw k) * r.saved.Y k := by
    intro k hk
    unfold getState
    rw [if_neg (by unfold sidx; rintro ⟨h, h'⟩; rw [if_pos h] at h'; split at h' <;> omega),
      if_neg (by unfold sidx; rintro ⟨h, h'⟩; rw [h] at h'; simp only [if_true] at h'; split at h' <;> omega),
      if_neg (by unfold sidx eidx; split <;> split <;> omega), if_pos (by omega),
      Nat.add_sub_cancel_left]
  have gc : ∀ j, getState c e r (sidx c.kind + e.nsp + j) = if c.kind.massBased then r.cov j
      else r.cov j * c.scale j := by
    intro j
    unfold getState
    rw [if_neg (by unfold sidx; rintro ⟨h, h'⟩; rw [if_pos h] at h'; split at h' <;> omega),
      if_neg (by unfold sidx; rintro ⟨h, h'⟩; rw [h] at h'; simp only [if_true] at h'; split at h' <;> omega),
      if_neg (by unfold sidx eidx; split <;> split <;> omega), if_neg (by omega),
      Nat.add_sub_cancel_left]
  have hsum : c.kind.massBased = false →
      ∑ k ∈ range e.nsp, getState c e r (sidx c.kind + k) * e.mw k = r.saved.D * r.vol := by
    intro hb
    have : ∀ k ∈ range e.nsp, getState c e r (sidx c.kind + k) * e.mw k =
        r.saved.D * r.vol * r.saved.Y k := by
      intro k hk
      have hk := mem_range.1 hk
      rw [gs k hk, hb]
      have := hw k hk
      simp only [Bool.false_eq_true, if_false]
      field_simp
    rw [sum_congr rfl this, ← mul_sum, hY, mul_one]
  have hmass : massOf c e (getState c e r) = r.saved.D * r.vol := by
    unfold massOf
    by_cases hb : c.kind.massBased = true
    · rw [if_pos hb, g0 hb]
    · rw [if_neg hb, hsum (by simpa using hb)]
  have hfrac : ∀ k < e.nsp, fracOf c e (getState c e r) k = r.saved.Y k := by
    intro k hk
    unfold fracOf
    by_cases hb : c.kind.massBased = true
    · rw [if_pos hb, gs k hk, if_pos hb]
    · rw [if_neg hb, hsum (by simpa using hb), gs k hk, if_neg hb]
      have := hw k hk
      field_simp
  obtain ⟨lp, lu, lh⟩ := hr.local_ r.saved (fracOf c e (getState c e r)) hfrac
  have hcov : ∀ j < c.nsurf, (if c.kind.massBased then
      getState c e r (sidx c.kind + e.nsp + j)
      else getState c e r (sidx c.kind + e.nsp + j) / c.scale j) = r.cov j := by
    intro j hj
    rw [gc]
    by_cases hb : c.kind.massBased = true
    · rw [if_pos hb, if_pos hb]
    · rw [if_neg hb, if_neg hb]
      have := hsc (by simpa using hb) j hj
      field_simp
  intro a
  by_cases hv : c.kind.constV = true
  · have hDv : massOf c e (getState c e r) / getState c e r 1 = r.saved.D := by
      rw [hmass, g1 hv]
      field_simp
    have hT : (if c.kind.thermal then getState c e r (eidx c.kind)
        else if c.energy then e.solveU (fracOf c e (getState c e r))
          (massOf c e (getState c e r) / getState c e r 1) (massOf c e (getState c e r))
          (getState c e r (eidx c.kind)) else p.T) = r.saved.T := by
      rw [hDv, hmass, ge]
      by_cases ht : c.kind.thermal = true
      · rw [if_pos ht, if_pos ht]
      · rw [if_neg ht, if_neg ht, if_pos hv]
        by_cases he : c.energy = true
        · rw [if_pos he]
          have := hr.energy ⟨r.saved.T, r.saved.D, fracOf c e (getState c e r)⟩ _ hm
          rwa [lu] at this
        · rw [if_neg he]
          exact hi ⟨by simpa using ht, by simpa using he⟩
    have ha : a = (newRx c e (getState c e r) p r).2 := rfl
    unfold newRx at ha
    simp only [hv, if_true] at ha
    rw [hT, hDv] at ha
    rw [ha]
    exact ⟨rfl, rfl, hfrac, g1 hv, by rw [hP, ← lp], hmass, hcov⟩
  · have hTD : (if c.kind.thermal then
        (getState c e r (eidx c.kind),
          e.solveTP (fracOf c e (getState c e r)) (getState c e r (eidx c.kind)) r.press)
        else if c.energy then e.solveHP (fracOf c e (getState c e r))
          (getState c e r (eidx c.kind) / massOf c e (getState c e r)) r.press
        else (p.T, e.solveTP (fracOf c e (getState c e r)) p.T r.press) : ℝ × ℝ) =
        (r.saved.T, r.saved.D) := by
      rw [hmass, ge]
      have ht2 := hr.temperature ⟨r.saved.T, r.saved.D, fracOf c e (getState c e r)⟩
      rw [lp, ← hP] at ht2
      by_cases ht : c.kind.thermal = true
      · rw [if_pos ht, if_pos ht]
        simp only at ht2
        rw [ht2]
      · rw [if_neg ht, if_neg ht, if_neg hv]
        by_cases he : c.energy = true
        · rw [if_pos he]
          have := hr.enthalpy ⟨r.saved.T, r.saved.D, fracOf c e (getState c e r)⟩
          rw [lp, lh, ← hP] at this
          rw [mul_div_assoc, div_self hm, mul_one]
          exact this
        · rw [if_neg he, hi ⟨by simpa using ht, by simpa using he⟩]
          simp only at ht2
          rw [ht2]
    have ha : a = (newRx c e (getState c e r) p r).2 := rfl
    unfold newRx at ha
    simp only [hv, Bool.false_eq_true, if_false] at ha
    rw [hTD] at ha
    rw [ha]
    refine ⟨rfl, rfl, hfrac, ?_, rfl, hmass, hcov⟩
    show massOf c e (getState c e r) / r.saved.D = r.vol
    rw [hmass]
    field_simp

/-- Valves let gas through from the higher to the lower pressure only. -/
theorem valve_downhill (N : Net) (P : ℕ → ℝ) (t : ℝ) (d : ℕ) (hk : (N.dev d).kind = .valve)
    (ht : (N.dev d).tf = none) (hc : 0 ≤ (N.dev d).coeff) (f : ℝ → ℝ) (hf : ∀ x ≤ 0, f x ≤ 0)
    (hpf : (N.dev d).pf = none ∨ (N.dev d).pf = some f)
    (hP : P (N.dev d).src ≤ P (N.dev d).dst) : rate N P t d = 0 := by
  have h : pressFactor (N.dev d) P ≤ 0 := by
    unfold pressFactor
    rcases hpf with e | e
    · rw [e]; simpa using hP
    · rw [e]; exact hf _ (by linarith)
  simp only [rate, baseRate, hk, timeFactor, ht]
  apply max_eq_right
  rw [mul_one]
  exact mul_nonpos_of_nonneg_of_nonpos hc h

end Verif.ZeroD.State
