import Verif.ZeroD.State
import Verif.Basic

/-!
# State vector of a reactor network: examples and violations (C52)
-/

open Finset

namespace Verif.ZeroD.State

/-! ## Examples -/

/-- A gas with pressure `T·D`, internal energy and enthalpy `T`, one species of weight 2. -/
noncomputable def exEos : Eos :=
  { nsp := 1, mw := fun _ => 2, pres := fun q => q.T * q.D, u := fun q => q.T, h := fun q => q.T
    solveU := fun _ _ m U => if m = 0 then 0 else U / m
    solveHP := fun _ h p => (h, p / h), solveTP := fun _ T p => p / T }

/-- One reactor, with a reservoir feeding it through a valve and a mass flow controller, and a
pressure controller letting gas out. -/
noncomputable def exNet (kd : Kind) : Net :=
  { n := 1, rc := fun _ => ⟨kd, 0, true, 0, 0, fun _ => 1⟩, eos := fun _ => exEos, nd := 3
    dev := fun d => match d with
      | 0 => ⟨.valve, 1, 0, 1, none, none⟩
      | 1 => ⟨.mfc, 1, 0, 5, some fun t => t, none⟩
      | _ => ⟨.control 1, 0, 1, 3, none, some fun x => x⟩ }

theorem exPrimary (kd : Kind) : Primary (exNet kd) := by
  intro d p h
  match d with
  | 0 => simp [exNet] at h
  | 1 => simp [exNet] at h
  | d + 2 =>
    simp only [exNet, DK.control.injEq] at h
    subst h
    rfl

def exWorld : World :=
  ⟨fun _ => ⟨300, 1, fun _ => 1⟩, fun _ => ⟨1, 1, 2, ⟨300, 1, fun _ => 1⟩, fun _ => 0⟩, fun _ => 0⟩

example (kd : Kind) (y : ℕ → ℝ) : ∃ w, updateState (exNet kd) 2 y 2 exWorld = some w ∧
    w.mdot 1 = 10 := by
  obtain ⟨w, h, hr⟩ := rates_fresh_partial (exNet kd) (exPrimary kd) 2 y 2 le_rfl exWorld
  refine ⟨w, h, ?_⟩
  rw [hr 1 (by simp [exNet]) (by simp [exNet])]
  norm_num [rate, baseRate, exNet, timeFactor]

/-- Two histories of the network. -/
example (kd : Kind) (y : ℕ → ℝ) (v : ℝ) :
    ∃ w w', updateState (exNet kd) 2 y 2 exWorld = some w ∧
      updateState (exNet kd) 2 y 2 { exWorld with ph := fun _ => ⟨v, v, fun _ => v⟩ } = some w' ∧
      w.mdot 2 = w'.mdot 2 := by
  obtain ⟨w, w', h, h', _, hm⟩ := history_free_partial (exNet kd) (exPrimary kd) 2 y 2 le_rfl exWorld
    { exWorld with ph := fun _ => ⟨v, v, fun _ => v⟩ } (fun _ _ => rfl) (fun _ _ _ => rfl)
    (fun j _ hi => absurd hi.2 (by simp [exNet]))
  exact ⟨w, w', h, h', hm 2 (by simp [exNet]) (by simp [exNet])⟩

theorem exSolves : Solves exEos where
  energy Y rho m U hm := by
    simp only [exEos, if_neg hm]
    field_simp
  enthalpy Y h p := rfl

/-- Round trip for every type, with one surface species. -/
example (kd : Kind) (j : ℕ) (hj : j < nv ⟨kd, 0, true, 0, 1, fun _ => 4⟩ exEos) (p : Ph) (r : Rs)
    (hr : r.press = 9) :
    getState ⟨kd, 0, true, 0, 1, fun _ => 4⟩ exEos
      (newRx ⟨kd, 0, true, 0, 1, fun _ => 4⟩ exEos (fun j => (j : ℝ) + 3) p r).2 j = (j : ℝ) + 3 := by
  have hm : massOf ⟨kd, 0, true, 0, 1, fun _ => 4⟩ exEos (fun j => (j : ℝ) + 3) ≠ 0 := by
    cases kd <;> norm_num [massOf, Kind.massBased, exEos, sidx, Kind.constV]
  refine round_trip_partial _ exEos exSolves _ p r ?_ hm (fun _ _ => by norm_num [exEos])
    (fun _ => by norm_num) ?_ (fun _ _ _ => by norm_num) j hj
  · intro hi
    exact absurd hi.2 (by simp)
  · intro hv
    cases kd <;> norm_num [Kind.constV] at hv <;>
      norm_num [newRx, Kind.constV, Kind.thermal, exEos, hr, eidx, Kind.massBased, massOf, sidx]

/-- A substance with pressure equal to its density. -/
noncomputable def exEos2 : Eos :=
  { nsp := 1, mw := fun _ => 2, pres := fun q => q.D, u := fun q => q.T, h := fun q => q.T
    solveU := fun _ _ m U => U / m, solveHP := fun _ h p => (h, p), solveTP := fun _ _ p => p }

theorem exRecovers : Recovers exEos2 where
  energy q m hm := by
    simp only [exEos2]
    field_simp
  enthalpy q := rfl
  temperature q := rfl
  local_ q Y _ := ⟨rfl, rfl, rfl⟩

example (kd : Kind) (p : Ph) : (newRx ⟨kd, 0, true, 0, 1, fun _ => 4⟩ exEos2
    (getState ⟨kd, 0, true, 0, 1, fun _ => 4⟩ exEos2
      ⟨0, 2, 3, ⟨300, 3, fun _ => 1⟩, fun _ => 1⟩) p
    ⟨0, 2, 3, ⟨300, 3, fun _ => 1⟩, fun _ => 1⟩).2.saved.T = 300 :=
  (get_update _ exEos2 exRecovers _ p (fun h => absurd h.2 (by simp)) (by norm_num) (by norm_num)
    (fun _ _ => by norm_num [exEos2]) (by simp [exEos2]) rfl (fun _ _ _ => by norm_num)).1

example : rate (exNet .ideal) (fun i => i) 0 0 = 1 ∧ rate (exNet .ideal) (fun i => -i) 0 0 = 0 :=
  ⟨by norm_num [rate, baseRate, exNet, timeFactor, pressFactor],
   valve_downhill (exNet .ideal) (fun i => -i) 0 0 rfl rfl zero_le_one id (fun _ h => h) (.inl rfl)
     (by norm_num [exNet])⟩

/-! ## Violations -/

/-- Reservoirs 2 and 3; reactor 0 is fed by a pressure controller whose primary is the valve feeding
reactor 1. -/
noncomputable def lateNet : Net :=
  { n := 2, rc := fun i => ⟨.ideal, i, true, 4 * i, 0, fun _ => 1⟩, eos := fun _ => exEos, nd := 2
    dev := fun d => match d with
      | 0 => ⟨.control 1, 2, 0, 0, none, none⟩
      | _ => ⟨.valve, 3, 1, 1, none, none⟩ }

/-- Reservoirs at pressure 7; the last known pressure of reactor 1 is `c`. -/
def lateWorld (c : ℝ) : World :=
  ⟨fun _ => ⟨1, 1, fun _ => 1⟩,
    fun i => ⟨1, 1, if i = 1 then c else 7, ⟨1, 1, fun _ => 1⟩, fun _ => 0⟩, fun _ => 0⟩

/-- The pressure controller keeps the rate its primary had with the previous pressure of reactor 1:
`7 - c` instead of 6. -/
theorem controller_stale (c : ℝ) : ∃ w, updateState lateNet 0 (fun _ => 1) 2 (lateWorld c) = some w ∧
    w.P 0 = 1 ∧ w.P 1 = 1 ∧ w.mdot 1 = 6 ∧ w.mdot 0 = max (7 - c) 0 := by
  have a0 : attached lateNet 0 = [0] := by
    simp [attached, lateNet, List.range_succ]
  have a1 : attached lateNet 1 = [1] := by
    simp [attached, lateNet, List.range_succ]
  have k0 : (lateNet.dev 0).kind = .control 1 := rfl
  have k1 : (lateNet.dev 1).kind = .valve := rfl
  unfold updateState
  rw [show lateNet.n = 2 from rfl, updLoop, updLoop, updLoop]
  simp only [updRx, a0, a1, updDevs, updDev, k0, k1]
  refine ⟨_, rfl, ?_, ?_, ?_, ?_⟩
  · simp [World.P, newRx, lateNet, Kind.constV, Kind.thermal, exEos, massOf, Kind.massBased]
  · simp [World.P, newRx, lateNet, Kind.constV, Kind.thermal, exEos, massOf, Kind.massBased]
  · norm_num [newRx, lateNet, lateWorld, Kind.constV, Kind.thermal, exEos, massOf, Kind.massBased,
      timeFactor, pressFactor]
  · norm_num [newRx, lateNet, lateWorld, Kind.constV, Kind.thermal, exEos, massOf, Kind.massBased,
      timeFactor, pressFactor]

/-- A pressure controller that is its own primary calls itself for ever. -/
theorem primary_cycle (N : Net) (d : ℕ) (h : (N.dev d).kind = .control d) (P : ℕ → ℝ) (t : ℝ)
    (fuel : ℕ) (m : ℕ → ℝ) : updDev N P t fuel d m = none := by
  induction fuel generalizing m with
  | zero => rfl
  | succ f ih =>
    rw [updDev]
    simp only [h, ih]

/-- Two isothermal reactors with the same phase. -/
noncomputable def sharedNet : Net :=
  { n := 2, rc := fun i => ⟨.reactor, 0, false, 4 * i, 0, fun _ => 1⟩, eos := fun _ => exEos, nd := 0
    dev := fun _ => ⟨.mfc, 0, 0, 0, none, none⟩ }

/-- Isothermal reactors sharing a phase take the temperature the phase happens to have, instead of
the temperature they were set up with. -/
theorem shared_temperature (w0 : World) (y : ℕ → ℝ) :
    ∃ w, updateState sharedNet 0 y 2 w0 = some w ∧ (w.rx 0).saved.T = (w0.ph 0).T ∧
      (w.rx 1).saved.T = (w0.ph 0).T := by
  have a : ∀ i, attached sharedNet i = [] := by
    intro i
    simp [attached, sharedNet]
  unfold updateState
  rw [show sharedNet.n = 2 from rfl, updLoop, updLoop, updLoop]
  simp only [updRx, a, updDevs]
  refine ⟨_, rfl, ?_, ?_⟩
  · simp [newRx, sharedNet, Kind.constV, Kind.thermal]
  · simp [newRx, sharedNet, Kind.constV, Kind.thermal]

/-- Set up at 1000 and 500, evaluated last: the second reactor.  The first is now at 500. -/
example : ∃ w, updateState sharedNet 0 (fun _ => 1) 2 ⟨fun _ => ⟨500, 1, fun _ => 1⟩,
    fun i => ⟨1, 1, 1, ⟨if i = 0 then 1000 else 500, 1, fun _ => 1⟩, fun _ => 0⟩, fun _ => 0⟩ =
    some w ∧ (w.rx 0).saved.T = 500 := by
  obtain ⟨w, h, h0, _⟩ := shared_temperature ⟨fun _ => ⟨500, 1, fun _ => 1⟩,
    fun i => ⟨1, 1, 1, ⟨if i = 0 then 1000 else 500, 1, fun _ => 1⟩, fun _ => 0⟩, fun _ => 0⟩
    (fun _ => 1)
  exact ⟨w, h, h0⟩

/-- The energy of an isothermal reactor is not the one that was set. -/
theorem isothermal_energy (y : ℕ → ℝ) (p : Ph) (r : Rs) (hV : y 1 ≠ 0) :
    getState ⟨.reactor, 0, false, 0, 0, fun _ => 1⟩ exEos
      (newRx ⟨.reactor, 0, false, 0, 0, fun _ => 1⟩ exEos y p r).2 2 = p.T * y 0 := by
  simp only [getState, newRx, Kind.massBased, Kind.constV, Kind.thermal, eidx, exEos, massOf]
  norm_num
  left
  field_simp

/-- With chemistry disabled a reactor keeps using the production rates of the last evaluation before
(Reactor.cpp:230-236; `m_wdot` is cleared only when it is created). -/
theorem chemistry_stale (N : ZeroD.Net) (i k : ℕ) (hk : (N.node i).kind = .reactor)
    (hc : (N.node i).chem = false) (hs : (N.node i).surfs = []) (hd : N.devices = []) :
    (ZeroD.eval N i).dY k = (N.node i).wdot k * (N.node i).vol * (N.node i).mw k := by
  have hms : ∀ k, (massSurfaces (N.node i)).sdot k = 0 := by
    intro k
    simp [massSurfaces, hs]
  simp only [ZeroD.eval, hk, evalReactor, newWdot, hc, ZeroD.inlets, ZeroD.outlets, hd, hms]
  simp

/-! ### `MassFlowController::setMassFlowRate` -/

/-- The pointer `m_tfunc`. -/
inductive Ptr
  | null | live (g : ℝ → ℝ) | freed

/-- A mass flow controller: `m_coeff`, `m_tfunc`. -/
structure Mfc where
  coeff : ℝ
  tf : Ptr

/-- flowControllers.cpp:13-19; deleting twice is undefined. -/
def Mfc.setRate (d : Mfc) (mdot : ℝ) : Outcome Mfc :=
  match d.tf with
  | .null => .ok ⟨mdot, .null⟩
  | .live _ => .ok ⟨mdot, .freed⟩
  | .freed => .ub

/-- flowControllers.cpp:21-32. -/
noncomputable def Mfc.update (d : Mfc) (t : ℝ) : Outcome ℝ :=
  match d.tf with
  | .null => .ok (max d.coeff 0)
  | .live g => .ok (max (d.coeff * g t) 0)
  | .freed => .ub

/-- Without a time function the rate set is the rate of the device. -/
theorem setRate_update (c mdot t : ℝ) :
    ∃ d, Mfc.setRate ⟨c, .null⟩ mdot = .ok d ∧ d.update t = .ok (max mdot 0) := ⟨_, rfl, rfl⟩

/-- With one, the function is deleted but the pointer kept: the next update uses it, and setting the
rate again deletes it again. -/
theorem setRate_dangling (c mdot mdot' t : ℝ) (g : ℝ → ℝ) :
    ∃ d, Mfc.setRate ⟨c, .live g⟩ mdot = .ok d ∧ d.update t = .ub ∧ d.setRate mdot' = .ub :=
  ⟨_, rfl, rfl, rfl⟩

end Verif.ZeroD.State
