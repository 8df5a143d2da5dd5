import Verif.Basic
import Verif.Util.Prefix
import Mathlib.Tactic.Linarith

/-!
# C09: species indexing over the phases of a kinetics manager (src/kinetics/Kinetics.cpp)

A phase is its dimension, its name and its list of species names; `Phase::speciesIndex`
(Phase.cpp:129-140) is modelled without aliases and case-insensitive lookup.  `size_t` is `Nat`,
`npos` is `none`.  Phases are shared objects: species can be added to them behind the back of the
kinetics manager, which is the operation `addSpecies` below.
-/

namespace Verif.KinIndex

open Verif Verif.Prefix

/-- The modelled part of a `ThermoPhase`. -/
structure Ph where
  dim : Nat
  name : String
  species : List String
  deriving DecidableEq, Repr

/-- Kinetics.h: `m_thermo`, `m_start`, `m_kk`, `m_mindim` (initially 4, Kinetics.h:1510) and
`m_phaseindex`. -/
structure Kin where
  thermo : List Ph
  start : List Nat
  kk : Nat
  mindim : Nat
  phaseIdx : String → Option Nat

/-- A new kinetics object. -/
def Kin.empty : Kin := ⟨[], [], 0, 4, fun _ => none⟩

/-- The loop of `Kinetics::resizeSpecies` (Kinetics.cpp:603-609). -/
def resizeLoop : List Ph → List Nat × Nat → List Nat × Nat
  | [], t => t
  | p :: ps, (start, kk) => resizeLoop ps (start ++ [kk], kk + p.species.length)

/-- Kinetics::resizeSpecies (Kinetics.cpp:601-611); `addReaction` also calls it (621). -/
def Kin.resizeSpecies (K : Kin) : Kin :=
  { K with start := (resizeLoop K.thermo ([], 0)).1, kk := (resizeLoop K.thermo ([], 0)).2 }

/-- Kinetics::addThermo (Kinetics.cpp:562-577). -/
def Kin.addThermo (K : Kin) (p : Ph) : Outcome Kin :=
  if p.dim ≤ K.mindim ∧ K.thermo ≠ [] then .throw
  else
    let K1 := { K with
      mindim := if p.dim ≤ K.mindim then p.dim else K.mindim
      thermo := K.thermo ++ [p]
      phaseIdx := fun s => if s = p.name then some (K.thermo.length + 1) else K.phaseIdx s }
    .ok K1.resizeSpecies

/-- `addSpecies` called on phase `i`: duplicates are rejected (Phase.cpp:710-713); the kinetics
manager is not informed. -/
def Kin.addSpecies (K : Kin) (i : Nat) (s : String) : Outcome Kin :=
  match K.thermo[i]? with
  | none => .throw
  | some p => if s ∈ p.species then .throw
    else .ok { K with thermo := K.thermo.set i { p with species := p.species ++ [s] } }

/-- Operations. -/
inductive Op where
  | addThermo (p : Ph)
  | addSpecies (i : Nat) (s : String)
  | resizeSpecies

/-- One operation; a throwing one leaves the object as it was. -/
def Kin.step (K : Kin) : Op → Kin
  | .addThermo p => match K.addThermo p with | .ok K' => K' | _ => K
  | .addSpecies i s => match K.addSpecies i s with | .ok K' => K' | _ => K
  | .resizeSpecies => K.resizeSpecies

/-- A history. -/
def Kin.run (ops : List Op) : Kin := ops.foldl Kin.step Kin.empty

/-- Kinetics.h:273-275 -/
def Kin.speciesIndex (K : Kin) (k n : Nat) : Outcome Nat :=
  Outcome.vecGet K.start n >>= fun s => .ok (s + k)

/-- The scan of Kinetics.cpp:282-283 and 325-326. -/
def Kin.scan (K : Kin) (k : Nat) : Option Nat :=
  scanDown (fun n => decide (K.start.getD n 0 ≤ k)) K.start.length

/-- Phase::speciesName (Phase.cpp:142-146). -/
def Ph.speciesName (p : Ph) (k : Nat) : Outcome String :=
  match p.species[k]? with
  | some s => .ok s
  | none => .throw

/-- Phase::speciesIndex (Phase.cpp:129-140). -/
def Ph.speciesIndex (p : Ph) (s : String) : Option Nat :=
  if s ∈ p.species then some (p.species.idxOf s) else none

/-- Kinetics::kineticsSpeciesName (Kinetics.cpp:280-288). -/
def Kin.speciesName (K : Kin) (k : Nat) : Outcome String :=
  match K.scan k with
  | none => .ok "<unknown>"
  | some n => Outcome.vecGet K.thermo n >>= fun p =>
      Outcome.vecGet K.start n >>= fun st => p.speciesName (k - st)

/-- Kinetics::speciesPhaseIndex (Kinetics.cpp:323-332). -/
def Kin.speciesPhaseIndex (K : Kin) (k : Nat) : Outcome Nat :=
  match K.scan k with
  | none => .throw
  | some n => .ok n

/-- The loop of Kinetics.cpp:292-298, starting at phase `n`. -/
def lookupFrom (K : Kin) (nm : String) : List Ph → Nat → Outcome (Option Nat)
  | [], _ => .ok none
  | p :: ps, n => match p.speciesIndex nm with
    | some k => Outcome.vecGet K.start n >>= fun st => .ok (some (k + st))
    | none => lookupFrom K nm ps (n + 1)

/-- Kinetics::kineticsSpeciesIndex(name) (Kinetics.cpp:290-300). -/
def Kin.lookup (K : Kin) (nm : String) : Outcome (Option Nat) := lookupFrom K nm K.thermo 0

/-- Kinetics::phaseIndex (Kinetics.h:206-212). -/
def Kin.phaseIndex (K : Kin) (nm : String) : Option Nat := (K.phaseIdx nm).map (· - 1)

/-! ### Lemmas -/

/-- Numbers of species of the phases. -/
def counts (K : Kin) : List Nat := K.thermo.map (fun p => p.species.length)

theorem resizeLoop_eq (ps : List Ph) (start : List Nat) (kk : Nat) :
    resizeLoop ps (start, kk) = (start ++ (List.range ps.length).map
      (fun i => kk + pre (ps.map (fun p => p.species.length)) i),
      kk + (ps.map (fun p => p.species.length)).sum) := by
  induction ps generalizing start kk with
  | nil => simp [resizeLoop]
  | cons p ps ih =>
    simp only [resizeLoop, ih, List.length_cons, List.range_succ_eq_map, List.map_cons, List.map_map,
      List.append_assoc, List.cons_append, List.nil_append, List.sum_cons, pre_zero, Nat.add_zero]
    refine Prod.ext ?_ (by simp [Nat.add_assoc])
    simp only [List.append_cancel_left_eq, List.cons.injEq, true_and]
    apply List.map_congr_left
    intro i _
    simp [pre, Nat.add_assoc]

/-- The tables agree with the phases. -/
def Synced (K : Kin) : Prop :=
  K.start = (List.range K.thermo.length).map (pre (counts K)) ∧ K.kk = (counts K).sum

theorem synced_resize (K : Kin) : Synced K.resizeSpecies := by
  unfold Synced Kin.resizeSpecies counts
  simp [resizeLoop_eq]

theorem start_get {K : Kin} (h : Synced K) {n : Nat} (hn : n < K.thermo.length) :
    K.start[n]? = some (pre (counts K) n) := by
  rw [h.1]; simp [hn]

theorem start_length {K : Kin} (h : Synced K) : K.start.length = K.thermo.length := by
  rw [h.1]; simp

theorem counts_get {K : Kin} {n : Nat} {p : Ph} (hp : K.thermo[n]? = some p) :
    ∃ h : n < (counts K).length, (counts K)[n] = p.species.length := by
  obtain ⟨hk, e⟩ := List.getElem?_eq_some_iff.mp hp
  exact ⟨by simpa [counts] using hk, by simp [counts, e]⟩

theorem scan_owner {K : Kin} (h : Synced K) {n k : Nat} {p : Ph} (hp : K.thermo[n]? = some p)
    (hk : k < p.species.length) : K.scan (pre (counts K) n + k) = some n := by
  have hn := (List.getElem?_eq_some_iff.mp hp).1
  unfold Kin.scan
  rw [scanDown_some, start_length h]
  refine ⟨hn, ?_, ?_⟩
  · simp [List.getD_eq_getElem?_getD, start_get h hn]
  · intro j hj hjl
    obtain ⟨hc, e⟩ := counts_get hp
    have := pre_mono (counts K) (by omega : n + 1 ≤ j)
    rw [pre_succ _ _ hc, e] at this
    simp only [List.getD_eq_getElem?_getD, start_get h hjl, Option.getD_some,
      decide_eq_false_iff_not]
    omega

/-! ### Properties -/

/-- Tables are refreshed by every `addThermo` that succeeds and by `resizeSpecies`; in particular
they agree with the phases after any history of adding phases. -/
theorem synced_of_addThermo (ops : List Op) (h : ∀ o ∈ ops, ∃ p, o = .addThermo p) :
    Synced (Kin.run ops) := by
  unfold Kin.run
  suffices hh : ∀ (ops : List Op) (K : Kin), Synced K → (∀ o ∈ ops, ∃ p, o = .addThermo p) →
      Synced (ops.foldl Kin.step K) from hh ops _ ⟨rfl, rfl⟩ h
  intro ops
  induction ops with
  | nil => intro K hK _; exact hK
  | cons o ops ih =>
    intro K hK ho
    simp only [List.foldl_cons]
    apply ih _ _ (fun o ho' => ho o (by simp [ho']))
    obtain ⟨p, rfl⟩ := ho o (by simp)
    simp only [Kin.step, Kin.addThermo]
    split_ifs
    · exact hK
    · exact synced_resize _
    · exact synced_resize _

/-- After any history followed by `resizeSpecies` (as in `addReaction`), `kineticsSpeciesIndex(k,n)`
maps the species of the phases one to one onto `0 .. nTotalSpecies-1`. -/
theorem species_index_bijection (ops : List Op) :
    (∀ n p k, (Kin.run ops).resizeSpecies.thermo[n]? = some p → k < p.species.length →
      ∃ g, (Kin.run ops).resizeSpecies.speciesIndex k n = .ok g ∧
        g < (Kin.run ops).resizeSpecies.kk) ∧
    (∀ g, g < (Kin.run ops).resizeSpecies.kk → ∃! t : Nat × Nat,
      (∃ p, (Kin.run ops).resizeSpecies.thermo[t.2]? = some p ∧ t.1 < p.species.length) ∧
      (Kin.run ops).resizeSpecies.speciesIndex t.1 t.2 = .ok g) := by
  have hs := synced_resize (Kin.run ops)
  generalize (Kin.run ops).resizeSpecies = K at hs
  have idx : ∀ n p k, K.thermo[n]? = some p → K.speciesIndex k n = .ok (pre (counts K) n + k) := by
    intro n p k hp
    simp [Kin.speciesIndex, Outcome.vecGet, start_get hs (List.getElem?_eq_some_iff.mp hp).1]
  constructor
  · intro n p k hp hk
    refine ⟨_, idx n p k hp, ?_⟩
    obtain ⟨hc, e⟩ := counts_get hp
    have := pre_le_sum (counts K) (n + 1)
    rw [pre_succ _ _ hc, e] at this
    rw [hs.2]; omega
  · intro g hg
    rw [hs.2] at hg
    obtain ⟨n, hn, h1, h2⟩ := exists_block _ g hg
    have hn' : n < K.thermo.length := by simpa [counts] using hn
    have hp : K.thermo[n]? = some K.thermo[n] := List.getElem?_eq_getElem hn'
    have e : (counts K)[n] = K.thermo[n].species.length := by simp [counts]
    refine ⟨(g - pre (counts K) n, n), ⟨⟨_, hp, by rw [e] at h2; simp only; omega⟩, ?_⟩, ?_⟩
    · rw [idx _ _ _ hp]; congr 1; omega
    · rintro ⟨k', n'⟩ ⟨⟨p', hp', hk'⟩, hidx⟩
      simp only at hp' hk' hidx
      rw [idx _ _ _ hp'] at hidx
      injection hidx with hidx
      obtain ⟨hc', e'⟩ := counts_get hp'
      have : n' = n := block_unique (counts K) (g := g) hc' hn (by omega) (by rw [e']; omega) h1 h2
      subst this
      simp; omega

/-- `kineticsSpeciesName` and `speciesPhaseIndex` invert the index map. -/
theorem name_and_phase_invert (ops : List Op) (n k : Nat) (p : Ph)
    (hp : (Kin.run ops).resizeSpecies.thermo[n]? = some p) (hk : k < p.species.length) (g : Nat)
    (hg : (Kin.run ops).resizeSpecies.speciesIndex k n = .ok g) :
    (Kin.run ops).resizeSpecies.speciesName g = .ok p.species[k] ∧
    (Kin.run ops).resizeSpecies.speciesPhaseIndex g = .ok n := by
  have hs := synced_resize (Kin.run ops)
  generalize (Kin.run ops).resizeSpecies = K at hs hp hg
  have hst := start_get hs (List.getElem?_eq_some_iff.mp hp).1
  have hg' : g = pre (counts K) n + k := by
    simp [Kin.speciesIndex, Outcome.vecGet, hst] at hg
    exact hg.symm
  subst hg'
  have hsc := scan_owner hs hp hk
  constructor
  · simp [Kin.speciesName, hsc, Outcome.vecGet, hp, hst, Ph.speciesName, hk]
  · simp [Kin.speciesPhaseIndex, hsc]

/-- An index beyond the last species is an error for `kineticsSpeciesName` (not `"<unknown>"` as
documented at Kinetics.h:281-282), once a phase has been added. -/
theorem name_out_of_range (ops : List Op) (hne : (Kin.run ops).thermo ≠ []) (k : Nat)
    (hk : (Kin.run ops).resizeSpecies.kk ≤ k) :
    (Kin.run ops).resizeSpecies.speciesName k = .throw := by
  have hs := synced_resize (Kin.run ops)
  have hne' : (Kin.run ops).resizeSpecies.thermo ≠ [] := hne
  generalize (Kin.run ops).resizeSpecies = K at hs hk hne'
  have hlen : 0 < K.thermo.length := List.length_pos_iff.mpr hne'
  have hsc : K.scan k = some (K.thermo.length - 1) := by
    unfold Kin.scan
    rw [scanDown_some, start_length hs]
    refine ⟨by omega, ?_, fun j a b => by omega⟩
    have hp := pre_le_sum (counts K) (K.thermo.length - 1)
    rw [hs.2] at hk
    simp only [List.getD_eq_getElem?_getD, start_get hs (by omega : K.thermo.length - 1 < K.thermo.length),
      Option.getD_some, decide_eq_true_eq]
    omega
  have hl : K.thermo.length - 1 < K.thermo.length := by omega
  have hp : K.thermo[K.thermo.length - 1]? = some K.thermo[K.thermo.length - 1] :=
    List.getElem?_eq_getElem hl
  obtain ⟨hc, e⟩ := counts_get hp
  have h1 := pre_succ (counts K) _ hc
  have h2 : K.thermo.length - 1 + 1 = (counts K).length := by simp [counts]; omega
  rw [h2, pre_length, e] at h1
  rw [hs.2] at hk
  simp only [Kin.speciesName, hsc, Outcome.vecGet, hp, start_get hs hl, Outcome.bind_ok,
    Ph.speciesName]
  rw [List.getElem?_eq_none (by omega)]

/-- **Finding.** `speciesPhaseIndex` documents an exception for illegal indices but never throws once
a phase has been added: every too large index is attributed to the last phase. -/
theorem phaseIndex_never_throws (ops : List Op) (hne : (Kin.run ops).thermo ≠ []) (k : Nat)
    (hk : (Kin.run ops).resizeSpecies.kk ≤ k) :
    (Kin.run ops).resizeSpecies.speciesPhaseIndex k = .ok ((Kin.run ops).thermo.length - 1) := by
  have hs := synced_resize (Kin.run ops)
  have hne' : (Kin.run ops).resizeSpecies.thermo ≠ [] := hne
  show (Kin.run ops).resizeSpecies.speciesPhaseIndex k
    = .ok ((Kin.run ops).resizeSpecies.thermo.length - 1)
  generalize (Kin.run ops).resizeSpecies = K at hs hk hne'
  have hlen : 0 < K.thermo.length := List.length_pos_iff.mpr hne'
  have hsc : K.scan k = some (K.thermo.length - 1) := by
    unfold Kin.scan
    rw [scanDown_some, start_length hs]
    refine ⟨by omega, ?_, fun j a b => by omega⟩
    have hp := pre_le_sum (counts K) (K.thermo.length - 1)
    rw [hs.2] at hk
    simp only [List.getD_eq_getElem?_getD, start_get hs (by omega : K.thermo.length - 1 < K.thermo.length),
      Option.getD_some, decide_eq_true_eq]
    omega
  simp [Kin.speciesPhaseIndex, hsc]

/-- **Finding.** `kineticsSpeciesIndex(k, n)` does not check `k`: an index out of range for its phase
is the index of another phase's species. -/
theorem index_aliases : ∃ (ops : List Op) (k n g : Nat) (p : Ph),
    (Kin.run ops).resizeSpecies.thermo[n]? = some p ∧ p.species.length ≤ k ∧
    (Kin.run ops).resizeSpecies.speciesIndex k n = .ok g ∧
    (Kin.run ops).resizeSpecies.speciesIndex 0 1 = .ok g ∧
    (Kin.run ops).resizeSpecies.speciesPhaseIndex g = .ok 1 :=
  ⟨[.addThermo ⟨2, "surf", ["Pt(S)"]⟩, .addThermo ⟨3, "gas", ["H2", "O2"]⟩], 1, 0, 1,
    ⟨2, "surf", ["Pt(S)"]⟩, rfl, by decide, rfl, rfl, rfl⟩

/-- **Finding.** A species added to a phase after the phase was added to the kinetics manager is not
known to it until the next `addReaction`: its index is that of the next phase's first species. -/
theorem index_stale_after_addSpecies : ∃ (ops : List Op) (p : Ph),
    (Kin.run ops).thermo[0]? = some p ∧ 1 < p.species.length ∧
    (Kin.run ops).speciesIndex 1 0 = (Kin.run ops).speciesIndex 0 1 ∧
    (Kin.run ops).speciesName 1 = .ok "H2" :=
  ⟨[.addThermo ⟨2, "surf", ["Pt(S)"]⟩, .addThermo ⟨3, "gas", ["H2", "O2"]⟩, .addSpecies 0 "H(S)"],
    ⟨2, "surf", ["Pt(S)", "H(S)"]⟩, rfl, by decide, rfl, rfl⟩

theorem lookupFrom_spec {K : Kin} (hs : Synced K) (nm : String) (ps : List Ph) (n : Nat)
    (hps : K.thermo.drop n = ps) :
    (lookupFrom K nm ps n = .ok none ∧ ∀ p ∈ ps, nm ∉ p.species) ∨
    ∃ m p, K.thermo[m]? = some p ∧ nm ∈ p.species ∧
      (∀ j q, n ≤ j → j < m → K.thermo[j]? = some q → nm ∉ q.species) ∧
      lookupFrom K nm ps n = .ok (some (p.species.idxOf nm + pre (counts K) m)) := by
  induction ps generalizing n with
  | nil => left; exact ⟨rfl, by simp⟩
  | cons p ps ih =>
    have hn : n < K.thermo.length := by
      by_contra hc; rw [List.drop_eq_nil_of_le (by omega)] at hps; simp at hps
    have hp : K.thermo[n]? = some p := by
      have := congrArg (·[0]?) hps; simpa [List.getElem?_drop] using this
    have hps' : K.thermo.drop (n + 1) = ps := by
      have := congrArg List.tail hps
      simpa [List.tail_drop] using this
    by_cases hm : nm ∈ p.species
    · right
      refine ⟨n, p, hp, hm, fun j q a b => by omega, ?_⟩
      simp [lookupFrom, Ph.speciesIndex, hm, Outcome.vecGet, start_get hs hn]
    · have e : lookupFrom K nm (p :: ps) n = lookupFrom K nm ps (n + 1) := by
        simp [lookupFrom, Ph.speciesIndex, hm]
      rcases ih (n + 1) hps' with ⟨h1, h2⟩ | ⟨m, q, h1, h2, h3, h4⟩
      · left
        refine ⟨by rw [e, h1], ?_⟩
        intro q hq
        rcases List.mem_cons.mp hq with rfl | hq
        · exact hm
        · exact h2 q hq
      · right
        refine ⟨m, q, h1, h2, ?_, by rw [e, h4]⟩
        intro j r a b hr
        by_cases hjn : j = n
        · subst hjn; rw [hp, Option.some.injEq] at hr; subst hr; exact hm
        · exact h3 j r (by omega) b hr

/-- Lookup by name: the species of that name in the first phase that has one, and reported missing
exactly when no phase has it; the name of the returned index is the name looked up. -/
theorem lookup_spec (ops : List Op) (nm : String) :
    ((Kin.run ops).resizeSpecies.lookup nm = .ok none ∧
      ∀ p ∈ (Kin.run ops).thermo, nm ∉ p.species) ∨
    ∃ g m p, (Kin.run ops).resizeSpecies.lookup nm = .ok (some g) ∧
      (Kin.run ops).thermo[m]? = some p ∧ nm ∈ p.species ∧
      (∀ j q, j < m → (Kin.run ops).thermo[j]? = some q → nm ∉ q.species) ∧
      (Kin.run ops).resizeSpecies.speciesName g = .ok nm ∧
      (Kin.run ops).resizeSpecies.speciesPhaseIndex g = .ok m := by
  have hs := synced_resize (Kin.run ops)
  rcases lookupFrom_spec hs nm _ 0 rfl with ⟨h1, h2⟩ | ⟨m, p, h1, h2, h3, h4⟩
  · left; exact ⟨h1, h2⟩
  · right
    have hk := List.idxOf_lt_length_of_mem h2
    have hidx : (Kin.run ops).resizeSpecies.speciesIndex (p.species.idxOf nm) m
        = .ok (p.species.idxOf nm + pre (counts (Kin.run ops).resizeSpecies) m) := by
      simp [Kin.speciesIndex, Outcome.vecGet,
        start_get hs (List.getElem?_eq_some_iff.mp h1).1, Nat.add_comm]
    obtain ⟨a, b⟩ := name_and_phase_invert ops m _ p h1 hk _ hidx
    refine ⟨_, m, p, h4, h1, h2, fun j q hj => h3 j q (by omega) hj, ?_, b⟩
    rw [a]; simp

/-- Phases are found by the name under which they were last added. -/
theorem phaseIndex_last (ops : List Op) (p : Ph) (K' : Kin)
    (h : (Kin.run ops).addThermo p = .ok K') :
    K'.phaseIndex p.name = some (Kin.run ops).thermo.length ∧
    K'.thermo[(Kin.run ops).thermo.length]? = some p ∧
    ∀ s, s ≠ p.name → K'.phaseIndex s = (Kin.run ops).phaseIndex s := by
  unfold Kin.addThermo at h
  by_cases hc : p.dim ≤ (Kin.run ops).mindim ∧ (Kin.run ops).thermo ≠ []
  · simp [hc] at h
  rw [if_neg hc] at h
  simp only [Outcome.ok.injEq] at h
  subst h
  refine ⟨by simp [Kin.phaseIndex, Kin.resizeSpecies], by simp [Kin.resizeSpecies], ?_⟩
  intro s hs
  simp [Kin.phaseIndex, Kin.resizeSpecies, hs]

/-- The lowest-dimensional phase is unique and first: every other phase has a larger dimension
(dimensions are at most 3). -/
theorem reacting_phase_lowest (ops : List Op) (hd : ∀ p, Op.addThermo p ∈ ops → p.dim ≤ 3)
    (p0 p : Ph) (i : Nat) (h0 : (Kin.run ops).thermo[0]? = some p0) (hi : 0 < i)
    (hp : (Kin.run ops).thermo[i]? = some p) : p0.dim < p.dim := by
  have key : ∀ (ops : List Op) (K : Kin), (∀ p, Op.addThermo p ∈ ops → p.dim ≤ 3) →
      ((K.thermo = [] → K.mindim = 4) ∧ (∀ q, K.thermo[0]? = some q → K.mindim = q.dim) ∧
        ∀ j q, 0 < j → K.thermo[j]? = some q → K.mindim < q.dim) →
      ((ops.foldl Kin.step K).thermo = [] → (ops.foldl Kin.step K).mindim = 4) ∧
      (∀ q, (ops.foldl Kin.step K).thermo[0]? = some q → (ops.foldl Kin.step K).mindim = q.dim) ∧
        ∀ j q, 0 < j → (ops.foldl Kin.step K).thermo[j]? = some q →
          (ops.foldl Kin.step K).mindim < q.dim := by
    intro ops
    induction ops with
    | nil => intro K _ h; exact h
    | cons o ops ih =>
      intro K hd ⟨a, b, c⟩
      simp only [List.foldl_cons]
      refine ih _ (fun p hp => hd p (by simp [hp])) ?_
      cases o with
      | addThermo r =>
        have hr := hd r (by simp)
        by_cases hc : r.dim ≤ K.mindim ∧ K.thermo ≠ []
        · have : K.step (.addThermo r) = K := by simp [Kin.step, Kin.addThermo, hc]
          rw [this]; exact ⟨a, b, c⟩
        · by_cases he : K.thermo = []
          · have hm := a he
            have h4 : r.dim ≤ 4 := by omega
            simp only [Kin.step, Kin.addThermo, Kin.resizeSpecies, he, hm, h4, if_true,
              List.nil_append]
            refine ⟨by simp, by simp, ?_⟩
            intro j q hj hq
            rw [List.getElem?_eq_none (by simp; omega)] at hq
            simp at hq
          · have hlt : ¬ r.dim ≤ K.mindim := fun h => hc ⟨h, he⟩
            have hlen : 0 < K.thermo.length := List.length_pos_iff.mpr he
            simp only [Kin.step, Kin.addThermo, Kin.resizeSpecies, hlt, if_false, false_and]
            refine ⟨by simp, ?_, ?_⟩
            · intro q hq
              rw [List.getElem?_append_left hlen] at hq
              exact b q hq
            · intro j q hj hq
              by_cases hjl : j < K.thermo.length
              · rw [List.getElem?_append_left hjl] at hq
                exact c j q hj hq
              · rw [List.getElem?_append_right (by omega)] at hq
                have := List.mem_of_getElem? hq
                simp only [List.mem_singleton] at this
                subst this; omega
      | addSpecies n s =>
        by_cases hn : ∃ r, K.thermo[n]? = some r ∧ s ∉ r.species
        · obtain ⟨r, hr, hs⟩ := hn
          have e : K.step (.addSpecies n s)
              = { K with thermo := K.thermo.set n { r with species := r.species ++ [s] } } := by
            simp [Kin.step, Kin.addSpecies, hr, hs]
          rw [e]
          simp only
          refine ⟨fun h => a (by simpa using h), ?_, ?_⟩
          · intro q hq
            rw [List.getElem?_set] at hq
            split_ifs at hq with h1 h2
            · cases hq; subst h1; exact b r hr
            · exact b q hq
          · intro j q hj hq
            rw [List.getElem?_set] at hq
            split_ifs at hq with h1 h2
            · cases hq; subst h1; exact c _ r hj hr
            · exact c j q hj hq
        · have : K.step (.addSpecies n s) = K := by
            simp only [Kin.step, Kin.addSpecies]
            cases hk : K.thermo[n]? with
            | none => rfl
            | some r =>
              have : s ∈ r.species := by
                by_contra hx; exact hn ⟨r, hk, hx⟩
              simp [this]
          rw [this]; exact ⟨a, b, c⟩
      | resizeSpecies => exact ⟨a, b, c⟩
  obtain ⟨_, b, c⟩ := key ops Kin.empty hd ⟨fun _ => rfl, by simp [Kin.empty], by simp [Kin.empty]⟩
  have h1 := b p0 h0
  have h2 := c i p hi hp
  unfold Kin.run at *
  omega

/-! ### The statements are not vacuous -/

/-- A surface and two bulk phases, one species shared by name. -/
def demo : List Op :=
  [.addThermo ⟨2, "surf", ["Pt(S)", "H(S)"]⟩, .addThermo ⟨3, "gas", ["H2", "O2"]⟩,
   .addThermo ⟨3, "bulk", ["Pt", "H2"]⟩]

example : (Kin.run demo).kk = 6 := rfl
example : (Kin.run demo).speciesIndex 1 2 = .ok 5 := rfl
example : (Kin.run demo).resizeSpecies.thermo[2]? = some ⟨3, "bulk", ["Pt", "H2"]⟩ := rfl
example : (Kin.run demo).speciesName 5 = .ok "H2" := rfl
example : (Kin.run demo).lookup "H2" = .ok (some 2) := rfl
example : (Kin.run demo).lookup "N2" = .ok none := rfl
example : (Kin.run demo).speciesPhaseIndex 99 = .ok 2 := rfl
example : (Kin.run demo).phaseIndex "gas" = some 1 := rfl
example : ∀ o ∈ demo, ∃ p, o = Op.addThermo p := by
  intro o ho; simp only [demo, List.mem_cons, List.not_mem_nil, or_false] at ho
  rcases ho with rfl | rfl | rfl <;> exact ⟨_, rfl⟩

end Verif.KinIndex
