import Verif.Thermo.SpeciesData
import Mathlib.Tactic.FieldSimp
import Mathlib.Tactic.Linarith
import Mathlib.Tactic.LinearCombination
import Mathlib.Tactic.Ring
import Mathlib.Tactic.Positivity

/-!
# C102: theorems on the data of a species
-/

namespace Verif.SpeciesData

/-! ## Molecular weight -/

theorem weightLoop_eq {el : String → Option ℝ} (l : List (String × ℝ)) (w : ℝ)
    (h : ∀ p ∈ l, ∀ a, el p.1 = some a → 0 ≤ a) :
    weightLoop el l w = some (w + (l.map fun p => (el p.1).getD 0 * p.2).sum) := by
  induction l generalizing w with
  | nil => simp [weightLoop]
  | cons p r ih =>
    obtain ⟨e, m⟩ := p
    have ih' := fun w => ih w fun q hq => h q (List.mem_cons_of_mem _ hq)
    cases he : el e with
    | none => simp [weightLoop, he, ih']
    | some a =>
      have := h (e, m) List.mem_cons_self a he
      simp [weightLoop, he, not_lt.2 this, ih', add_assoc]

/-- The weight is the sum of atomic weights; names that are not elements count as zero. -/
theorem weight_sum {el : String → Option ℝ} {comp : List (String × ℝ)}
    (h : ∀ p ∈ comp, ∀ a, el p.1 = some a → 0 ≤ a) :
    molecularWeight el comp (-999.1234) = some (comp.map fun p => (el p.1).getD 0 * p.2).sum := by
  unfold molecularWeight
  rw [if_pos (show (-999.1234 : ℝ) = undef from rfl), weightLoop_eq comp 0 h]
  simp [setWeight]

/-- It throws iff an element without stable isotopes occurs. -/
theorem weight_throws {el : String → Option ℝ} (comp : List (String × ℝ)) :
    molecularWeight el comp (-999.1234) = none ↔ ∃ p ∈ comp, ∃ a, el p.1 = some a ∧ a < 0 := by
  constructor
  · intro h
    by_contra hc
    push Not at hc
    rw [weight_sum fun p hp a ha => hc p hp a ha] at h
    simp at h
  · intro h
    unfold molecularWeight
    rw [if_pos (show (-999.1234 : ℝ) = undef from rfl), Option.map_eq_none_iff]
    generalize (0 : ℝ) = w
    induction comp generalizing w with
    | nil => obtain ⟨p, hp, -⟩ := h; simp at hp
    | cons p r ih =>
      obtain ⟨e, m⟩ := p
      obtain ⟨q, hq, a, ha, hn⟩ := h
      rcases List.mem_cons.1 hq with rfl | hq
      · simp [weightLoop, ha, hn]
      · unfold weightLoop
        cases el e with
        | none => exact ih ⟨q, hq, a, ha, hn⟩ w
        | some b =>
          simp only
          split_ifs
          · rfl
          · exact ih ⟨q, hq, a, ha, hn⟩ _

/-- A stored weight is returned whatever the composition is now. -/
theorem weight_stored (el : String → Option ℝ) (comp : List (String × ℝ)) {w : ℝ} (h : w ≠ -999.1234) :
    molecularWeight el comp w = some w := if_neg h

/-- A species of unknown elements only has weight zero. -/
theorem weight_unknown {el : String → Option ℝ} {comp : List (String × ℝ)} (h : ∀ p ∈ comp, el p.1 = none) :
    molecularWeight el comp (-999.1234) = some 0 := by
  rw [weight_sum fun p hp a ha => by rw [h p hp] at ha; simp at ha]
  congr 1
  refine List.sum_eq_zero fun x hx => ?_
  obtain ⟨p, hp, rfl⟩ := List.mem_map.1 hx
  simp [h p hp]

/-- Setting a weight always takes effect; between positive weights it warns iff they differ by more than 1e-9 of
the larger. -/
theorem setWeight_spec {old w : ℝ} (ho : 0 < old) :
    (setWeight old w).1 = w ∧ ((setWeight old w).2 = true ↔ 1e-9 * max w old < |w - old|) := by
  have h1 : old ≠ undef := by unfold undef; linarith
  have h2 : 0 < max w old := lt_max_of_lt_right ho
  refine ⟨rfl, ?_⟩
  simp only [setWeight, decide_eq_true_eq, lt_div_iff₀ h2]
  exact ⟨fun h => h.2.2, fun h => ⟨h1, h2.ne', h⟩⟩

/-- The first setting never warns. -/
theorem setWeight_first (w : ℝ) : setWeight (-999.1234) w = (w, false) := by
  simp [setWeight, undef]

/-- Between negative weights it never warns. -/
theorem setWeight_negative {old w : ℝ} (ho : old < 0) (hw : w < 0) : (setWeight old w).2 = false := by
  have h2 : max w old < 0 := max_lt hw ho
  simp only [setWeight, decide_eq_false_iff_not]
  rintro ⟨-, -, h⟩
  have := div_nonpos_of_nonneg_of_nonpos (abs_nonneg (w - old)) h2.le
  linarith

/-! ## Reading and writing -/

/-- Reading: the charge is minus the number of electrons, the size is "sites". -/
theorem newSpecies_spec (nd : Node) : (newSpecies nd).size = nd.sites.getD 1 ∧
    (newSpecies nd).charge = -(nd.comp.lookup "E").getD 0 ∧ (newSpecies nd).comp = nd.comp := by
  refine ⟨rfl, ?_, rfl⟩
  unfold newSpecies
  cases nd.comp.lookup "E" <;> simp

/-- Keys "charge" and "size" of a node are not read. -/
theorem keys_ignored (nd : Node) (c z : Option ℝ) :
    (newSpecies { nd with charge := c, size := z }).charge = (newSpecies nd).charge ∧
    (newSpecies { nd with charge := c, size := z }).size = (newSpecies nd).size := ⟨rfl, rfl⟩

/-- Writing with input and reading again gives the same species as long as it is as read. -/
theorem roundtrip_input (nd : Node) : let s := newSpecies nd
    let r := newSpecies (parameters s true)
    r.comp = s.comp ∧ r.charge = s.charge ∧ r.size = s.size := ⟨rfl, rfl, rfl⟩

/-- Without input the size is lost: it is written as "size" and read from "sites". -/
theorem roundtrip_size_lost (s : Sp) : (newSpecies (parameters s false)).size = 1 := rfl

theorem size_refuted : ∃ nd : Node, (newSpecies (parameters (newSpecies nd) false)).size ≠ (newSpecies nd).size := by
  refine ⟨⟨[], none, none, some 2⟩, ?_⟩
  simp [newSpecies, parameters]

/-- A size changed after reading is lost with input too: the old "sites" is written beside it. -/
theorem changed_size_lost (nd : Node) (z : ℝ) :
    (newSpecies (parameters { newSpecies nd with size := z } true)).size = nd.sites.getD 1 := rfl

/-- A charge not given by electrons is lost. -/
theorem charge_lost {s : Sp} (h : s.comp.lookup "E" = none) (b : Bool) :
    (newSpecies (parameters s b)).charge = 0 := by
  unfold newSpecies parameters
  simp [h]

/-! ## Gas transport data -/

theorem setup_spec (t : TNode) : (setup t).diameter * 10 ^ 10 = t.diameter ∧
    (setup t).wellDepth = 1.380649 / 10 ^ 23 * t.wellDepth ∧
    (setup t).dipole * 299792458 * 10 ^ 21 = t.dipole.getD 0 ∧ (setup t).polar * 10 ^ 30 = t.polar.getD 0 ∧
    (setup t).rot = t.rot.getD 0 ∧ (setup t).acentric = t.acentric.getD 0 ∧
    (setup t).disp * 10 ^ 50 = t.disp.getD 0 ∧ (setup t).quad * 10 ^ 50 = t.quad.getD 0 ∧
    (setup t).geometry = t.geometry := by
  refine ⟨?_, rfl, ?_, ?_, rfl, rfl, ?_, ?_, rfl⟩ <;> simp only [setup, lightSpeed] <;> field_simp

/-- Writing and reading again gives the same data. -/
theorem gas_roundtrip (g : Gas) : setup (params g) = g := by
  have hb : boltzmann ≠ 0 := by unfold boltzmann; positivity
  have hl : lightSpeed ≠ 0 := by norm_num [lightSpeed]
  have key : ∀ (x c d : ℝ), c * d = 1 → c * ((if x ≠ 0 then some (x * d) else none : Option ℝ)).getD 0 = x := by
    intro x c d h
    by_cases hx : x = 0
    · simp [hx]
    · simp only [ne_eq, hx, not_false_eq_true, if_true, Option.getD_some]
      linear_combination x * h
  have key1 : ∀ x : ℝ, ((if x ≠ 0 then some x else none : Option ℝ)).getD 0 = x := by
    intro x
    by_cases hx : x = 0 <;> simp [hx]
  cases g
  simp only [setup, params, Gas.mk.injEq, true_and]
  refine ⟨by field_simp, by field_simp, ?_, ?_, key1 _, key1 _, key _ _ _ (by norm_num), key _ _ _ (by norm_num)⟩
  · simp only [mul_assoc]
    exact key _ _ _ (by field_simp)
  · simp only [mul_comm (10 ^ 30 : ℝ)]
    exact key _ _ _ (by norm_num)

theorem nAtoms_eq (isE : String → Bool) (l : List (String × ℝ)) :
    nAtoms isE l = ((l.filter fun p => !isE p.1).map Prod.snd).sum := by
  induction l with
  | nil => rfl
  | cons p r ih =>
    obtain ⟨e, m⟩ := p
    cases he : isE e <;> simp [nAtoms, he, ih]

/-- What validate accepts; the number of atoms leaves out electrons. -/
theorem validate_iff (isE : String → Bool) (comp : List (String × ℝ)) (g : Gas) :
    validate isE comp g = true ↔
      ((g.geometry = "atom" ∧ ((comp.filter fun p => !isE p.1).map Prod.snd).sum ≤ 1) ∨
       (g.geometry = "linear" ∧ 2 ≤ ((comp.filter fun p => !isE p.1).map Prod.snd).sum) ∨
       (g.geometry = "nonlinear" ∧ 3 ≤ ((comp.filter fun p => !isE p.1).map Prod.snd).sum)) ∧
      0 ≤ g.wellDepth ∧ 0 < g.diameter ∧ 0 ≤ g.dipole ∧ 0 ≤ g.polar ∧ 0 ≤ g.rot ∧ 0 ≤ g.disp ∧ 0 ≤ g.quad := by
  rw [← nAtoms_eq]
  unfold validate
  simp only [Bool.and_eq_true, Bool.not_eq_true', decide_eq_false_iff_not, not_lt, not_le]
  by_cases h1 : g.geometry = "atom"
  · simp [h1, and_assoc]
  · by_cases h2 : g.geometry = "linear"
    · simp [h2, and_assoc]
    · by_cases h3 : g.geometry = "nonlinear"
      · simp [h3, and_assoc]
      · simp [h1, h2, h3]

/-- An "atom" may have no atoms at all, and the acentric factor is not checked. -/
theorem validate_gaps (isE : String → Bool) (a : ℝ) : validate isE [] ⟨"atom", 1, 1, 0, 0, 0, a, 0, 0⟩ = true := by
  rw [validate_iff]
  simp

/-! ## Continuity -/

/-- No warnings and a positive heat capacity: the jumps are bounded. -/
theorem nasa_silent {cl hl sl ch hh sh : ℝ} (hc : 0 < cl)
    (h : nasaWarn cl hl sl ch hh sh = (false, false, false)) :
    |cl - ch| ≤ 0.01 * (cl + 0.0001) ∧ |hl - hh| ≤ 0.001 * cl ∧ |sl - sh| ≤ 0.001 * (|sl| + cl) := by
  have q1 : 0 < |cl| + 1e-4 := by positivity
  have q3 : 0 < |sl| + cl := by positivity
  simp only [nasaWarn, exceeds, q1.ne', hc.ne', q3.ne', if_false, Prod.mk.injEq, decide_eq_false_iff_not, not_lt,
    abs_div] at h
  obtain ⟨h1, h2, h3⟩ := h
  rw [abs_of_pos q1, div_le_iff₀ q1, abs_of_pos hc] at h1
  rw [abs_of_pos hc, div_le_iff₀ hc] at h2
  rw [abs_of_pos q3, div_le_iff₀ q3] at h3
  refine ⟨?_, h2, h3⟩
  norm_num at h1 ⊢
  linarith

/-- Each warning means that its jump is too large. -/
theorem nasa_warns {cl hl sl ch hh sh : ℝ} (hc : 0 < cl) :
    ((nasaWarn cl hl sl ch hh sh).1 = true ↔ 0.01 * (cl + 1e-4) < |cl - ch|) ∧
    ((nasaWarn cl hl sl ch hh sh).2.1 = true ↔ 0.001 * cl < |hl - hh|) ∧
    ((nasaWarn cl hl sl ch hh sh).2.2 = true ↔ 0.001 * (|sl| + cl) < |sl - sh|) := by
  have q1 : 0 < |cl| + 1e-4 := by positivity
  have q3 : 0 < |sl| + cl := by positivity
  have q1' : 0 < cl + 1e-4 := by positivity
  simp only [nasaWarn, exceeds, q1.ne', hc.ne', q3.ne', if_false, decide_eq_true_eq, abs_div]
  rw [abs_of_pos q1, abs_of_pos hc, abs_of_pos q3, lt_div_iff₀ q1', lt_div_iff₀ hc, lt_div_iff₀ q3]
  exact ⟨Iff.rfl, Iff.rfl, Iff.rfl⟩

/-- A continuous polynomial gives no warning, whatever its values. -/
theorem nasa_continuous (c h s : ℝ) : nasaWarn c h s c h s = (false, false, false) := by
  unfold nasaWarn exceeds
  simp only [sub_self, zero_div, abs_zero, ne_eq, not_true_eq_false, decide_false]
  norm_num

/-- The enthalpy jump is compared with the heat capacity, so it may be any fraction of the enthalpy itself. -/
theorem nasa_relative (k : ℝ) : ∃ cl hl hh : ℝ, nasaWarn cl hl 1 cl hh 1 = (false, false, false) ∧
    0 < hh ∧ k * hh < |hl - hh| := by
  refine ⟨4000 * (|k| + 1), 1 / 2 + (|k| + 1), 1 / 2, ?_, by norm_num, ?_⟩
  · have hk : 0 < |k| + 1 := by positivity
    have h1 : (4000 : ℝ) * (|k| + 1) ≠ 0 := by positivity
    have e : |(1 / 2 + (|k| + 1) - 1 / 2) / (4000 * (|k| + 1))| = 1 / 4000 := by
      rw [show (1 / 2 + (|k| + 1) - 1 / 2) / (4000 * (|k| + 1)) = 1 / 4000 by field_simp; ring]
      norm_num
    unfold nasaWarn exceeds
    simp only [sub_self, zero_div, abs_zero, ne_eq, not_true_eq_false, decide_false, h1, if_false, e]
    norm_num
  · have := le_abs_self k
    have hk : 0 ≤ |k| := abs_nonneg k
    rw [show (1 / 2 + (|k| + 1) - 1 / 2 : ℝ) = |k| + 1 by ring, abs_of_pos (by positivity)]
    linarith

/-- With negative heat capacity the entropy test divides by a small or zero number: a jump of any size, however
small, warns. -/
theorem nasa_negative_cp (s : ℝ) {d : ℝ} (hd : d ≠ 0) (h h' c : ℝ) :
    (nasaWarn (-|s|) h s c h' (s - d)).2.2 = true := by
  simp [nasaWarn, exceeds, hd]

example : molecularWeight (fun s => if s = "H" then some 1.008 else none) [("H", 2), ("Q", 1)] (-999.1234) =
    some ([("H", (2 : ℝ)), ("Q", 1)].map fun p => ((if p.1 = "H" then some 1.008 else none : Option ℝ)).getD 0 * p.2).sum :=
  weight_sum (el := fun s => if s = "H" then some 1.008 else none) (by
    intro p hp a ha
    split_ifs at ha
    simp only [Option.some.injEq] at ha
    rw [← ha]; norm_num)
example : (setWeight 18 19).2 = true := by
  rw [(setWeight_spec (by norm_num)).2]
  norm_num
example : nasaWarn 4 1 20 5 1 20 = (true, false, false) := by
  unfold nasaWarn exceeds
  norm_num

end Verif.SpeciesData
