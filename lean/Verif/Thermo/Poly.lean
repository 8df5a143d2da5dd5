import Verif.Basic
import Mathlib.Analysis.SpecialFunctions.Log.Deriv
import Mathlib.Analysis.Calculus.Deriv.Inv
import Mathlib.Tactic.Common
import Mathlib.Tactic.SplitIfs
import Mathlib.Tactic.Linarith
import Mathlib.Tactic.FieldSimp
import Mathlib.Tactic.Ring
import Mathlib.Tactic.NormNum

/-!
# C25, C26: species reference state parameterisations

include/cantera/thermo/NasaPoly1.h, NasaPoly2.h, ShomatePoly.h, src/thermo/Nasa9Poly1.cpp,
Nasa9PolyMultiTempRegion.cpp, ConstCpPoly.cpp.

Coefficient vectors and temperature polynomials are functions on `Nat` (only the entries the code
uses matter).  The decimal factors of the code are the exact rationals.  The gas constant is a
parameter `R`, assumed nonzero where it is divided by.
-/

namespace Verif.Poly

/-- cp/R, h/RT, s/R -/
structure Props where
  cp : ℝ
  h : ℝ
  s : ℝ

/-- Replace one entry of a vector. -/
def upd (c : Nat → ℝ) (i : Nat) (x : ℝ) : Nat → ℝ := fun k => if k = i then x else c k

/-! ### Models -/

/-- NasaPoly1::updateTemperaturePoly (NasaPoly1.h:83-90) -/
noncomputable def nasaTT (T : ℝ) : Nat → ℝ
  | 0 => T
  | 1 => T * T
  | 2 => T * T * T
  | 3 => T * T * T * T
  | 4 => 1 / T
  | 5 => Real.log T
  | _ => 0

/-- NasaPoly1::updateProperties (NasaPoly1.h:103-122) -/
noncomputable def nasaProps (c tt : Nat → ℝ) : Props :=
  let ct0 := c 0
  let ct1 := c 1 * tt 0
  let ct2 := c 2 * tt 1
  let ct3 := c 3 * tt 2
  let ct4 := c 4 * tt 3
  { cp := ct0 + ct1 + ct2 + ct3 + ct4
    h := ct0 + 1 / 2 * ct1 + 1 / 3 * ct2 + 1 / 4 * ct3 + 1 / 5 * ct4 + c 5 * tt 4
    s := ct0 * tt 5 + ct1 + 1 / 2 * ct2 + 1 / 3 * ct3 + 1 / 4 * ct4 + c 6 }

/-- NasaPoly1::updatePropertiesTemp (NasaPoly1.h:124-129) -/
noncomputable def nasa (c : Nat → ℝ) (T : ℝ) : Props := nasaProps c (nasaTT T)

/-- Nasa9Poly1::updateTemperaturePoly (Nasa9Poly1.cpp:47-56) and the identical
Nasa9PolyMultiTempRegion::updateTemperaturePoly (Nasa9PolyMultiTempRegion.cpp:105-114) -/
noncomputable def nasa9TT (T : ℝ) : Nat → ℝ
  | 0 => T
  | 1 => T * T
  | 2 => T * T * T
  | 3 => T * T * T * T
  | 4 => 1 / T
  | 5 => 1 / T / T
  | 6 => Real.log T
  | _ => 0

/-- Nasa9Poly1::updateProperties (Nasa9Poly1.cpp:58-80) -/
noncomputable def nasa9Props (c tt : Nat → ℝ) : Props :=
  let ct0 := c 0 * tt 5
  let ct1 := c 1 * tt 4
  let ct2 := c 2
  let ct3 := c 3 * tt 0
  let ct4 := c 4 * tt 1
  let ct5 := c 5 * tt 2
  let ct6 := c 6 * tt 3
  { cp := ct0 + ct1 + ct2 + ct3 + ct4 + ct5 + ct6
    h := -ct0 + tt 6 * ct1 + ct2 + 1 / 2 * ct3 + 1 / 3 * ct4 + 1 / 4 * ct5 + 1 / 5 * ct6 + c 7 * tt 4
    s := -(1 / 2) * ct0 - ct1 + tt 6 * ct2 + ct3 + 1 / 2 * ct4 + 1 / 3 * ct5 + 1 / 4 * ct6 + c 8 }

/-- Nasa9Poly1::updatePropertiesTemp (Nasa9Poly1.cpp:82-88) -/
noncomputable def nasa9 (c : Nat → ℝ) (T : ℝ) : Props := nasa9Props c (nasa9TT T)

/-- ShomatePoly::updateTemperaturePoly (ShomatePoly.h:103-111) -/
noncomputable def shomTT (T : ℝ) : Nat → ℝ
  | 0 => 1 / 1000 * T
  | 1 => 1 / 1000 * T * (1 / 1000 * T)
  | 2 => 1 / 1000 * T * (1 / 1000 * T) * (1 / 1000 * T)
  | 3 => 1 / (1 / 1000 * T * (1 / 1000 * T))
  | 4 => Real.log (1 / 1000 * T)
  | 5 => 1 / (1 / 1000 * T)
  | _ => 0

/-- ShomatePoly::updateProperties (ShomatePoly.h:125-138) -/
noncomputable def shomProps (c tt : Nat → ℝ) : Props :=
  let A := c 0
  let Bt := c 1 * tt 0
  let Ct2 := c 2 * tt 1
  let Dt3 := c 3 * tt 2
  let Etm2 := c 4 * tt 3
  let Ftm1 := c 5 * tt 5
  let G := c 6
  { cp := A + Bt + Ct2 + Dt3 + Etm2
    h := A + 1 / 2 * Bt + 1 / 3 * Ct2 + 1 / 4 * Dt3 - Etm2 + Ftm1
    s := A * tt 4 + Bt + 1 / 2 * Ct2 + 1 / 3 * Dt3 - 1 / 2 * Etm2 + G }

/-- ShomatePoly::updatePropertiesTemp (ShomatePoly.h:140-145) -/
noncomputable def shom (c : Nat → ℝ) (T : ℝ) : Props := shomProps c (shomTT T)

/-- Members of ConstCpPoly; `orig` is `m_h0_R_orig` (ConstCpPoly.h:98-109). -/
structure ConstCp where
  t0 : ℝ
  logt0 : ℝ
  cp0 : ℝ
  h0 : ℝ
  s0 : ℝ
  orig : ℝ

/-- ConstCpPoly::setParameters (ConstCpPoly.cpp:29-36); `m_h0_R_orig` keeps its value. -/
noncomputable def ConstCp.setParameters (R : ℝ) (p : ConstCp) (t0 h0 s0 cp0 : ℝ) : ConstCp :=
  { p with t0 := t0, logt0 := Real.log t0, cp0 := cp0 / R, h0 := h0 / R, s0 := s0 / R }

/-- A new object (ConstCpPoly.h:100-109 default member values) with parameters set. -/
noncomputable def ConstCp.new (R t0 h0 s0 cp0 : ℝ) : ConstCp :=
  ConstCp.setParameters R ⟨0, 0, 0, 0, 0, 0⟩ t0 h0 s0 cp0

/-- ConstCpPoly::updateProperties and updatePropertiesTemp (ConstCpPoly.cpp:38-61) -/
noncomputable def ConstCp.props (p : ConstCp) (T : ℝ) : Props :=
  { cp := p.cp0
    h := 1 / T * (p.h0 + (T - p.t0) * p.cp0)
    s := p.s0 + p.cp0 * (Real.log T - p.logt0) }

/-- NasaPoly2 and ShomatePoly2 with given one-region forms: low region up to and including the
middle temperature (NasaPoly2.h:114-121, ShomatePoly.h:304-311). -/
noncomputable def twoRegion (mid : ℝ) (low high : ℝ → Props) (T : ℝ) : Props :=
  if T ≤ mid then low T else high T

/-- The loop selecting the region (Nasa9PolyMultiTempRegion.cpp:119-125, 134-140); `l` are the lower
bounds of regions 1, 2, … -/
noncomputable def regionLoop (T : ℝ) : List ℝ → Nat → Nat
  | [], r => r
  | b :: l, r => if T < b then r else regionLoop T l (r + 1)

/-- Nasa9PolyMultiTempRegion::updatePropertiesTemp (Nasa9PolyMultiTempRegion.cpp:130-143).  Regions
are pairs of lower bound and coefficients; without regions the access is undefined. -/
noncomputable def multi9 (regs : List (ℝ × (Nat → ℝ))) (T : ℝ) : Verif.Outcome Props :=
  match regs[regionLoop T (regs.tail.map Prod.fst) 0]? with
  | some r => .ok (nasa9 r.2 T)
  | none => .ub

/-! ### C25: consistency -/

/-- cp is the derivative of the enthalpy `T * (h/RT)` and cp/T that of the entropy at `T`. -/
def ConsistentAt (f : ℝ → Props) (T : ℝ) : Prop :=
  HasDerivAt (fun x => x * (f x).h) (f T).cp T ∧ HasDerivAt (fun x => (f x).s) ((f T).cp / T) T

theorem hd {f g : ℝ → ℝ} {a b T : ℝ} (h : HasDerivAt f a T) (e : ∀ x, g x = f x) (ea : b = a) :
    HasDerivAt g b T := by
  have : g = f := funext e
  rw [this, ea]; exact h

theorem nasa_consistent (c : Nat → ℝ) (T : ℝ) (hT : 0 < T) : ConsistentAt (nasa c) T := by
  have hid := hasDerivAt_id T
  have hlog := Real.hasDerivAt_log hT.ne'
  constructor
  · have h1 : HasDerivAt (fun x : ℝ => c 0 * x + 1 / 2 * c 1 * x ^ 2 + 1 / 3 * c 2 * x ^ 3 +
        1 / 4 * c 3 * x ^ 4 + 1 / 5 * c 4 * x ^ 5 + c 5) (nasa c T).cp T := by
      have := ((((((hid.const_mul (c 0)).add ((hid.pow 2).const_mul (1 / 2 * c 1))).add
        ((hid.pow 3).const_mul (1 / 3 * c 2))).add ((hid.pow 4).const_mul (1 / 4 * c 3))).add
        ((hid.pow 5).const_mul (1 / 5 * c 4))).add_const (c 5))
      refine hd this (fun x => rfl) ?_
      simp only [nasa, nasaProps, nasaTT, id]
      push_cast; ring
    refine h1.congr_of_eventuallyEq ?_
    filter_upwards [lt_mem_nhds hT] with x hx
    simp only [nasa, nasaProps, nasaTT]
    field_simp
  · have h1 := ((((((hlog.const_mul (c 0)).add (hid.const_mul (c 1))).add
        ((hid.pow 2).const_mul (1 / 2 * c 2))).add ((hid.pow 3).const_mul (1 / 3 * c 3))).add
        ((hid.pow 4).const_mul (1 / 4 * c 4))).add_const (c 6))
    refine hd h1 (fun x => ?_) ?_
    · simp only [nasa, nasaProps, nasaTT, id, Pi.add_apply, Pi.pow_apply]
      ring
    · simp only [nasa, nasaProps, nasaTT, id]
      push_cast; field_simp

theorem nasa9_consistent (c : Nat → ℝ) (T : ℝ) (hT : 0 < T) : ConsistentAt (nasa9 c) T := by
  have hid := hasDerivAt_id T
  have hlog := Real.hasDerivAt_log hT.ne'
  have hinv := hasDerivAt_inv hT.ne'
  constructor
  · have h1 : HasDerivAt (fun x : ℝ => -c 0 * x⁻¹ + c 1 * Real.log x + c 2 * x + 1 / 2 * c 3 * x ^ 2 +
        1 / 3 * c 4 * x ^ 3 + 1 / 4 * c 5 * x ^ 4 + 1 / 5 * c 6 * x ^ 5 + c 7) (nasa9 c T).cp T := by
      have := ((((((((hinv.const_mul (-c 0)).add (hlog.const_mul (c 1))).add
        (hid.const_mul (c 2))).add ((hid.pow 2).const_mul (1 / 2 * c 3))).add
        ((hid.pow 3).const_mul (1 / 3 * c 4))).add ((hid.pow 4).const_mul (1 / 4 * c 5))).add
        ((hid.pow 5).const_mul (1 / 5 * c 6))).add_const (c 7))
      refine hd this (fun x => rfl) ?_
      simp only [nasa9, nasa9Props, nasa9TT, id]
      push_cast; field_simp
    refine h1.congr_of_eventuallyEq ?_
    filter_upwards [lt_mem_nhds hT] with x hx
    simp only [nasa9, nasa9Props, nasa9TT]
    field_simp
  · have h1 : HasDerivAt (fun x : ℝ => -(1 / 2) * c 0 * (x⁻¹) ^ 2 + -c 1 * x⁻¹ + c 2 * Real.log x +
        c 3 * x + 1 / 2 * c 4 * x ^ 2 + 1 / 3 * c 5 * x ^ 3 + 1 / 4 * c 6 * x ^ 4 + c 8)
        ((nasa9 c T).cp / T) T := by
      have := ((((((((hinv.pow 2).const_mul (-(1 / 2) * c 0)).add (hinv.const_mul (-c 1))).add
        (hlog.const_mul (c 2))).add (hid.const_mul (c 3))).add
        ((hid.pow 2).const_mul (1 / 2 * c 4))).add ((hid.pow 3).const_mul (1 / 3 * c 5))).add
        ((hid.pow 4).const_mul (1 / 4 * c 6))).add_const (c 8)
      refine hd this (fun x => rfl) ?_
      simp only [nasa9, nasa9Props, nasa9TT, id]
      push_cast; field_simp
    refine h1.congr_of_eventuallyEq ?_
    filter_upwards [lt_mem_nhds hT] with x hx
    simp only [nasa9, nasa9Props, nasa9TT]
    field_simp; ring

theorem shom_consistent (c : Nat → ℝ) (T : ℝ) (hT : 0 < T) : ConsistentAt (shom c) T := by
  have hid := hasDerivAt_id T
  have hinv := hasDerivAt_inv hT.ne'
  have hlog : HasDerivAt (fun x : ℝ => Real.log (1 / 1000 * x)) (1 / T) T := by
    have h := ((hasDerivAt_id T).const_mul (1 / 1000)).log (by simp; exact hT.ne')
    refine hd h (fun x => rfl) ?_
    simp only [id]
    field_simp
  constructor
  · have h1 : HasDerivAt (fun x : ℝ => c 0 * x + 1 / 2 * c 1 / 1000 * x ^ 2 +
        1 / 3 * c 2 / 1000 ^ 2 * x ^ 3 + 1 / 4 * c 3 / 1000 ^ 3 * x ^ 4 + -c 4 * 1000 ^ 2 * x⁻¹
        + 1000 * c 5) (shom c T).cp T := by
      have := ((((((hid.const_mul (c 0)).add ((hid.pow 2).const_mul (1 / 2 * c 1 / 1000))).add
        ((hid.pow 3).const_mul (1 / 3 * c 2 / 1000 ^ 2))).add
        ((hid.pow 4).const_mul (1 / 4 * c 3 / 1000 ^ 3))).add
        (hinv.const_mul (-c 4 * 1000 ^ 2))).add_const (1000 * c 5))
      refine hd this (fun x => rfl) ?_
      simp only [shom, shomProps, shomTT, id]
      push_cast; field_simp
    refine h1.congr_of_eventuallyEq ?_
    filter_upwards [lt_mem_nhds hT] with x hx
    simp only [shom, shomProps, shomTT]
    field_simp; ring
  · have h1 : HasDerivAt (fun x : ℝ => c 0 * Real.log (1 / 1000 * x) + c 1 / 1000 * x +
        1 / 2 * c 2 / 1000 ^ 2 * x ^ 2 + 1 / 3 * c 3 / 1000 ^ 3 * x ^ 3 +
        -(1 / 2) * c 4 * 1000 ^ 2 * (x⁻¹) ^ 2 + c 6) ((shom c T).cp / T) T := by
      have := ((((((hlog.const_mul (c 0)).add (hid.const_mul (c 1 / 1000))).add
        ((hid.pow 2).const_mul (1 / 2 * c 2 / 1000 ^ 2))).add
        ((hid.pow 3).const_mul (1 / 3 * c 3 / 1000 ^ 3))).add
        ((hinv.pow 2).const_mul (-(1 / 2) * c 4 * 1000 ^ 2))).add_const (c 6))
      refine hd this (fun x => rfl) ?_
      simp only [shom, shomProps, shomTT, id]
      push_cast; field_simp
    refine h1.congr_of_eventuallyEq ?_
    filter_upwards [lt_mem_nhds hT] with x hx
    simp only [shom, shomProps, shomTT]
    field_simp; ring

theorem constCp_consistent (p : ConstCp) (T : ℝ) (hT : 0 < T) : ConsistentAt p.props T := by
  have hid := hasDerivAt_id T
  have hlog := Real.hasDerivAt_log hT.ne'
  constructor
  · have h1 : HasDerivAt (fun x : ℝ => p.h0 + (x - p.t0) * p.cp0) (p.props T).cp T := by
      have := ((hid.sub_const p.t0).mul_const p.cp0).const_add p.h0
      refine hd this (fun x => rfl) ?_
      simp [ConstCp.props]
    refine h1.congr_of_eventuallyEq ?_
    filter_upwards [lt_mem_nhds hT] with x hx
    simp only [ConstCp.props]
    field_simp
  · have := ((hlog.sub_const p.logt0).const_mul p.cp0).const_add p.s0
    exact hd this (fun x => rfl) (by simp [ConstCp.props, div_eq_mul_inv])

/-- Two functions that agree near `T` are consistent together. -/
theorem ConsistentAt.congr {f g : ℝ → Props} {T : ℝ} (h : ConsistentAt f T)
    (e : ∀ᶠ x in nhds T, g x = f x) : ConsistentAt g T := by
  have eT : g T = f T := e.self_of_nhds
  unfold ConsistentAt
  rw [eT]
  exact ⟨h.1.congr_of_eventuallyEq (e.mono fun x hx => by simp only [hx]),
    h.2.congr_of_eventuallyEq (e.mono fun x hx => by simp only [hx])⟩

/-- The two-region forms use the low region up to and including the middle temperature, and are
consistent at every other temperature. -/
theorem twoRegion_consistent (mid : ℝ) (low high : ℝ → Props)
    (hl : ∀ T, 0 < T → ConsistentAt low T) (hh : ∀ T, 0 < T → ConsistentAt high T) (T : ℝ)
    (hT : 0 < T) (hm : T ≠ mid) : ConsistentAt (twoRegion mid low high) T := by
  rcases lt_or_gt_of_ne hm with h | h
  · refine (hl T hT).congr ?_
    filter_upwards [gt_mem_nhds h] with x hx
    simp [twoRegion, hx.le]
  · refine (hh T hT).congr ?_
    filter_upwards [lt_mem_nhds h] with x hx
    simp [twoRegion, hx]

theorem twoRegion_at (mid : ℝ) (low high : ℝ → Props) :
    (∀ T, T ≤ mid → twoRegion mid low high T = low T) ∧
    (∀ T, mid < T → twoRegion mid low high T = high T) :=
  ⟨fun T h => by simp [twoRegion, h], fun T h => by simp [twoRegion, not_le.mpr h]⟩

/-- NASA 7-coefficient and Shomate polynomials with two regions. -/
theorem nasa2_consistent (mid : ℝ) (a b : Nat → ℝ) (T : ℝ) (hT : 0 < T) (hm : T ≠ mid) :
    ConsistentAt (twoRegion mid (nasa a) (nasa b)) T ∧
    ConsistentAt (twoRegion mid (shom a) (shom b)) T :=
  ⟨twoRegion_consistent mid _ _ (nasa_consistent a) (nasa_consistent b) T hT hm,
   twoRegion_consistent mid _ _ (shom_consistent a) (shom_consistent b) T hT hm⟩

theorem regionLoop_shift (T : ℝ) (l : List ℝ) (r : Nat) : regionLoop T l r = r + regionLoop T l 0 := by
  induction l generalizing r with
  | nil => rfl
  | cons b l ih =>
    unfold regionLoop
    split_ifs
    · rfl
    · rw [ih (r + 1), ih (0 + 1)]; omega

/-- The loop finds the region: all bounds up to the result are at most `T`, the next one is larger. -/
theorem regionLoop_spec (T : ℝ) (l : List ℝ) :
    regionLoop T l 0 ≤ l.length ∧
    (∀ (i : Nat) (b : ℝ), i < regionLoop T l 0 → l[i]? = some b → b ≤ T) ∧
    (∀ b, l[regionLoop T l 0]? = some b → T < b) := by
  induction l with
  | nil => simp [regionLoop]
  | cons a l ih =>
    unfold regionLoop
    split_ifs with h
    · simp [h]
    · rw [regionLoop_shift]
      obtain ⟨i1, i2, i3⟩ := ih
      refine ⟨by simp; omega, ?_, ?_⟩
      · intro i b hi hb
        cases i with
        | zero => simp at hb; rw [← hb]; exact not_lt.mp h
        | succ i => exact i2 i b (by omega) (by simpa using hb)
      · intro b hb
        rw [show 0 + 1 + regionLoop T l 0 = regionLoop T l 0 + 1 by omega] at hb
        exact i3 b (by simpa using hb)

/-- With at least one region the NASA-9 form never reads outside its regions, and with increasing
bounds it uses the region whose interval `[b_r, b_{r+1})` contains `T` (the first one also below). -/
theorem multi9_region (regs : List (ℝ × (Nat → ℝ))) (hne : regs ≠ [])
    (hs : (regs.map Prod.fst).Pairwise (· < ·)) (T : ℝ) :
    ∃ (r : Nat) (q : ℝ × (Nat → ℝ)), regs[r]? = some q ∧ multi9 regs T = .ok (nasa9 q.2 T) ∧
      (r = 0 ∨ q.1 ≤ T) ∧ ∀ (j : Nat) (p : ℝ × (Nat → ℝ)), r < j → regs[j]? = some p → T < p.1 := by
  obtain ⟨a, l, rfl⟩ := List.exists_cons_of_ne_nil hne
  obtain ⟨h1, h2, h3⟩ := regionLoop_spec T (l.map Prod.fst)
  simp only [List.length_map] at h1
  have hr : regionLoop T (l.map Prod.fst) 0 < (a :: l).length := by simp; omega
  refine ⟨regionLoop T (l.map Prod.fst) 0, (a :: l)[regionLoop T (l.map Prod.fst) 0],
    List.getElem?_eq_getElem hr, ?_, ?_, ?_⟩
  · simp [multi9, List.getElem?_eq_getElem hr]
  · generalize regionLoop T (l.map Prod.fst) 0 = n at *
    cases n with
    | zero => exact Or.inl rfl
    | succ r =>
      right
      have hrl : r < l.length := by omega
      have := h2 r (l[r]).1 (by omega) (by simp [List.getElem?_map, List.getElem?_eq_getElem hrl])
      simpa using this
  · intro j p hj hp
    cases j with
    | zero => omega
    | succ j =>
      have hjl : j < l.length := by
        have := (List.getElem?_eq_some_iff.mp hp).1; simpa using this
      have hrl : regionLoop T (l.map Prod.fst) 0 < l.length := by omega
      have hb := h3 (l[regionLoop T (l.map Prod.fst) 0]).1
        (by simp [List.getElem?_map, List.getElem?_eq_getElem hrl])
      have hp' : p = l[j] := by
        have := (List.getElem?_eq_some_iff.mp hp).2; simpa using this.symm
      rw [hp']
      rcases Nat.lt_or_ge (regionLoop T (l.map Prod.fst) 0) j with hlt | hge
      · have hpw := (List.pairwise_iff_getElem.mp hs) (regionLoop T (l.map Prod.fst) 0 + 1) (j + 1)
          (by simp; omega) (by simp; omega) (by omega)
        simp only [List.map_cons, List.getElem_cons_succ, List.getElem_map] at hpw
        linarith
      · have : j = regionLoop T (l.map Prod.fst) 0 := by omega
        subst this
        exact hb

/-- NASA-9 with several regions is consistent away from the region boundaries. -/
theorem multi9_consistent (regs : List (ℝ × (Nat → ℝ))) (hne : regs ≠ []) (T : ℝ) (hT : 0 < T)
    (hb : ∀ q ∈ regs.tail, T ≠ q.1) :
    ∃ f : ℝ → Props, (∀ᶠ x in nhds T, multi9 regs x = .ok (f x)) ∧ ConsistentAt f T := by
  obtain ⟨a, l, rfl⟩ := List.exists_cons_of_ne_nil hne
  simp only [List.tail_cons] at hb
  have hloc : ∀ (l : List (ℝ × (Nat → ℝ))), (∀ q ∈ l, T ≠ q.1) →
      ∀ᶠ x in nhds T, regionLoop x (l.map Prod.fst) 0 = regionLoop T (l.map Prod.fst) 0 := by
    intro l
    induction l with
    | nil => intro _; exact Filter.Eventually.of_forall fun _ => rfl
    | cons q l ih =>
      intro hb
      have ih' := ih (fun q hq => hb q (by simp [hq]))
      rcases lt_or_gt_of_ne (hb q (by simp)) with h | h
      · filter_upwards [gt_mem_nhds h] with x hx
        simp [regionLoop, hx, h]
      · filter_upwards [lt_mem_nhds h, ih'] with x hx hx2
        simp only [List.map_cons, regionLoop, not_lt.mpr hx.le, not_lt.mpr h.le, if_false]
        rw [regionLoop_shift, regionLoop_shift T, hx2]
  obtain ⟨h1, _, _⟩ := regionLoop_spec T (l.map Prod.fst)
  simp only [List.length_map] at h1
  have hr : regionLoop T (l.map Prod.fst) 0 < (a :: l).length := by simp; omega
  refine ⟨nasa9 ((a :: l)[regionLoop T (l.map Prod.fst) 0]).2, ?_, nasa9_consistent _ T hT⟩
  filter_upwards [hloc l hb] with x hx
  unfold multi9
  simp only [List.tail_cons, hx, List.getElem?_eq_getElem hr]

/-! ### C26: heat of formation -/

/-- One region NASA or Shomate object: coefficients and `m_coeff5_orig`. -/
structure One where
  c : Nat → ℝ
  orig : ℝ

/-- Constructors and setParameters (NasaPoly1.h:60-75; ShomatePoly.h:74-95 with the coefficients
already scaled by 1000/R). -/
def One.new (c : Nat → ℝ) : One := ⟨c, c 5⟩

/-- Enthalpy at 298.15 K in J/kmol: NasaPoly1::reportHf298 (NasaPoly1.h:147-165) recomputes the
expression of `updateProperties`; ShomatePoly::reportHf298 (ShomatePoly.h:169-173) calls it. -/
noncomputable def report (R : ℝ) (f : ℝ → Props) : ℝ := (f (29815 / 100)).h * R * (29815 / 100)

/-- NasaPoly1::modifyOneHf298 (NasaPoly1.h:167-171) -/
noncomputable def One.modifyN (R : ℝ) (p : One) (x : ℝ) : One :=
  { p with c := upd p.c 5 (p.c 5 + (x - report R (nasa p.c)) / R) }

/-- ShomatePoly::modifyOneHf298 (ShomatePoly.h:175-179) -/
noncomputable def One.modifyS (R : ℝ) (p : One) (x : ℝ) : One :=
  { p with c := upd p.c 5 (p.c 5 + (x - report R (shom p.c)) / (1000 * R)) }

/-- resetHf298 (NasaPoly1.h:173-175, ShomatePoly.h:181-183) -/
def One.reset (p : One) : One := { p with c := upd p.c 5 p.orig }

/-- Changing the enthalpy offset shifts enthalpy only. -/
theorem nasa_shift (c : Nat → ℝ) (d T : ℝ) :
    (nasa (upd c 5 (c 5 + d)) T).cp = (nasa c T).cp ∧ (nasa (upd c 5 (c 5 + d)) T).s = (nasa c T).s ∧
    (nasa (upd c 5 (c 5 + d)) T).h = (nasa c T).h + d / T := by
  refine ⟨?_, ?_, ?_⟩ <;> simp [nasa, nasaProps, nasaTT, upd]
  ring

theorem shom_shift (c : Nat → ℝ) (d T : ℝ) :
    (shom (upd c 5 (c 5 + d)) T).cp = (shom c T).cp ∧ (shom (upd c 5 (c 5 + d)) T).s = (shom c T).s ∧
    (shom (upd c 5 (c 5 + d)) T).h = (shom c T).h + 1000 * d / T := by
  refine ⟨?_, ?_, ?_⟩ <;> simp [shom, shomProps, shomTT, upd]
  ring

/-- What a modification must do to the property function: report the new value, leave cp and s,
shift the enthalpy by one constant at all temperatures. -/
structure Modified (R : ℝ) (f g : ℝ → Props) (x : ℝ) : Prop where
  rep : report R g = x
  cp : ∀ T, (g T).cp = (f T).cp
  s : ∀ T, (g T).s = (f T).s
  h : ∀ T, 0 < T → (g T).h * R * T = (f T).h * R * T + (x - report R f)

theorem nasa_modify (R : ℝ) (hR : R ≠ 0) (p : One) (x : ℝ) :
    Modified R (nasa p.c) (nasa (p.modifyN R x).c) x := by
  have hs := nasa_shift p.c ((x - report R (nasa p.c)) / R)
  refine ⟨?_, fun T => (hs T).1, fun T => (hs T).2.1, fun T hT => ?_⟩
  · unfold One.modifyN
    rw [report, (hs _).2.2]
    unfold report
    field_simp; ring
  · unfold One.modifyN
    rw [(hs T).2.2]
    field_simp

theorem shom_modify (R : ℝ) (hR : R ≠ 0) (p : One) (x : ℝ) :
    Modified R (shom p.c) (shom (p.modifyS R x).c) x := by
  have hs := shom_shift p.c ((x - report R (shom p.c)) / (1000 * R))
  refine ⟨?_, fun T => (hs T).1, fun T => (hs T).2.1, fun T hT => ?_⟩
  · unfold One.modifyS
    rw [report, (hs _).2.2]
    unfold report
    field_simp; ring
  · unfold One.modifyS
    rw [(hs T).2.2]
    field_simp

/-- Two-region object (NasaPoly2, ShomatePoly2). -/
structure Two where
  mid : ℝ
  low : One
  high : One

/-- The property function; `f` is `nasa` or `shom`. -/
noncomputable def Two.props (f : (Nat → ℝ) → ℝ → Props) (p : Two) : ℝ → Props :=
  twoRegion p.mid (f p.low.c) (f p.high.c)

/-- reportHf298 (NasaPoly2.h:134-145, ShomatePoly.h:332-343) -/
noncomputable def Two.report (R : ℝ) (f : (Nat → ℝ) → ℝ → Props) (p : Two) : ℝ :=
  if 29815 / 100 ≤ p.mid then Poly.report R (f p.low.c) else Poly.report R (f p.high.c)

/-- modifyOneHf298 (NasaPoly2.h:152-161, ShomatePoly.h:345-354), `m` being the one-region version. -/
noncomputable def Two.modify (R : ℝ) (f : (Nat → ℝ) → ℝ → Props) (m : One → ℝ → One) (p : Two)
    (x : ℝ) : Two :=
  let delH := x - p.report R f
  { p with
    low := m p.low (Poly.report R (f p.low.c) + delH)
    high := m p.high (Poly.report R (f p.high.c) + delH) }

/-- resetHf298 (NasaPoly2.h:147-150, ShomatePoly.h:356-359) -/
def Two.reset (p : Two) : Two := { p with low := p.low.reset, high := p.high.reset }

/-- The two-region report is the enthalpy the object evaluates to at 298.15 K. -/
theorem two_report_eq (R : ℝ) (f : (Nat → ℝ) → ℝ → Props) (p : Two) :
    p.report R f = report R (p.props f) := by
  unfold Two.report report Two.props twoRegion
  split_ifs <;> rfl

theorem two_modify (R : ℝ) (f : (Nat → ℝ) → ℝ → Props) (m : One → ℝ → One)
    (hm : ∀ q y, Modified R (f q.c) (f (m q y).c) y) (p : Two) (x : ℝ) :
    Modified R (p.props f) ((p.modify R f m x).props f) x := by
  have hl := hm p.low (report R (f p.low.c) + (x - p.report R f))
  have hh := hm p.high (report R (f p.high.c) + (x - p.report R f))
  have e := two_report_eq R f p
  refine ⟨?_, fun T => ?_, fun T => ?_, fun T hT => ?_⟩
  · rw [← two_report_eq]
    unfold Two.report Two.modify
    simp only
    split_ifs with h
    · rw [hl.rep]; simp [Two.report, h]
    · rw [hh.rep]; simp [Two.report, h]
  · unfold Two.props Two.modify twoRegion
    simp only
    split_ifs
    · exact hl.cp T
    · exact hh.cp T
  · unfold Two.props Two.modify twoRegion
    simp only
    split_ifs
    · exact hl.s T
    · exact hh.s T
  · rw [← e]
    unfold Two.props Two.modify twoRegion
    simp only
    split_ifs
    · rw [hl.h T hT]; ring
    · rw [hh.h T hT]; ring

/-- Modification and reset for the two-region NASA and Shomate forms. -/
theorem nasa2_modify (R : ℝ) (hR : R ≠ 0) (p : Two) (x : ℝ) :
    Modified R (p.props nasa) ((p.modify R nasa (One.modifyN R) x).props nasa) x ∧
    Modified R (p.props shom) ((p.modify R shom (One.modifyS R) x).props shom) x :=
  ⟨two_modify R nasa _ (nasa_modify R hR) p x, two_modify R shom _ (shom_modify R hR) p x⟩

/-- A history of modifications and resets. -/
noncomputable def hist {α : Type} (m : α → ℝ → α) (r : α → α) (p : α) (ops : List (Option ℝ)) : α :=
  ops.foldl (fun p o => match o with
    | some x => m p x
    | none => r p) p

theorem one_reset (m : One → ℝ → One) (hm : ∀ q x, (m q x).orig = q.orig ∧
      ∀ k, k ≠ 5 → (m q x).c k = q.c k) (c : Nat → ℝ) (ops : List (Option ℝ)) :
    (hist m One.reset (One.new c) ops).reset = One.new c := by
  suffices h : ∀ q : One, q.orig = c 5 → (∀ k, k ≠ 5 → q.c k = c k) →
      (hist m One.reset q ops).reset = One.new c from h (One.new c) rfl (fun _ _ => rfl)
  induction ops with
  | nil =>
    intro q h1 h2
    show One.mk (upd q.c 5 q.orig) q.orig = ⟨c, c 5⟩
    rw [h1]
    congr 1
    funext k
    unfold upd
    split_ifs with hk
    · rw [hk]
    · exact h2 k hk
  | cons o ops ih =>
    intro q h1 h2
    cases o with
    | some x => exact ih (m q x) (by rw [(hm q x).1, h1]) (fun k hk => by rw [(hm q x).2 k hk, h2 k hk])
    | none =>
      refine ih q.reset h1 (fun k hk => ?_)
      simp [One.reset, upd, hk, h2 k hk]

/-- After any sequence of modifications and resets, `resetHf298` restores the object as created. -/
theorem nasa_shom_reset (R : ℝ) (c : Nat → ℝ) (ops : List (Option ℝ)) :
    (hist (One.modifyN R) One.reset (One.new c) ops).reset = One.new c ∧
    (hist (One.modifyS R) One.reset (One.new c) ops).reset = One.new c := by
  constructor
  on_goal 1 => refine one_reset (One.modifyN R) (fun q x => ⟨rfl, fun k hk => ?_⟩) c ops
  on_goal 2 => refine one_reset (One.modifyS R) (fun q x => ⟨rfl, fun k hk => ?_⟩) c ops
  · simp [One.modifyN, upd, hk]
  · simp [One.modifyS, upd, hk]

theorem two_reset (R : ℝ) (f : (Nat → ℝ) → ℝ → Props) (m : One → ℝ → One)
    (hm : ∀ q x, (m q x).orig = q.orig ∧ ∀ k, k ≠ 5 → (m q x).c k = q.c k) (mid : ℝ)
    (a b : Nat → ℝ) (ops : List (Option ℝ)) :
    (hist (Two.modify R f m) Two.reset ⟨mid, One.new a, One.new b⟩ ops).reset
      = ⟨mid, One.new a, One.new b⟩ := by
  suffices h : ∀ q : Two, q.mid = mid → (q.low.orig = a 5 ∧ ∀ k, k ≠ 5 → q.low.c k = a k) →
      (q.high.orig = b 5 ∧ ∀ k, k ≠ 5 → q.high.c k = b k) →
      (hist (Two.modify R f m) Two.reset q ops).reset = ⟨mid, One.new a, One.new b⟩ from
    h _ rfl ⟨rfl, fun _ _ => rfl⟩ ⟨rfl, fun _ _ => rfl⟩
  have hr : ∀ (q : One) (c : Nat → ℝ), (q.orig = c 5 ∧ ∀ k, k ≠ 5 → q.c k = c k) →
      q.reset = One.new c := by
    intro q c h
    show One.mk (upd q.c 5 q.orig) q.orig = ⟨c, c 5⟩
    rw [h.1]
    congr 1
    funext k
    unfold upd
    split_ifs with hk
    · rw [hk]
    · exact h.2 k hk
  induction ops with
  | nil =>
    intro q h1 h2 h3
    show Two.mk q.mid q.low.reset q.high.reset = _
    rw [h1, hr _ _ h2, hr _ _ h3]
  | cons o ops ih =>
    intro q h1 h2 h3
    cases o with
    | some x =>
      refine ih (q.modify R f m x) h1 ?_ ?_
      · exact ⟨by rw [← h2.1]; exact (hm _ _).1, fun k hk => by rw [← h2.2 k hk]; exact (hm _ _).2 k hk⟩
      · exact ⟨by rw [← h3.1]; exact (hm _ _).1, fun k hk => by rw [← h3.2 k hk]; exact (hm _ _).2 k hk⟩
    | none =>
      refine ih q.reset h1 ?_ ?_
      · show q.low.reset.orig = _ ∧ _
        exact ⟨h2.1, fun k hk => by simp [Two.reset, One.reset, upd, hk, h2.2 k hk]⟩
      · exact ⟨h3.1, fun k hk => by simp [Two.reset, One.reset, upd, hk, h3.2 k hk]⟩

theorem nasa2_shom2_reset (R mid : ℝ) (a b : Nat → ℝ) (ops : List (Option ℝ)) :
    (hist (Two.modify R nasa (One.modifyN R)) Two.reset ⟨mid, One.new a, One.new b⟩ ops).reset
      = ⟨mid, One.new a, One.new b⟩ ∧
    (hist (Two.modify R shom (One.modifyS R)) Two.reset ⟨mid, One.new a, One.new b⟩ ops).reset
      = ⟨mid, One.new a, One.new b⟩ := by
  constructor
  on_goal 1 => refine two_reset R nasa (One.modifyN R) (fun q x => ⟨rfl, fun k hk => ?_⟩) mid a b ops
  on_goal 2 => refine two_reset R shom (One.modifyS R) (fun q x => ⟨rfl, fun k hk => ?_⟩) mid a b ops
  · simp [One.modifyN, upd, hk]
  · simp [One.modifyS, upd, hk]

/-- ConstCpPoly::reportHf298 (ConstCpPoly.cpp:87-95) -/
noncomputable def ConstCp.report (R : ℝ) (p : ConstCp) : ℝ :=
  R * (p.h0 + (29815 / 100 - p.t0) * p.cp0)

/-- ConstCpPoly::modifyOneHf298 (ConstCpPoly.cpp:97-102) -/
noncomputable def ConstCp.modify (R : ℝ) (p : ConstCp) (x : ℝ) : ConstCp :=
  { p with h0 := p.h0 + (x - p.report R) / R }

/-- ConstCpPoly::resetHf298 (ConstCpPoly.cpp:104-106) -/
def ConstCp.reset (p : ConstCp) : ConstCp := { p with h0 := p.orig }

theorem constCp_modify (R : ℝ) (hR : R ≠ 0) (p : ConstCp) (x : ℝ) :
    Modified R p.props (p.modify R x).props x ∧ p.report R = report R p.props := by
  have e : ∀ q : ConstCp, q.report R = report R q.props := by
    intro q
    unfold ConstCp.report report ConstCp.props
    field_simp
  refine ⟨⟨?_, fun T => rfl, fun T => rfl, fun T hT => ?_⟩, e p⟩
  · rw [← e]
    unfold ConstCp.modify
    simp only [ConstCp.report]
    field_simp; ring
  · rw [← e]
    simp only [ConstCp.modify, ConstCp.props]
    field_simp; ring

/-- **Finding.** `m_h0_R_orig` is never assigned: after any history `resetHf298` of a constant-cp
species sets its reference enthalpy to zero instead of the original value. -/
theorem constCp_reset_zero (R t0 h0 s0 cp0 : ℝ) (ops : List (Option ℝ)) :
    (hist (ConstCp.modify R) ConstCp.reset (ConstCp.new R t0 h0 s0 cp0) ops).reset
      = ConstCp.new R t0 0 s0 cp0 := by
  suffices h : ∀ q : ConstCp, ({ q with h0 := 0 } : ConstCp) = ConstCp.new R t0 0 s0 cp0 →
      (hist (ConstCp.modify R) ConstCp.reset q ops).reset = ConstCp.new R t0 0 s0 cp0 from
    h _ (by simp [ConstCp.new, ConstCp.setParameters])
  induction ops with
  | nil =>
    intro q h
    have ho : q.orig = 0 := by
      have := congrArg ConstCp.orig h; simpa [ConstCp.new, ConstCp.setParameters] using this
    show ({ q with h0 := q.orig } : ConstCp) = _
    rw [← h, ho]
  | cons o ops ih =>
    intro q h
    cases o with
    | some x => exact ih (q.modify R x) h
    | none => exact ih q.reset h

/-- So the original enthalpy is restored only if it was zero. -/
theorem constCp_reset_iff (R t0 h0 s0 cp0 : ℝ) (hR : R ≠ 0) (ops : List (Option ℝ)) :
    (hist (ConstCp.modify R) ConstCp.reset (ConstCp.new R t0 h0 s0 cp0) ops).reset
      = ConstCp.new R t0 h0 s0 cp0 ↔ h0 = 0 := by
  rw [constCp_reset_zero]
  constructor
  · intro h
    have := congrArg ConstCp.h0 h
    simp only [ConstCp.new, ConstCp.setParameters, zero_div] at this
    have h2 := (div_eq_zero_iff.mp this.symm)
    tauto
  · rintro rfl; rfl

/-! ### Examples -/

/-- The consistency statement is not vacuous: cp of the example is not constant. -/
example : (nasa (fun k => if k = 1 then 1 else 0) 2).cp = 2 := by simp [nasa, nasaProps, nasaTT]

example : (shom (fun k => if k = 5 then 1 else 0) 1000).h = 1 := by
  simp [shom, shomProps, shomTT]

example : ConsistentAt (twoRegion 1000 (nasa fun _ => 1) (nasa fun _ => 2)) 300 :=
  (nasa2_consistent 1000 _ _ 300 (by norm_num) (by norm_num)).1

example : multi9 [(200, fun _ => 1), (1000, fun k => k)] 1000 = .ok (nasa9 (fun k => (k : ℝ)) 1000) := by
  simp [multi9, regionLoop]

example : (ConstCp.new 8314 300 831400 0 0).reset.h0 ≠ (ConstCp.new 8314 300 831400 0 0).h0 := by
  simp [ConstCp.new, ConstCp.reset, ConstCp.setParameters]; norm_num

example (R : ℝ) (hR : R ≠ 0) : report R (nasa ((One.new fun _ => 1).modifyN R 5).c) = 5 :=
  (nasa_modify R hR _ 5).rep

end Verif.Poly
