import Verif.Thermo.Mu0
import Verif.Thermo.Manager

/-!
# C41 for the parameterisations of the library

The eight classes derived from `SpeciesThermoInterpType` that compute properties
(`PDSS`-based `STITbyPDSS` is not modelled), as one interface for the manager.  The temperature
polynomial is the vector `m_tpoly[type]`, a function on `Nat` with `size` entries; accesses beyond
the size are undefined behaviour, excluded by `polySize_ok`.
-/

namespace Verif.SpThermo

open Verif Verif.Poly

/-- A parameterisation with its data. -/
inductive Form
  | constCp (p : ConstCp)
  | nasa1 (c : Nat → ℝ)
  | nasa2 (mid : ℝ) (low high : Nat → ℝ)
  | nasa9 (c : Nat → ℝ)
  | multi9 (regs : List (ℝ × (Nat → ℝ)))
  | shom1 (c : Nat → ℝ)
  | shom2 (mid : ℝ) (low high : Nat → ℝ)
  | mu0 (t : Nat → ℝ) (n : Nat) (A : Mu0.Arr)

/-- reportType with the numbers of speciesThermoTypes.h:13-58 (ConstCpPoly.h:69, NasaPoly1.h:77,
NasaPoly2.h:94, Nasa9Poly1.cpp reportType, Nasa9PolyMultiTempRegion.cpp:100-103, ShomatePoly.h:97 and
283, Mu0Poly.h:111).  Both Shomate forms have the same number. -/
def Form.type : Form → Int
  | .constCp _ => 1
  | .nasa1 _ => 256
  | .nasa2 _ _ _ => 4
  | .nasa9 _ => 512
  | .multi9 _ => 513
  | .shom1 _ => 8
  | .shom2 _ _ _ => 8
  | .mu0 _ _ _ => 64

/-- temperaturePolySize (SpeciesThermoInterpType.h:165, NasaPoly1.h:81, NasaPoly2.h:98,
Nasa9Poly1.h:79, Nasa9PolyMultiTempRegion.h:81, ShomatePoly.h:101 and 287) -/
def Form.polySize : Form → Nat
  | .constCp _ => 1
  | .nasa1 _ => 6
  | .nasa2 _ _ _ => 6
  | .nasa9 _ => 7
  | .multi9 _ => 7
  | .shom1 _ => 6
  | .shom2 _ _ _ => 7
  | .mu0 _ _ _ => 1

/-- updateTemperaturePoly (SpeciesThermoInterpType.h:169-171 for forms that do not override it,
NasaPoly1.h:83-90, NasaPoly2.h:100-102, Nasa9Poly1.cpp:47-56, Nasa9PolyMultiTempRegion.cpp:105-114,
ShomatePoly.h:103-111 and 289-291) -/
noncomputable def Form.tpoly : Form → ℝ → Nat → ℝ
  | .constCp _, T => fun i => if i = 0 then T else 0
  | .nasa1 _, T => nasaTT T
  | .nasa2 _ _ _, T => nasaTT T
  | .nasa9 _, T => nasa9TT T
  | .multi9 _, T => nasa9TT T
  | .shom1 _, T => shomTT T
  | .shom2 _ _ _, T => shomTT T
  | .mu0 _ _ _, T => fun i => if i = 0 then T else 0

/-- updateProperties (ConstCpPoly.cpp:38-49, NasaPoly1.h:103-122, NasaPoly2.h:105-112,
Nasa9Poly1.cpp:58-80, Nasa9PolyMultiTempRegion.cpp:116-128, ShomatePoly.h:125-138 and 294-302,
Mu0Poly.cpp:102-119) -/
noncomputable def Form.props : Form → (Nat → ℝ) → Outcome Props
  | .constCp p, tt => .ok (p.props (tt 0))
  | .nasa1 c, tt => .ok (nasaProps c tt)
  | .nasa2 mid low high, tt => .ok (if tt 0 ≤ mid then nasaProps low tt else nasaProps high tt)
  | .nasa9 c, tt => .ok (nasa9Props c tt)
  | .multi9 regs, tt =>
    match regs[regionLoop (tt 0) (regs.tail.map Prod.fst) 0]? with
    | some r => .ok (nasa9Props r.2 tt)
    | none => .ub
  | .shom1 c, tt => .ok (shomProps c tt)
  | .shom2 mid low high, tt =>
    .ok (if 1000 * tt 0 ≤ mid then shomProps low tt else shomProps high tt)
  | .mu0 t n A, tt => .ok (Mu0.props t n A (tt 0))

/-- updatePropertiesTemp (ConstCpPoly.cpp:51-61, NasaPoly1.h:124-129, NasaPoly2.h:114-121,
Nasa9Poly1.cpp:82-88, Nasa9PolyMultiTempRegion.cpp:130-143, ShomatePoly.h:140-145 and 304-311,
Mu0Poly.cpp:121-127) -/
noncomputable def Form.single : Form → ℝ → Outcome Props
  | .constCp p, T => .ok (p.props T)
  | .nasa1 c, T => .ok (nasa c T)
  | .nasa2 mid low high, T => .ok (twoRegion mid (nasa low) (nasa high) T)
  | .nasa9 c, T => .ok (Poly.nasa9 c T)
  | .multi9 regs, T => Poly.multi9 regs T
  | .shom1 c, T => .ok (shom c T)
  | .shom2 mid low high, T => .ok (twoRegion mid (shom low) (shom high) T)
  | .mu0 t n A, T => .ok (Mu0.props t n A T)

/-- A parameterisation object: the form, its temperature range and reference pressure. -/
structure Stit where
  form : Form
  tmin : ℝ
  tmax : ℝ
  pref : ℝ

/-- The interface of the library's parameterisations. -/
noncomputable def lib : Iface Stit (Nat → ℝ) (Outcome Props) where
  type s := s.form.type
  minT s := s.tmin
  maxT s := s.tmax
  p0 s := s.pref
  tpoly s T := s.form.tpoly T
  props s tt := s.form.props tt
  single s T := s.form.single T

/-- Forms sharing a type number share the temperature polynomial, and evaluation through it agrees
with evaluation at the temperature (in exact arithmetic; with rounding `1000 * (T/1000) ≤ mid` and
`T ≤ mid` may differ at the middle temperature of the two-region Shomate form). -/
theorem lib_lawful : lib.Lawful := by
  rintro ⟨f, _, _, _⟩ ⟨f', _, _, _⟩ T h
  simp only [lib] at h ⊢
  have e : f'.tpoly T = f.tpoly T := by
    cases f <;> cases f' <;> first | rfl | (exfalso; revert h; simp [Form.type])
  rw [e]
  cases f with
  | shom2 mid low high =>
    have : 1000 * (Form.shom2 mid low high).tpoly T 0 = T := by
      simp only [Form.tpoly, shomTT]; ring
    simp only [Form.props, Form.single, twoRegion, shom, this]
    rfl
  | multi9 regs => rfl
  | nasa2 mid low high => rfl
  | _ => simp [Form.props, Form.tpoly, Form.single, nasa, Poly.nasa9, shom]

/-- The properties of a form depend only on the first `polySize` entries of the vector, for the
size of any form of its type. -/
theorem polySize_ok (f f' : Form) (h : f.type = f'.type) (tt tt' : Nat → ℝ)
    (ht : ∀ i, i < f'.polySize → tt i = tt' i) : f.props tt = f.props tt' := by
  cases f <;> cases f' <;> first
    | (exfalso; revert h; simp [Form.type]; done)
    | (simp only [Form.polySize] at ht
       have a0 := ht 0 (by omega)
       simp only [Form.props, a0]
       done)
    | (simp only [Form.polySize] at ht
       have a0 := ht 0 (by omega)
       have a1 := ht 1 (by omega)
       have a2 := ht 2 (by omega)
       have a3 := ht 3 (by omega)
       have a4 := ht 4 (by omega)
       have a5 := ht 5 (by omega)
       simp only [Form.props, nasaProps, shomProps, a0, a1, a2, a3, a4, a5]
       done)
    | (simp only [Form.polySize] at ht
       have a0 := ht 0 (by omega)
       have a1 := ht 1 (by omega)
       have a2 := ht 2 (by omega)
       have a3 := ht 3 (by omega)
       have a4 := ht 4 (by omega)
       have a5 := ht 5 (by omega)
       have a6 := ht 6 (by omega)
       simp only [Form.props, nasa9Props, a0, a1, a2, a3, a4, a5, a6])

/-- The dispatch theorem for the library's parameterisations. -/
theorem lib_update_dispatch_partial (ops : List (Op Stit)) (hf : Tame lib ops) (T : ℝ)
    (out : Nat → Option (Outcome Props)) :
    ∃ res, (run lib true ops).1.update lib T out = .ok res ∧ ∀ k,
      ((run lib true ops).2 k = none → res k = out k) ∧
      ∀ s, (run lib true ops).2 k = some s → res k = some (s.form.single T) := by
  obtain ⟨res, h1, h2⟩ := update_dispatch_partial (I := lib) lib_lawful ops hf T out
  refine ⟨res, h1, fun k => ⟨fun h => ?_, fun s h => ?_⟩⟩
  · have := (h2 k).1; rw [h] at this; exact this
  · have := (h2 k).1; rw [h] at this; exact this

/-- Both Shomate forms share one group. -/
example : (Form.shom1 fun _ => 1).type = (Form.shom2 700 (fun _ => 1) (fun _ => 2)).type := rfl

end Verif.SpThermo
