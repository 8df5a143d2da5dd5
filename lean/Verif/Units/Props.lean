import Verif.Units.Model

/-!
# C17, C18, C44: unit algebra, conversion, unit stacks
-/

namespace Verif.Units

open Verif

/-! ### Basic facts -/

theorem mk6_pres_pow (m l t θ i q e : ℝ) (he : e ≠ 0) :
    presDim (m * e) (l * e) (t * e) (θ * e) (i * e) (q * e) = presDim m l t θ i q * e := by
  unfold presDim
  have h1 : (m * e ≠ 0 ∧ l * e = -(m * e) ∧ t * e = -2 * (m * e) ∧ θ * e = 0 ∧ i * e = 0 ∧ q * e = 0) ↔
      (m ≠ 0 ∧ l = -m ∧ t = -2 * m ∧ θ = 0 ∧ i = 0 ∧ q = 0) := by
    simp only [ne_eq, mul_eq_zero, he, or_false, ← neg_mul, ← mul_assoc, mul_left_inj' he]
  simp only [h1]
  split_ifs <;> simp

theorem mk6_en_pow (m l t θ i q e : ℝ) (he : e ≠ 0) :
    enDim (m * e) (l * e) (t * e) (θ * e) (i * e) (q * e) = enDim m l t θ i q * e := by
  unfold enDim
  have h1 : (m * e ≠ 0 ∧ l * e = -(m * e) ∧ t * e = -2 * (m * e) ∧ θ * e = 0 ∧ i * e = 0 ∧ q * e = 0) ↔
      (m ≠ 0 ∧ l = -m ∧ t = -2 * m ∧ θ = 0 ∧ i = 0 ∧ q = 0) := by
    simp only [ne_eq, mul_eq_zero, he, or_false, ← neg_mul, ← mul_assoc, mul_left_inj' he]
  have h2 : (m * e ≠ 0 ∧ l * e = 2 * (m * e) ∧ t * e = -2 * (m * e) ∧ θ * e = 0 ∧ i * e = 0 ∧ q * e = 0) ↔
      (m ≠ 0 ∧ l = 2 * m ∧ t = -2 * m ∧ θ = 0 ∧ i = 0 ∧ q = 0) := by
    simp only [ne_eq, mul_eq_zero, he, or_false, ← mul_assoc, mul_left_inj' he]
  simp only [h1, h2]
  split_ifs <;> simp

/-- Pseudo-dimensions are those the constructor gives to the dimensions. -/
def Canon (u : U) : Prop :=
  u.pres = presDim u.mass u.length u.time u.temp u.current u.quantity ∧
  u.en = enDim u.mass u.length u.time u.temp u.current u.quantity

/-- Same conversion factor and same dimensions: what `Units` objects mean. -/
def Same (a b : U) : Prop := a.factor = b.factor ∧ a.Convertible b

theorem presDim_zero (l t θ i q : ℝ) : presDim 0 l t θ i q = 0 := by
  unfold presDim; simp

theorem enDim_zero (l t θ i q : ℝ) : enDim 0 l t θ i q = 0 := by
  unfold enDim; simp

/-! ### C17: algebra -/

/-- Products: factors multiply and dimensions (all eight) add; multiplication is commutative and
associative with the dimensionless unit as neutral element. -/
theorem mul_laws (a b c : U) :
    (a.mul b).factor = a.factor * b.factor ∧ (a.mul b).mass = a.mass + b.mass ∧
    (a.mul b).length = a.length + b.length ∧ (a.mul b).time = a.time + b.time ∧
    (a.mul b).temp = a.temp + b.temp ∧ (a.mul b).current = a.current + b.current ∧
    (a.mul b).quantity = a.quantity + b.quantity ∧
    a.mul b = b.mul a ∧ (a.mul b).mul c = a.mul (b.mul c) ∧ one.mul a = a ∧ a.mul one = a := by
  refine ⟨rfl, rfl, rfl, rfl, rfl, rfl, rfl, ?_, ?_, ?_, ?_⟩
  · ext <;> simp only [U.mul] <;> ring
  · ext <;> simp only [U.mul] <;> ring
  · ext <;> simp [U.mul, one, U.mk6, presDim_zero, enDim_zero]
  · ext <;> simp [U.mul, one, U.mk6, presDim_zero, enDim_zero]

/-- Powers: the factor is raised to the exponent and dimensions are multiplied by it. -/
theorem pow_dims (a : U) (e : ℝ) :
    (a.pow e).factor = a.factor ^ e ∧ (a.pow e).mass = a.mass * e ∧
    (a.pow e).length = a.length * e ∧ (a.pow e).time = a.time * e ∧ (a.pow e).temp = a.temp * e ∧
    (a.pow e).current = a.current * e ∧ (a.pow e).quantity = a.quantity * e ∧ Canon (a.pow e) :=
  ⟨rfl, rfl, rfl, rfl, rfl, rfl, rfl, rfl, rfl⟩

/-- `convertible` is an equivalence relation, compatible with products and powers. -/
theorem convertible_equivalence :
    Equivalence U.Convertible ∧
    (∀ a b c d : U, a.Convertible b → c.Convertible d → (a.mul c).Convertible (b.mul d)) ∧
    (∀ (a b : U) (e : ℝ), a.Convertible b → (a.pow e).Convertible (b.pow e)) := by
  refine ⟨⟨fun a => ⟨rfl, rfl, rfl, rfl, rfl, rfl⟩, fun h => ?_, fun h g => ?_⟩, ?_, ?_⟩
  · obtain ⟨a, b, c, d, e, f⟩ := h
    exact ⟨a.symm, b.symm, c.symm, d.symm, e.symm, f.symm⟩
  · obtain ⟨a, b, c, d, e, f⟩ := h
    obtain ⟨a', b', c', d', e', f'⟩ := g
    exact ⟨a.trans a', b.trans b', c.trans c', d.trans d', e.trans e', f.trans f'⟩
  · rintro a b c d ⟨h1, h2, h3, h4, h5, h6⟩ ⟨g1, g2, g3, g4, g5, g6⟩
    simp [U.Convertible, U.mul, *]
  · rintro a b e ⟨h1, h2, h3, h4, h5, h6⟩
    simp [U.Convertible, U.pow, U.mk6, *]

theorem convertible_refl (a : U) : a.Convertible a := ⟨rfl, rfl, rfl, rfl, rfl, rfl⟩

/-- Integer powers are a group action up to pseudo-dimensions: for nonzero factors
`u^(-1) * u` is dimensionless with factor one, `(u v)^n = u^n v^n`, `u^(m+n) = u^m u^n`. -/
theorem int_pow_laws_partial (a b : U) (ha : a.factor ≠ 0) (m n : ℤ) :
    Same ((a.pow (-1)).mul a) one ∧
    Same ((a.mul b).pow n) ((a.pow n).mul (b.pow n)) ∧
    Same (a.pow (m + n)) ((a.pow m).mul (a.pow n)) ∧
    (a.pow m).pow n = a.pow (m * n) ∧
    Same (a.pow 1) a ∧ a.pow 0 = one := by
  refine ⟨⟨?_, ?_⟩, ⟨?_, ?_⟩, ⟨?_, ?_⟩, ?_, ⟨?_, ?_⟩, ?_⟩
  · simp only [U.pow, U.mul, U.mk6, one, Real.rpow_neg_one]
    exact inv_mul_cancel₀ ha
  · simp [U.Convertible, U.pow, U.mul, U.mk6, one]
  · simp only [U.pow, U.mul, U.mk6, Real.rpow_intCast]
    exact mul_zpow _ _ _
  · simp [U.Convertible, U.pow, U.mul, U.mk6, add_mul]
  · simp only [U.pow, U.mul, U.mk6]
    rw [← Int.cast_add, Real.rpow_intCast, Real.rpow_intCast, Real.rpow_intCast]
    exact zpow_add₀ ha _ _
  · simp [U.Convertible, U.pow, U.mul, U.mk6, mul_add]
  · have hf : (a.factor ^ (m : ℝ)) ^ (n : ℝ) = a.factor ^ ((m : ℝ) * n) := by
      rw [← Int.cast_mul, Real.rpow_intCast, Real.rpow_intCast, Real.rpow_intCast]
      exact (zpow_mul _ _ _).symm
    simp only [U.pow, U.mk6, hf, mul_assoc]
  · simp [U.pow, U.mk6]
  · simp [U.Convertible, U.pow, U.mk6]
  · simp [U.pow, U.mk6, one]

/-- The same for real exponents of units with positive factors. -/
theorem real_pow_laws_partial (a b : U) (ha : 0 < a.factor) (hb : 0 < b.factor) (x y : ℝ) :
    Same ((a.mul b).pow x) ((a.pow x).mul (b.pow x)) ∧
    Same (a.pow (x + y)) ((a.pow x).mul (a.pow y)) ∧
    (a.pow x).pow y = a.pow (x * y) := by
  refine ⟨⟨?_, ?_⟩, ⟨?_, ?_⟩, ?_⟩
  · simp only [U.pow, U.mul, U.mk6]
    exact Real.mul_rpow ha.le hb.le
  · simp [U.Convertible, U.pow, U.mul, U.mk6, add_mul]
  · simp only [U.pow, U.mul, U.mk6]
    exact Real.rpow_add ha x y
  · simp [U.Convertible, U.pow, U.mul, U.mk6, mul_add]
  · have hf : (a.factor ^ x) ^ y = a.factor ^ (x * y) := (Real.rpow_mul ha.le x y).symm
    simp only [U.pow, U.mk6, hf, mul_assoc]

/-- For units whose pseudo-dimensions are those of their dimensions the first power changes nothing
and powers act on pseudo-dimensions as on dimensions. -/
theorem canon_pow_partial (a : U) (h : Canon a) :
    a.pow 1 = a ∧ ∀ e, e ≠ 0 → (a.pow e).pres = a.pres * e ∧ (a.pow e).en = a.en * e := by
  have h2 : ∀ e, e ≠ 0 → (a.pow e).pres = a.pres * e ∧ (a.pow e).en = a.en * e := by
    intro e he
    simp only [U.pow, U.mk6]
    rw [mk6_pres_pow _ _ _ _ _ _ _ he, mk6_en_pow _ _ _ _ _ _ _ he, h.1, h.2]
    exact ⟨rfl, rfl⟩
  refine ⟨?_, h2⟩
  obtain ⟨p, q⟩ := h2 1 one_ne_zero
  rw [mul_one] at p q
  ext
  · simp [U.pow, U.mk6]
  · simp [U.pow, U.mk6]
  · simp [U.pow, U.mk6]
  · simp [U.pow, U.mk6]
  · simp [U.pow, U.mk6]
  · simp [U.pow, U.mk6]
  · simp [U.pow, U.mk6]
  · exact p
  · exact q

theorem joule_en : joule.en = 1 ∧ joule.pres = 0 := by
  constructor
  · simp [joule, U.mk6, enDim]; norm_num
  · simp [joule, U.mk6, presDim]; norm_num

theorem cal_en : cal.en = 1 ∧ cal.pres = 0 := by
  constructor
  · simp [cal, U.mk6, enDim]; norm_num
  · simp [cal, U.mk6, presDim]; norm_num

theorem pascal_pres : pascal.pres = 1 ∧ pascal.en = 0 := by
  constructor
  · simp [pascal, U.mk6, presDim]
  · simp [pascal, U.mk6, enDim]

theorem joule_canon : Canon joule := ⟨rfl, rfl⟩

theorem kmolInv_dims : (kmol.pow (-1)).pres = 0 ∧ (kmol.pow (-1)).en = 0 := by
  constructor
  · simp [kmol, U.pow, U.mk6, presDim]
  · simp [kmol, U.pow, U.mk6, enDim]

theorem jPerKmol_fields : jPerKmol.factor = 1 ∧ jPerKmol.mass = 1 ∧ jPerKmol.length = 2 ∧
    jPerKmol.time = -2 ∧ jPerKmol.temp = 0 ∧ jPerKmol.current = 0 ∧ jPerKmol.quantity = -1 ∧
    jPerKmol.pres = 0 ∧ jPerKmol.en = 1 := by
  have h := (canon_pow_partial joule joule_canon).1
  refine ⟨?_, ?_, ?_, ?_, ?_, ?_, ?_, ?_, ?_⟩
  all_goals simp only [jPerKmol, h]
  · simp [U.mul, joule, kmol, U.pow, U.mk6]
  · simp [U.mul, joule, kmol, U.pow, U.mk6]
  · simp [U.mul, joule, kmol, U.pow, U.mk6]
  · simp [U.mul, joule, kmol, U.pow, U.mk6]
  · simp [U.mul, joule, kmol, U.pow, U.mk6]
  · simp [U.mul, joule, kmol, U.pow, U.mk6]
  · simp [U.mul, joule, kmol, U.pow, U.mk6]
  · simp only [U.mul]; rw [joule_en.2, kmolInv_dims.1]; simp
  · simp only [U.mul]; rw [joule_en.1, kmolInv_dims.2]; simp

/-- **Finding.** `pow` recomputes the pressure and energy pseudo-dimensions from the dimensions, so it
loses those of a product: `(J/kmol)^1` is not `J/kmol`. -/
theorem pow_one_loses : jPerKmol.pow 1 ≠ jPerKmol := by
  intro h
  have h1 : (jPerKmol.pow 1).en = 0 := by
    obtain ⟨_, a, b, c, d, e, f, _⟩ := jPerKmol_fields
    simp only [U.pow, U.mk6, enDim, a, b, c, d, e, f]
    norm_num
  rw [h, jPerKmol_fields.2.2.2.2.2.2.2.2] at h1
  norm_num at h1

/-- … and neither `u^(-1) * u = 1` nor `(u v)^n = u^n v^n` holds for `==` on `Units`. -/
theorem pow_mul_loses : (jPerKmol.pow (-1)).mul jPerKmol ≠ one ∧
    (joule.mul (kmol.pow (-1))).pow 1 ≠ (joule.pow 1).mul ((kmol.pow (-1)).pow 1) := by
  constructor
  · intro h
    have h1 : ((jPerKmol.pow (-1)).mul jPerKmol).en = 1 := by
      obtain ⟨_, a, b, c, d, e, f, _, g⟩ := jPerKmol_fields
      simp only [U.mul, U.pow, U.mk6, enDim, a, b, c, d, e, f, g]
      norm_num
    rw [h] at h1
    simp [one, U.mk6, enDim] at h1
  · have h := (canon_pow_partial joule joule_canon).1
    have h2 : (kmol.pow (-1)).pow 1 = kmol.pow (-1) :=
      (canon_pow_partial _ (pow_dims kmol (-1)).2.2.2.2.2.2.2).1
    rw [h2]
    have e : joule.mul (kmol.pow (-1)) = jPerKmol := by rw [jPerKmol, h]
    rw [h, e]
    exact pow_one_loses

/-! ### C18: conversion -/

/-- Conversion fails exactly when the dimensions differ. -/
theorem convert_throw_iff (v : ℝ) (a b : U) : convert v a b = .throw ↔ ¬ a.Convertible b := by
  unfold convert; split_ifs with h <;> simp [h]

/-- Conversion there and back returns the value, and going through a third unit changes nothing. -/
theorem convert_roundtrip (v : ℝ) (a b c : U) (ha : a.factor ≠ 0) (hb : b.factor ≠ 0)
    (hab : a.Convertible b) (hbc : b.Convertible c) :
    (convert v a b >>= fun w => convert w b a) = .ok v ∧
    (convert v a b >>= fun w => convert w b c) = convert v a c := by
  have hba := convertible_equivalence.1.symm hab
  have hac := convertible_equivalence.1.trans hab hbc
  constructor
  · unfold convert
    rw [if_neg (by simpa using hab)]
    simp only [Outcome.bind_ok]
    rw [if_neg (by simpa using hba)]
    congr 1; field_simp
  · unfold convert
    rw [if_neg (by simpa using hab), if_neg (by simpa using hac)]
    simp only [Outcome.bind_ok]
    rw [if_neg (by simpa using hbc)]
    congr 1; field_simp

/-- All factors of a unit system are positive. -/
structure Sys.Pos (S : Sys) : Prop where
  mass : 0 < S.massF
  length : 0 < S.lengthF
  time : 0 < S.timeF
  qty : 0 < S.qtyF
  pres : 0 < S.presF
  en : 0 < S.enF
  act : 0 < S.actF

/-- What the defaults of a system contribute to a unit. -/
noncomputable def Sys.weight (S : Sys) (d : U) : ℝ :=
  S.massF ^ (d.mass - d.pres - d.en) * S.lengthF ^ (d.length + d.pres - 2 * d.en) *
  S.timeF ^ (d.time + 2 * d.pres + 2 * d.en) * S.qtyF ^ d.quantity * S.presF ^ d.pres * S.enF ^ d.en

theorem convertTo_weight (S : Sys) (v : ℝ) (d : U) : S.convertTo v d = v / d.factor * S.weight d := by
  unfold Sys.convertTo Sys.weight; ring

theorem weight_pos {S : Sys} (h : S.Pos) (d : U) : 0 < S.weight d := by
  unfold Sys.weight
  have := Real.rpow_pos_of_pos h.mass (d.mass - d.pres - d.en)
  have := Real.rpow_pos_of_pos h.length (d.length + d.pres - 2 * d.en)
  have := Real.rpow_pos_of_pos h.time (d.time + 2 * d.pres + 2 * d.en)
  have := Real.rpow_pos_of_pos h.qty d.quantity
  have := Real.rpow_pos_of_pos h.pres d.pres
  have := Real.rpow_pos_of_pos h.en d.en
  positivity

theorem convertFrom_weight {S : Sys} (h : S.Pos) (v : ℝ) (d : U) :
    S.convertFrom v d = v * d.factor / S.weight d := by
  unfold Sys.convertFrom Sys.weight
  rw [show -d.mass + d.pres + d.en = -(d.mass - d.pres - d.en) by ring,
    show -d.length - d.pres + 2 * d.en = -(d.length + d.pres - 2 * d.en) by ring,
    show -d.time - 2 * d.pres - 2 * d.en = -(d.time + 2 * d.pres + 2 * d.en) by ring]
  rw [Real.rpow_neg h.mass.le, Real.rpow_neg h.length.le, Real.rpow_neg h.time.le,
    Real.rpow_neg h.qty.le, Real.rpow_neg h.pres.le, Real.rpow_neg h.en.le]
  simp only [div_eq_mul_inv, mul_inv]
  ring

/-- `convertTo` and `convertFrom` are mutually inverse. -/
theorem convertTo_from {S : Sys} (h : S.Pos) (v : ℝ) (d : U) (hd : d.factor ≠ 0) :
    S.convertFrom (S.convertTo v d) d = v ∧ S.convertTo (S.convertFrom v d) d = v := by
  have := (weight_pos h d).ne'
  rw [convertFrom_weight h, convertTo_weight, convertTo_weight, convertFrom_weight h]
  constructor <;> field_simp

/-- `convertTo` respects products, and each basic unit takes the default for its dimension: this
determines it on everything written as a product of basic units. -/
theorem convertTo_mul {S : Sys} (h : S.Pos) (v w : ℝ) (a b : U) :
    S.convertTo (v * w) (a.mul b) = S.convertTo v a * S.convertTo w b := by
  simp only [convertTo_weight, Sys.weight, U.mul]
  have e1 : a.mass + b.mass - (a.pres + b.pres) - (a.en + b.en) =
    (a.mass - a.pres - a.en) + (b.mass - b.pres - b.en) := by ring
  have e2 : a.length + b.length + (a.pres + b.pres) - 2 * (a.en + b.en) =
    (a.length + a.pres - 2 * a.en) + (b.length + b.pres - 2 * b.en) := by ring
  have e3 : a.time + b.time + 2 * (a.pres + b.pres) + 2 * (a.en + b.en) =
    (a.time + 2 * a.pres + 2 * a.en) + (b.time + 2 * b.pres + 2 * b.en) := by ring
  rw [e1, e2, e3, Real.rpow_add h.mass, Real.rpow_add h.length, Real.rpow_add h.time,
    Real.rpow_add h.qty, Real.rpow_add h.pres, Real.rpow_add h.en, mul_div_mul_comm]
  ring

theorem base_dims : (kg.pres = 0 ∧ kg.en = 0) ∧ (meter.pres = 0 ∧ meter.en = 0) ∧
    (sec.pres = 0 ∧ sec.en = 0) ∧ (kmol.pres = 0 ∧ kmol.en = 0) ∧ (kelvin.pres = 0 ∧ kelvin.en = 0) ∧
    (ampere.pres = 0 ∧ ampere.en = 0) := by
  refine ⟨⟨?_, ?_⟩, ⟨?_, ?_⟩, ⟨?_, ?_⟩, ⟨?_, ?_⟩, ⟨?_, ?_⟩, ?_, ?_⟩ <;>
    simp [kg, meter, sec, kmol, kelvin, ampere, U.mk6, presDim, enDim]

theorem convertTo_base (S : Sys) (v : ℝ) :
    S.convertTo v kg = v * S.massF ∧ S.convertTo v meter = v * S.lengthF ∧
    S.convertTo v sec = v * S.timeF ∧ S.convertTo v kmol = v * S.qtyF ∧
    S.convertTo v pascal = v * S.presF ∧ S.convertTo v joule = v * S.enF ∧
    S.convertTo v kelvin = v ∧ S.convertTo v ampere = v := by
  obtain ⟨⟨a1, a2⟩, ⟨b1, b2⟩, ⟨c1, c2⟩, ⟨d1, d2⟩, ⟨e1, e2⟩, ⟨f1, f2⟩⟩ := base_dims
  refine ⟨?_, ?_, ?_, ?_, ?_, ?_, ?_, ?_⟩
  · simp only [Sys.convertTo, a1, a2]; simp [kg, U.mk6]
  · simp only [Sys.convertTo, b1, b2]; simp [meter, U.mk6]
  · simp only [Sys.convertTo, c1, c2]; simp [sec, U.mk6]
  · simp only [Sys.convertTo, d1, d2]; simp [kmol, U.mk6]
  · simp only [Sys.convertTo, pascal_pres.1, pascal_pres.2]
    simp [pascal, U.mk6]
  · simp only [Sys.convertTo, joule_en.1, joule_en.2]
    simp [joule, U.mk6]
  · simp only [Sys.convertTo, e1, e2]; simp [kelvin, U.mk6]
  · simp only [Sys.convertTo, f1, f2]; simp [ampere, U.mk6]

/-- Going from one unit to the unit system and on to another unit is the direct conversion, provided
both units count pressure and energy alike. -/
theorem convertTo_convert_partial {S : Sys} (h : S.Pos) (v : ℝ) (a b : U) (hab : a.Convertible b)
    (hp : a.pres = b.pres) (he : a.en = b.en) :
    convert v a b = .ok (S.convertTo (S.convertFrom v a) b) := by
  have hw : S.weight a = S.weight b := by
    obtain ⟨h1, h2, h3, h4, h5, h6⟩ := hab
    unfold Sys.weight; rw [h1, h2, h3, h6, hp, he]
  have := (weight_pos h b).ne'
  rw [convertFrom_weight h, convertTo_weight, hw, convert, if_neg (by simpa using hab)]
  congr 1; field_simp

/-- A system with energies in calories (`UnitSystem({"cal"})`). -/
noncomputable def calSys : Sys := (Sys.init.setDefaults [cal]).1

theorem convert_cal : cal.Convertible joule := by simp [U.Convertible, cal, joule, U.mk6]

theorem calSys_eq : calSys = { Sys.init with
      enF := 4184 / 1000
      actF := 4184 / 1000
      defs := fun k => if k = Key.energy then some cal else none } ∧ (Sys.init.setDefaults [cal]).2 = true := by
  have h : Sys.init.setOne cal = ({ Sys.init with enF := cal.factor }.setDef .energy cal, true) := by
    unfold Sys.setOne
    rw [if_neg (by simp [U.Convertible, cal, kg, U.mk6]),
      if_neg (by simp [U.Convertible, cal, meter, U.mk6]),
      if_neg (by simp [U.Convertible, cal, sec, U.mk6]),
      if_neg (by simp [U.Convertible, cal, kmol, U.mk6]),
      if_neg (by simp [U.Convertible, cal, pascal, U.mk6]; norm_num),
      if_pos convert_cal]
  have h2 : Sys.init.setLoop [cal] = ({ Sys.init with enF := cal.factor }.setDef .energy cal, true) := by
    simp [Sys.setLoop, h]
  unfold calSys Sys.setDefaults
  rw [h2]
  constructor
  · simp [Sys.refresh, Sys.setDef, Sys.init, cal, U.mk6]
  · simp

/-- **Finding.** Two units with the same factor and dimensions are converted differently: with
energies in calories `convertTo(1, J/kmol)` is 4.184 but `convertTo(1, (J/kmol)^1)` is 1.  Hence
conversion through the system is not the direct conversion. -/
theorem convertTo_depends_on_pow : Same jPerKmol (jPerKmol.pow 1) ∧
    calSys.convertTo 1 jPerKmol = 4184 / 1000 ∧ calSys.convertTo 1 (jPerKmol.pow 1) = 1 ∧
    convert 1 jPerKmol (jPerKmol.pow 1) = .ok 1 ∧
    calSys.convertTo (calSys.convertFrom 1 jPerKmol) (jPerKmol.pow 1) ≠ 1 := by
  obtain ⟨f0, a, b, c, d, e, f, p, g⟩ := jPerKmol_fields
  have hs : Same jPerKmol (jPerKmol.pow 1) := by
    refine ⟨?_, ?_⟩
    · simp [U.pow, U.mk6]
    · simp [U.Convertible, U.pow, U.mk6]
  have e1 : (jPerKmol.pow 1).en = 0 := by
    simp only [U.pow, U.mk6, enDim, a, b, c, d, e, f]; norm_num
  have p1 : (jPerKmol.pow 1).pres = 0 := by
    simp only [U.pow, U.mk6, presDim, a, b, c, d, e, f]; norm_num
  have t1 : calSys.convertTo 1 jPerKmol = 4184 / 1000 := by
    rw [calSys_eq.1]
    simp only [Sys.convertTo, f0, a, b, c, f, p, g, Sys.init]
    norm_num
  have t2 : ∀ v, calSys.convertTo v (jPerKmol.pow 1) = v := by
    intro v
    rw [calSys_eq.1]
    simp only [Sys.convertTo, e1, p1, Sys.init]
    simp [U.pow, U.mk6, f0]
  refine ⟨hs, t1, t2 1, ?_, ?_⟩
  · unfold convert
    rw [if_neg (by simpa using hs.2), ← hs.1, f0]; norm_num
  · rw [t2]
    rw [calSys_eq.1]
    simp only [Sys.convertFrom, f0, a, b, c, f, p, g, Sys.init]
    norm_num

/-! ### Activation energies -/

theorem kelvin_not_jkmol {u : U} (h : u.Convertible kelvin) : ¬ u.Convertible jPerKmol := by
  intro g
  have h1 : u.mass = 0 := h.1
  have g1 := g.1
  rw [jPerKmol_fields.2.1, h1] at g1
  norm_num at g1

theorem joule_not_other {u : U} (h : u.Convertible joule) :
    ¬ u.Convertible jPerKmol ∧ ¬ u.Convertible kelvin := by
  constructor
  · intro g
    have h1 : u.quantity = 0 := h.2.2.2.2.2
    have g1 := g.2.2.2.2.2
    rw [jPerKmol_fields.2.2.2.2.2.2.1, h1] at g1
    norm_num at g1
  · intro g
    have h1 : u.mass = 1 := h.1
    have g1 : u.mass = 0 := g.1
    linarith

/-- A unit in which activation energies can be given. -/
def ActUnit (u : U) : Prop := u.Convertible jPerKmol ∨ u.Convertible kelvin ∨ u.Convertible joule

theorem actScale_spec (R NA : ℝ) (u : U) :
    (u.Convertible jPerKmol → actScale R NA u = some u.factor) ∧
    (u.Convertible kelvin → actScale R NA u = some (R * u.factor)) ∧
    (u.Convertible joule → actScale R NA u = some (NA * u.factor)) ∧
    (¬ ActUnit u → actScale R NA u = none) := by
  unfold actScale
  refine ⟨fun h => if_pos h, fun h => ?_, fun h => ?_, fun h => ?_⟩
  · rw [if_neg (kelvin_not_jkmol h), if_pos h]
  · rw [if_neg (joule_not_other h).1, if_neg (joule_not_other h).2, if_pos h]
  · unfold ActUnit at h
    push Not at h
    rw [if_neg h.1, if_neg h.2.1, if_neg h.2.2]

theorem actScale_some {R NA : ℝ} (hR : 0 < R) (hN : 0 < NA) {u : U} (hf : u.factor ≠ 0)
    (h : ActUnit u) : ∃ a, actScale R NA u = some a ∧ a ≠ 0 := by
  obtain ⟨h1, h2, h3, _⟩ := actScale_spec R NA u
  rcases h with h | h | h
  · exact ⟨_, h1 h, hf⟩
  · exact ⟨_, h2 h, mul_ne_zero hR.ne' hf⟩
  · exact ⟨_, h3 h, mul_ne_zero hN.ne' hf⟩

/-- Conversion of activation energies there and back, through a third unit, and rejection of other
dimensions; with a common dimension it is the plain conversion. -/
theorem convertAct_laws {R NA : ℝ} (hR : 0 < R) (hN : 0 < NA) (v : ℝ) (a b c : U)
    (ha : a.factor ≠ 0) (hb : b.factor ≠ 0) (hc : c.factor ≠ 0) :
    (ActUnit a → ActUnit b → (convertAct R NA v a b >>= fun w => convertAct R NA w b a) = .ok v) ∧
    (ActUnit a → ActUnit b → ActUnit c →
      (convertAct R NA v a b >>= fun w => convertAct R NA w b c) = convertAct R NA v a c) ∧
    (convertAct R NA v a b = .throw ↔ ¬ (ActUnit a ∧ ActUnit b)) ∧
    (ActUnit a → a.Convertible b → convertAct R NA v a b = convert v a b) := by
  refine ⟨fun h1 h2 => ?_, fun h1 h2 h3 => ?_, ⟨fun h h2 => ?_, fun h => ?_⟩, fun h1 h2 => ?_⟩
  · obtain ⟨x, hx, hx0⟩ := actScale_some hR hN ha h1
    obtain ⟨y, hy, hy0⟩ := actScale_some hR hN hb h2
    simp only [convertAct, hx, hy, Outcome.bind_ok]
    congr 1; field_simp
  · obtain ⟨x, hx, hx0⟩ := actScale_some hR hN ha h1
    obtain ⟨y, hy, hy0⟩ := actScale_some hR hN hb h2
    obtain ⟨z, hz, hz0⟩ := actScale_some hR hN hc h3
    simp only [convertAct, hx, hy, hz, Outcome.bind_ok]
    congr 1; field_simp
  · obtain ⟨x, hx, hx0⟩ := actScale_some hR hN ha h2.1
    obtain ⟨y, hy, hy0⟩ := actScale_some hR hN hb h2.2
    simp [convertAct, hx, hy] at h
  · by_cases h1 : ActUnit a
    · have h2 : ¬ ActUnit b := fun hb => h ⟨h1, hb⟩
      obtain ⟨x, hx, hx0⟩ := actScale_some hR hN ha h1
      simp only [convertAct, hx, (actScale_spec R NA b).2.2.2 h2]
    · simp only [convertAct, (actScale_spec R NA a).2.2.2 h1]
  · have e := convertible_equivalence.1
    rw [convert, if_neg (by simpa using h2)]
    rcases h1 with h | h | h
    · simp only [convertAct, (actScale_spec R NA a).1 h, (actScale_spec R NA b).1 (e.trans (e.symm h2) h)]
    · simp only [convertAct, (actScale_spec R NA a).2.1 h,
        (actScale_spec R NA b).2.1 (e.trans (e.symm h2) h)]
      congr 1; field_simp
    · simp only [convertAct, (actScale_spec R NA a).2.2.1 h,
        (actScale_spec R NA b).2.2.1 (e.trans (e.symm h2) h)]
      congr 1; field_simp

theorem actTo_spec (R NA : ℝ) (S : Sys) (v : ℝ) (u : U) :
    (u.Convertible jPerKmol → S.actTo R NA v u = .ok (v * S.actF / u.factor) ∧
      S.actFrom R NA v u = .ok (v * u.factor / S.actF)) ∧
    (u.Convertible kelvin → S.actTo R NA v u = .ok (v * S.actF / R) ∧
      S.actFrom R NA v u = .ok (v * R / S.actF)) ∧
    (u.Convertible joule → S.actTo R NA v u = .ok (v * S.actF / (NA * u.factor)) ∧
      S.actFrom R NA v u = .ok (v * NA * u.factor / S.actF)) ∧
    (¬ ActUnit u → S.actTo R NA v u = .throw ∧ S.actFrom R NA v u = .throw) := by
  unfold Sys.actTo Sys.actFrom
  refine ⟨fun h => ⟨if_pos h, if_pos h⟩, fun h => ?_, fun h => ?_, fun h => ?_⟩
  · rw [if_neg (kelvin_not_jkmol h), if_pos h, if_neg (kelvin_not_jkmol h), if_pos h]
    exact ⟨rfl, rfl⟩
  · rw [if_neg (joule_not_other h).1, if_neg (joule_not_other h).2, if_pos h,
      if_neg (joule_not_other h).1, if_neg (joule_not_other h).2, if_pos h]
    exact ⟨rfl, rfl⟩
  · unfold ActUnit at h
    push Not at h
    rw [if_neg h.1, if_neg h.2.1, if_neg h.2.2, if_neg h.1, if_neg h.2.1, if_neg h.2.2]
    exact ⟨rfl, rfl⟩

/-- To and from the default activation energy unit are mutually inverse; other dimensions are
rejected. -/
theorem act_roundtrip {R NA : ℝ} (hR : 0 < R) (hN : 0 < NA) {S : Sys} (hS : S.actF ≠ 0) (v : ℝ) (u : U)
    (hf : u.factor ≠ 0) :
    (ActUnit u → (S.actTo R NA v u >>= fun w => S.actFrom R NA w u) = .ok v ∧
      (S.actFrom R NA v u >>= fun w => S.actTo R NA w u) = .ok v) ∧
    (¬ ActUnit u → S.actTo R NA v u = .throw ∧ S.actFrom R NA v u = .throw) := by
  refine ⟨fun h => ?_, (actTo_spec R NA S v u).2.2.2⟩
  rcases h with h | h | h
  · rw [((actTo_spec R NA S v u).1 h).1, ((actTo_spec R NA S v u).1 h).2]
    simp only [Outcome.bind_ok]
    rw [((actTo_spec R NA S _ u).1 h).2, ((actTo_spec R NA S _ u).1 h).1]
    constructor <;> (congr 1; field_simp)
  · rw [((actTo_spec R NA S v u).2.1 h).1, ((actTo_spec R NA S v u).2.1 h).2]
    simp only [Outcome.bind_ok]
    rw [((actTo_spec R NA S _ u).2.1 h).2, ((actTo_spec R NA S _ u).2.1 h).1]
    constructor <;> (congr 1; field_simp)
  · rw [((actTo_spec R NA S v u).2.2.1 h).1, ((actTo_spec R NA S v u).2.2.1 h).2]
    simp only [Outcome.bind_ok]
    rw [((actTo_spec R NA S _ u).2.2.1 h).2, ((actTo_spec R NA S _ u).2.2.1 h).1]
    constructor <;> (congr 1; field_simp)

/-- Conversion from one unit to the default and on to another is the direct conversion, unless a
temperature unit other than kelvin is involved. -/
theorem act_through_partial {R NA : ℝ} (hR : 0 < R) (hN : 0 < NA) {S : Sys} (hS : S.actF ≠ 0) (v : ℝ)
    (a b : U) (hb : b.factor ≠ 0) (h1 : ActUnit a) (h2 : ActUnit b)
    (ka : a.Convertible kelvin → a.factor = 1) (kb : b.Convertible kelvin → b.factor = 1) :
    (S.actFrom R NA v a >>= fun w => S.actTo R NA w b) = convertAct R NA v a b := by
  have hfrom : ∃ x, actScale R NA a = some x ∧ S.actFrom R NA v a = .ok (v * x / S.actF) := by
    rcases h1 with h | h | h
    · exact ⟨_, (actScale_spec R NA a).1 h, ((actTo_spec R NA S v a).1 h).2⟩
    · exact ⟨_, (actScale_spec R NA a).2.1 h, by rw [((actTo_spec R NA S v a).2.1 h).2, ka h]; simp⟩
    · exact ⟨_, (actScale_spec R NA a).2.2.1 h, by
        rw [((actTo_spec R NA S v a).2.2.1 h).2]; congr 2; ring⟩
  have hto : ∃ x, x ≠ 0 ∧ actScale R NA b = some x ∧ ∀ w, S.actTo R NA w b = .ok (w * S.actF / x) := by
    rcases h2 with h | h | h
    · exact ⟨_, hb, (actScale_spec R NA b).1 h, fun w => ((actTo_spec R NA S w b).1 h).1⟩
    · refine ⟨R * b.factor, mul_ne_zero hR.ne' hb, (actScale_spec R NA b).2.1 h, fun w => ?_⟩
      rw [((actTo_spec R NA S w b).2.1 h).1, kb h]; simp
    · exact ⟨_, mul_ne_zero hN.ne' hb, (actScale_spec R NA b).2.2.1 h,
        fun w => ((actTo_spec R NA S w b).2.2.1 h).1⟩
  obtain ⟨x, hx, hx'⟩ := hfrom
  obtain ⟨y, hy0, hy, hy'⟩ := hto
  simp only [hx', Outcome.bind_ok, hy', convertAct, hx, hy]
  congr 1; field_simp

/-- Kilokelvin, accepted by the parser as prefix and unit (Units.cpp:170-178). -/
noncomputable def kiloKelvin : U := U.mk6 1000 0 0 0 1 0 0

/-- **Finding.** `convertActivationEnergyTo` and `...From` ignore the factor of a temperature unit:
one default unit (J/kmol) is `1/R` in kelvin *and* in kilokelvin, while `convertActivationEnergy`
gives `1/(1000 R)`; setDefaultActivationEnergy("kK") likewise. -/
theorem act_kilokelvin {R NA : ℝ} (hR : 0 < R) :
    Sys.init.actTo R NA 1 kiloKelvin = Sys.init.actTo R NA 1 kelvin ∧
    Sys.init.actTo R NA 1 kiloKelvin ≠ convertAct R NA 1 jPerKmol kiloKelvin ∧
    (Sys.init.setAct R NA kiloKelvin).1.actF = (Sys.init.setAct R NA kelvin).1.actF := by
  have hk : kiloKelvin.Convertible kelvin := by simp [U.Convertible, kiloKelvin, kelvin, U.mk6]
  have e1 := ((actTo_spec R NA Sys.init 1 kiloKelvin).2.1 hk).1
  have e2 := ((actTo_spec R NA Sys.init 1 kelvin).2.1 (convertible_refl _)).1
  refine ⟨by rw [e1, e2], ?_, ?_⟩
  · rw [e1]
    simp only [convertAct, (actScale_spec R NA jPerKmol).1 (convertible_refl _),
      (actScale_spec R NA kiloKelvin).2.1 hk, jPerKmol_fields.1]
    intro h
    simp only [Outcome.ok.injEq, Sys.init, kiloKelvin, U.mk6] at h
    field_simp at h
    norm_num at h
  · unfold Sys.setAct
    rw [if_neg (kelvin_not_jkmol hk), if_pos hk, if_neg (kelvin_not_jkmol (convertible_refl _)),
      if_pos (convertible_refl _)]

/-! ### Histories of a unit system -/

/-- A call changing the defaults. -/
inductive Op
  | list (l : List U)
  | map (l : List (Key × U))
  | act (u : U)

/-- The call. -/
noncomputable def Sys.step (R NA : ℝ) (S : Sys) : Op → Sys × Bool
  | .list l => S.setDefaults l
  | .map l => S.setMap R NA l
  | .act u => S.setAct R NA u

/-- The units used by a call have positive factors. -/
def Op.Pos : Op → Prop
  | .list l => ∀ u ∈ l, 0 < u.factor
  | .map l => ∀ p ∈ l, 0 < p.2.factor
  | .act u => 0 < u.factor

/-- Systems that arise from calls that did not throw. -/
inductive Reach (R NA : ℝ) : Sys → Prop
  | init : Reach R NA Sys.init
  | step {S : Sys} {S' : Sys} (o : Op) : Reach R NA S → o.Pos → S.step R NA o = (S', true) → Reach R NA S'

/-- The factor belongs to the recorded default unit. -/
def Rec (S : Sys) (k : Key) (base : U) (f : ℝ) : Prop :=
  ((S.defs k).getD base).factor = f ∧ ((S.defs k).getD base).Convertible base

/-- Invariant except for the activation energy factor. -/
structure Inv0 (R NA : ℝ) (S : Sys) : Prop where
  mass : 0 < S.massF
  length : 0 < S.lengthF
  time : 0 < S.timeF
  qty : 0 < S.qtyF
  pres : 0 < S.presF
  en : 0 < S.enF
  rmass : Rec S .mass kg S.massF
  rlength : Rec S .length meter S.lengthF
  rtime : Rec S .time sec S.timeF
  rqty : Rec S .quantity kmol S.qtyF
  rpres : Rec S .pressure pascal S.presF
  ren : Rec S .energy joule S.enF
  act : S.explicitAct = true → ∃ u, S.defs .activation = some u ∧ 0 < S.actF ∧
    ∀ S', ∃ T, Sys.setAct R NA S' u = (T, true) ∧ T.actF = S.actF

theorem inv0_init (R NA : ℝ) : Inv0 R NA Sys.init := by
  constructor <;> simp [Sys.init, Rec, convertible_refl]
  all_goals simp [kg, meter, sec, kmol, pascal, joule, U.mk6]

theorem inv0_mass {R NA : ℝ} {S : Sys} (h : Inv0 R NA S) {u : U} (hu : 0 < u.factor)
    (hc : u.Convertible kg) : Inv0 R NA ({ S with massF := u.factor }.setDef .mass u) := by
  obtain ⟨h1, h2, h3, h4, h5, h6, r1, r2, r3, r4, r5, r6, a⟩ := h
  constructor <;> simp_all [Sys.setDef, Rec]

theorem inv0_length {R NA : ℝ} {S : Sys} (h : Inv0 R NA S) {u : U} (hu : 0 < u.factor)
    (hc : u.Convertible meter) : Inv0 R NA ({ S with lengthF := u.factor }.setDef .length u) := by
  obtain ⟨h1, h2, h3, h4, h5, h6, r1, r2, r3, r4, r5, r6, a⟩ := h
  constructor <;> simp_all [Sys.setDef, Rec]

theorem inv0_time {R NA : ℝ} {S : Sys} (h : Inv0 R NA S) {u : U} (hu : 0 < u.factor)
    (hc : u.Convertible sec) : Inv0 R NA ({ S with timeF := u.factor }.setDef .time u) := by
  obtain ⟨h1, h2, h3, h4, h5, h6, r1, r2, r3, r4, r5, r6, a⟩ := h
  constructor <;> simp_all [Sys.setDef, Rec]

theorem inv0_qty {R NA : ℝ} {S : Sys} (h : Inv0 R NA S) {u : U} (hu : 0 < u.factor)
    (hc : u.Convertible kmol) : Inv0 R NA ({ S with qtyF := u.factor }.setDef .quantity u) := by
  obtain ⟨h1, h2, h3, h4, h5, h6, r1, r2, r3, r4, r5, r6, a⟩ := h
  constructor <;> simp_all [Sys.setDef, Rec]

theorem inv0_pres {R NA : ℝ} {S : Sys} (h : Inv0 R NA S) {u : U} (hu : 0 < u.factor)
    (hc : u.Convertible pascal) : Inv0 R NA ({ S with presF := u.factor }.setDef .pressure u) := by
  obtain ⟨h1, h2, h3, h4, h5, h6, r1, r2, r3, r4, r5, r6, a⟩ := h
  constructor <;> simp_all [Sys.setDef, Rec]

theorem inv0_en {R NA : ℝ} {S : Sys} (h : Inv0 R NA S) {u : U} (hu : 0 < u.factor)
    (hc : u.Convertible joule) : Inv0 R NA ({ S with enF := u.factor }.setDef .energy u) := by
  obtain ⟨h1, h2, h3, h4, h5, h6, r1, r2, r3, r4, r5, r6, a⟩ := h
  constructor <;> simp_all [Sys.setDef, Rec]

theorem inv0_setOne {R NA : ℝ} {S : Sys} (h : Inv0 R NA S) {u : U} (hu : 0 < u.factor) :
    Inv0 R NA (S.setOne u).1 := by
  unfold Sys.setOne
  split_ifs with h1 h2 h3 h4 h5 h6 h7 h8
  · exact inv0_mass h hu h1
  · exact inv0_length h hu h2
  · exact inv0_time h hu h3
  · exact inv0_qty h hu h4
  · exact inv0_pres h hu h5
  · exact inv0_en h hu h6
  · exact h
  · exact h
  · exact h

theorem inv0_setKey {R NA : ℝ} {S : Sys} (h : Inv0 R NA S) {k : Key} {u : U} (hu : 0 < u.factor) :
    Inv0 R NA (S.setKey k u).1 := by
  unfold Sys.setKey
  split_ifs with h1 h2 h3 h4 h5 h6 h7 h8 h9
  · exact inv0_mass h hu h1.2
  · exact inv0_length h hu h2.2
  · exact inv0_time h hu h3.2
  · exact h
  · exact h
  · exact inv0_qty h hu h6.2
  · exact inv0_pres h hu h7.2
  · exact inv0_en h hu h8.2
  · exact h
  · exact h

theorem inv0_setLoop {R NA : ℝ} (l : List U) : ∀ {S : Sys}, Inv0 R NA S → (∀ u ∈ l, 0 < u.factor) →
    Inv0 R NA (S.setLoop l).1 := by
  induction l with
  | nil => intro S h _; exact h
  | cons u l ih =>
    intro S h hl
    have hu := inv0_setOne h (hl u (by simp))
    unfold Sys.setLoop
    split_ifs
    · exact ih hu (fun v hv => hl v (List.mem_cons_of_mem _ hv))
    · exact hu

theorem inv0_setKeys {R NA : ℝ} (l : List (Key × U)) : ∀ {S : Sys}, Inv0 R NA S →
    (∀ p ∈ l, 0 < p.2.factor) → Inv0 R NA (S.setKeys l).1 := by
  induction l with
  | nil => intro S h _; exact h
  | cons p l ih =>
    intro S h hl
    have hu := inv0_setKey (k := p.1) h (hl p (by simp))
    unfold Sys.setKeys
    split_ifs
    · exact ih hu (fun v hv => hl v (List.mem_cons_of_mem _ hv))
    · exact hu

theorem inv0_refresh {R NA : ℝ} {S : Sys} (h : Inv0 R NA S) : Inv0 R NA S.refresh ∧
    (S.refresh.explicitAct = false → S.refresh.actF = S.refresh.enF / S.refresh.qtyF) := by
  unfold Sys.refresh
  split_ifs with he
  · refine ⟨?_, fun _ => rfl⟩
    obtain ⟨h1, h2, h3, h4, h5, h6, r1, r2, r3, r4, r5, r6, a⟩ := h
    refine ⟨h1, h2, h3, h4, h5, h6, r1, r2, r3, r4, r5, r6, ?_⟩
    intro hh
    simp only at hh
    rw [he] at hh
    cases hh
  · exact ⟨h, fun hh => absurd hh he⟩

theorem setAct_factor (R NA : ℝ) (S S' : Sys) (u : U) (T : Sys) (h : S.setAct R NA u = (T, true)) :
    ∃ T', S'.setAct R NA u = (T', true) ∧ T'.actF = T.actF := by
  unfold Sys.setAct at h ⊢
  split_ifs at h ⊢ <;> simp_all
  · rw [← h]
  · rw [← h]
  · rw [← h]

theorem inv0_setAct {R NA : ℝ} (hR : 0 < R) (hN : 0 < NA) {S : Sys} (h : Inv0 R NA S) {u : U}
    (hu : 0 < u.factor) {T : Sys} (hT : S.setAct R NA u = (T, true)) :
    Inv0 R NA T ∧ T.explicitAct = true := by
  have hf := fun S' => setAct_factor R NA S S' u T hT
  have hpos : 0 < T.actF ∧ T.explicitAct = true ∧ T.defs = (S.setDef .activation u).defs ∧
      T.massF = S.massF ∧ T.lengthF = S.lengthF ∧ T.timeF = S.timeF ∧ T.qtyF = S.qtyF ∧
      T.presF = S.presF ∧ T.enF = S.enF := by
    unfold Sys.setAct at hT
    split_ifs at hT <;> simp only [Prod.mk.injEq, and_true, Bool.false_eq_true, and_false] at hT
    · subst hT; exact ⟨hu, rfl, rfl, rfl, rfl, rfl, rfl, rfl, rfl⟩
    · subst hT; exact ⟨hR, rfl, rfl, rfl, rfl, rfl, rfl, rfl, rfl⟩
    · subst hT; exact ⟨mul_pos hu hN, rfl, rfl, rfl, rfl, rfl, rfl, rfl, rfl⟩
  obtain ⟨p, e, d, f1, f2, f3, f4, f5, f6⟩ := hpos
  obtain ⟨h1, h2, h3, h4, h5, h6, r1, r2, r3, r4, r5, r6, a⟩ := h
  refine ⟨?_, e⟩
  constructor
  all_goals first
    | (simp only [f1, f2, f3, f4, f5, f6]; assumption)
    | (simp only [Rec, d, Sys.setDef, f1, f2, f3, f4, f5, f6]
       simp only [reduceCtorEq, if_false]
       assumption)
    | skip
  intro _
  refine ⟨u, ?_, p, hf⟩
  rw [d]; simp [Sys.setDef]

theorem actEntry_mem {l : List (Key × U)} {u : U} (h : actEntry l = some u) : ∃ k, (k, u) ∈ l := by
  unfold actEntry at h
  rw [Option.map_eq_some_iff] at h
  obtain ⟨p, hp, rfl⟩ := h
  exact ⟨p.1, List.mem_of_find?_eq_some hp⟩

theorem reach_inv {R NA : ℝ} (hR : 0 < R) (hN : 0 < NA) {S : Sys} (h : Reach R NA S) :
    Inv0 R NA S ∧ (S.explicitAct = false → S.actF = S.enF / S.qtyF) := by
  induction h with
  | init => exact ⟨inv0_init R NA, fun _ => by simp [Sys.init]⟩
  | step o hr hp hs ih =>
    rename_i S S'
    cases o with
    | list l =>
      simp only [Sys.step, Sys.setDefaults] at hs
      have hl := inv0_setLoop l ih.1 hp
      split_ifs at hs with hc
      · simp only [Prod.mk.injEq, and_true] at hs
        subst hs
        exact inv0_refresh hl
      · rw [hs] at hc; simp at hc
    | map l =>
      simp only [Sys.step, Sys.setMap] at hs
      have hl := inv0_setKeys l ih.1 hp
      split_ifs at hs with hc
      · cases ha : actEntry l with
        | none =>
          rw [ha] at hs
          simp only [Prod.mk.injEq, and_true] at hs
          subst hs
          exact inv0_refresh hl
        | some u =>
          rw [ha] at hs
          obtain ⟨k, hk⟩ := actEntry_mem ha
          obtain ⟨a, b⟩ := inv0_setAct hR hN hl (hp _ hk) hs
          exact ⟨a, fun hh => by rw [b] at hh; cases hh⟩
      · rw [hs] at hc; simp at hc
    | act u =>
      obtain ⟨a, b⟩ := inv0_setAct hR hN ih.1 hp hs
      exact ⟨a, fun hh => by rw [b] at hh; cases hh⟩

/-- In every system reached by calls that succeed all factors are positive (so conversion is
invertible), each is the factor of the default unit recorded for the dimension, and the activation
energy factor follows energy and quantity unless it was given. -/
theorem reach_system {R NA : ℝ} (hR : 0 < R) (hN : 0 < NA) {S : Sys} (h : Reach R NA S) :
    S.Pos ∧ ((S.defs .mass).getD kg).factor = S.massF ∧ ((S.defs .length).getD meter).factor = S.lengthF ∧
    ((S.defs .time).getD sec).factor = S.timeF ∧ ((S.defs .quantity).getD kmol).factor = S.qtyF ∧
    ((S.defs .pressure).getD pascal).factor = S.presF ∧ ((S.defs .energy).getD joule).factor = S.enF ∧
    (S.explicitAct = false → S.actF = S.enF / S.qtyF) := by
  obtain ⟨i, a⟩ := reach_inv hR hN h
  refine ⟨⟨i.mass, i.length, i.time, i.qty, i.pres, i.en, ?_⟩, i.rmass.1, i.rlength.1, i.rtime.1,
    i.rqty.1, i.rpres.1, i.ren.1, a⟩
  cases he : S.explicitAct with
  | true => obtain ⟨_, _, h, _⟩ := i.act he; exact h
  | false => rw [a he]; exact div_pos i.en i.qty

/-- **Finding.** After a call that throws the object is changed and inconsistent: with
`setDefaults({"cal", "J*K"})` energies are in calories while activation energies stay in J/kmol. -/
theorem throw_leaves_inconsistent :
    let r := Sys.init.setDefaults [cal, joule.mul kelvin]
    r.2 = false ∧ r.1.enF = 4184 / 1000 ∧ r.1.explicitAct = false ∧ r.1.actF ≠ r.1.enF / r.1.qtyF := by
  have h : Sys.init.setOne cal = ({ Sys.init with enF := cal.factor }.setDef .energy cal, true) := by
    unfold Sys.setOne
    rw [if_neg (by simp [U.Convertible, cal, kg, U.mk6]),
      if_neg (by simp [U.Convertible, cal, meter, U.mk6]),
      if_neg (by simp [U.Convertible, cal, sec, U.mk6]),
      if_neg (by simp [U.Convertible, cal, kmol, U.mk6]),
      if_neg (by simp [U.Convertible, cal, pascal, U.mk6]; norm_num),
      if_pos convert_cal]
  have h2 : ∀ S : Sys, S.setOne (joule.mul kelvin) = (S, false) := by
    intro S
    unfold Sys.setOne
    rw [if_neg (by simp [U.Convertible, U.mul, joule, kelvin, kg, U.mk6]),
      if_neg (by simp [U.Convertible, U.mul, joule, kelvin, meter, U.mk6]),
      if_neg (by simp [U.Convertible, U.mul, joule, kelvin, sec, U.mk6]),
      if_neg (by simp [U.Convertible, U.mul, joule, kelvin, kmol, U.mk6]),
      if_neg (by simp [U.Convertible, U.mul, joule, kelvin, pascal, U.mk6]),
      if_neg (by simp [U.Convertible, U.mul, joule, kelvin, U.mk6]),
      if_neg (by simp [U.Convertible, U.mul, joule, kelvin, U.mk6]),
      if_neg (by simp [U.Convertible, U.mul, joule, kelvin, ampere, U.mk6])]
  have h3 : Sys.init.setLoop [cal, joule.mul kelvin]
      = ({ Sys.init with enF := cal.factor }.setDef .energy cal, false) := by
    simp [Sys.setLoop, h, h2]
  simp only [Sys.setDefaults, h3]
  simp [Sys.setDef, Sys.init, cal, U.mk6]
  norm_num

/-! ### getDelta -/

/-- The factors agree. -/
def SameFactors (S T : Sys) : Prop :=
  S.massF = T.massF ∧ S.lengthF = T.lengthF ∧ S.timeF = T.timeF ∧ S.presF = T.presF ∧
  S.enF = T.enF ∧ S.qtyF = T.qtyF ∧ S.actF = T.actF

theorem setKeys_append (l l' : List (Key × U)) : ∀ (S : Sys), (S.setKeys l).2 = true →
    S.setKeys (l ++ l') = (S.setKeys l).1.setKeys l' := by
  induction l with
  | nil => intro S _; rfl
  | cons p l ih =>
    intro S h
    rw [List.cons_append]
    simp only [Sys.setKeys] at h ⊢
    split_ifs at h ⊢ with hc
    exact ih _ h

/-- Result of applying one entry of the delta. -/
structure Put (S O O' : Sys) (k : Key) : Prop where
  mass : O'.massF = if k = .mass then S.massF else O.massF
  length : O'.lengthF = if k = .length then S.lengthF else O.lengthF
  time : O'.timeF = if k = .time then S.timeF else O.timeF
  pres : O'.presF = if k = .pressure then S.presF else O.presF
  en : O'.enF = if k = .energy then S.enF else O.enF
  qty : O'.qtyF = if k = .quantity then S.qtyF else O.qtyF
  expl : O'.explicitAct = O.explicitAct
  act : O'.actF = O.actF

theorem put_entry (S O : Sys) (k : Key) (base : U) (a b : ℝ)
    (hk : (k = .mass ∧ base = kg ∧ a = S.massF ∧ b = O.massF) ∨
      (k = .length ∧ base = meter ∧ a = S.lengthF ∧ b = O.lengthF) ∨
      (k = .time ∧ base = sec ∧ a = S.timeF ∧ b = O.timeF) ∨
      (k = .pressure ∧ base = pascal ∧ a = S.presF ∧ b = O.presF) ∨
      (k = .energy ∧ base = joule ∧ a = S.enF ∧ b = O.enF) ∨
      (k = .quantity ∧ base = kmol ∧ a = S.qtyF ∧ b = O.qtyF))
    (hr : Rec S k base a) :
    (O.setKeys (deltaEntry S k base a b)).2 = true ∧ Put S O (O.setKeys (deltaEntry S k base a b)).1 k := by
  unfold deltaEntry
  split_ifs with hab
  · obtain ⟨r1, r2⟩ := hr
    generalize (S.defs k).getD base = u at r1 r2
    rcases hk with ⟨rfl, rfl, rfl, rfl⟩ | ⟨rfl, rfl, rfl, rfl⟩ | ⟨rfl, rfl, rfl, rfl⟩ |
      ⟨rfl, rfl, rfl, rfl⟩ | ⟨rfl, rfl, rfl, rfl⟩ | ⟨rfl, rfl, rfl, rfl⟩ <;>
      simp [Sys.setKeys, Sys.setKey, r2, Sys.setDef] <;> constructor <;> simp [r1]
  · push Not at hab
    refine ⟨rfl, ?_⟩
    simp only [Sys.setKeys]
    rcases hk with ⟨rfl, rfl, rfl, rfl⟩ | ⟨rfl, rfl, rfl, rfl⟩ | ⟨rfl, rfl, rfl, rfl⟩ |
      ⟨rfl, rfl, rfl, rfl⟩ | ⟨rfl, rfl, rfl, rfl⟩ | ⟨rfl, rfl, rfl, rfl⟩ <;>
      constructor <;> simp [hab]

theorem actEntry_append (l l' : List (Key × U)) (h : ∀ p ∈ l, p.1 ≠ .activation) :
    actEntry (l ++ l') = actEntry l' := by
  unfold actEntry
  rw [List.find?_append]
  have : l.find? (fun p => decide (p.1 = .activation)) = none := by
    rw [List.find?_eq_none]
    intro p hp; simp [h p hp]
  rw [this]; rfl

theorem deltaEntry_key (S : Sys) (k : Key) (d : U) (a b : ℝ) : ∀ p ∈ deltaEntry S k d a b, p.1 = k := by
  unfold deltaEntry; split_ifs <;> simp

/-- Applying `getDelta(other)` to `other` reproduces the factors of the system, unless only `other`
has explicit activation energy units. -/
theorem delta_apply_partial {R NA : ℝ} (hR : 0 < R) (hN : 0 < NA) {S O : Sys} (hS : Reach R NA S)
    (he : O.explicitAct = true → S.explicitAct = true) :
    ∃ T, O.setMap R NA (S.getDelta O) = (T, true) ∧ SameFactors T S := by
  obtain ⟨iS, aS⟩ := reach_inv hR hN hS
  have p1 := put_entry S O .mass kg _ _ (Or.inl ⟨rfl, rfl, rfl, rfl⟩) iS.rmass
  generalize ho1 : O.setKeys (deltaEntry S .mass kg S.massF O.massF) = o1 at p1
  have e2 : O.lengthF = o1.1.lengthF := by rw [p1.2.length]; simp
  have p2 := put_entry S o1.1 .length meter S.lengthF O.lengthF (Or.inr (Or.inl ⟨rfl, rfl, rfl, e2⟩)) iS.rlength
  generalize ho2 : o1.1.setKeys (deltaEntry S .length meter S.lengthF O.lengthF) = o2 at p2
  have e3 : O.timeF = o2.1.timeF := by rw [p2.2.time, p1.2.time]; simp
  have p3 := put_entry S o2.1 .time sec S.timeF O.timeF (Or.inr (Or.inr (Or.inl ⟨rfl, rfl, rfl, e3⟩))) iS.rtime
  generalize ho3 : o2.1.setKeys (deltaEntry S .time sec S.timeF O.timeF) = o3 at p3
  have e4 : O.presF = o3.1.presF := by rw [p3.2.pres, p2.2.pres, p1.2.pres]; simp
  have p4 := put_entry S o3.1 .pressure pascal S.presF O.presF
    (Or.inr (Or.inr (Or.inr (Or.inl ⟨rfl, rfl, rfl, e4⟩)))) iS.rpres
  generalize ho4 : o3.1.setKeys (deltaEntry S .pressure pascal S.presF O.presF) = o4 at p4
  have e5 : O.enF = o4.1.enF := by rw [p4.2.en, p3.2.en, p2.2.en, p1.2.en]; simp
  have p5 := put_entry S o4.1 .energy joule S.enF O.enF
    (Or.inr (Or.inr (Or.inr (Or.inr (Or.inl ⟨rfl, rfl, rfl, e5⟩))))) iS.ren
  generalize ho5 : o4.1.setKeys (deltaEntry S .energy joule S.enF O.enF) = o5 at p5
  have e6 : O.qtyF = o5.1.qtyF := by rw [p5.2.qty, p4.2.qty, p3.2.qty, p2.2.qty, p1.2.qty]; simp
  have p6 := put_entry S o5.1 .quantity kmol S.qtyF O.qtyF
    (Or.inr (Or.inr (Or.inr (Or.inr (Or.inr ⟨rfl, rfl, rfl, e6⟩))))) iS.rqty
  generalize ho6 : o5.1.setKeys (deltaEntry S .quantity kmol S.qtyF O.qtyF) = o6 at p6
  have f1 : o6.1.massF = S.massF := by
    rw [p6.2.mass, p5.2.mass, p4.2.mass, p3.2.mass, p2.2.mass, p1.2.mass]; simp
  have f2 : o6.1.lengthF = S.lengthF := by
    rw [p6.2.length, p5.2.length, p4.2.length, p3.2.length, p2.2.length]; simp
  have f3 : o6.1.timeF = S.timeF := by rw [p6.2.time, p5.2.time, p4.2.time, p3.2.time]; simp
  have f4 : o6.1.presF = S.presF := by rw [p6.2.pres, p5.2.pres, p4.2.pres]; simp
  have f5 : o6.1.enF = S.enF := by rw [p6.2.en, p5.2.en]; simp
  have f6 : o6.1.qtyF = S.qtyF := by rw [p6.2.qty]; simp
  have f7 : o6.1.explicitAct = O.explicitAct := by
    rw [p6.2.expl, p5.2.expl, p4.2.expl, p3.2.expl, p2.2.expl, p1.2.expl]
  let D := deltaEntry S .mass kg S.massF O.massF ++ deltaEntry S .length meter S.lengthF O.lengthF ++
    deltaEntry S .time sec S.timeF O.timeF ++ deltaEntry S .pressure pascal S.presF O.presF ++
    deltaEntry S .energy joule S.enF O.enF ++ deltaEntry S .quantity kmol S.qtyF O.qtyF
  have hD : O.setKeys D = o6 := by
    simp only [D, List.append_assoc]
    rw [setKeys_append _ _ _ (by rw [ho1]; exact p1.1), ho1,
      setKeys_append _ _ _ (by rw [ho2]; exact p2.1), ho2,
      setKeys_append _ _ _ (by rw [ho3]; exact p3.1), ho3,
      setKeys_append _ _ _ (by rw [ho4]; exact p4.1), ho4,
      setKeys_append _ _ _ (by rw [ho5]; exact p5.1), ho5, ho6]
  have hDa : ∀ p ∈ D, p.1 ≠ .activation := by
    intro p hp
    simp only [D, List.mem_append] at hp
    rcases hp with ((((hp | hp) | hp) | hp) | hp) | hp <;> rw [deltaEntry_key _ _ _ _ _ p hp] <;> simp
  have hDel : S.getDelta O = D ++
      (if S.explicitAct = true ∨ (O.explicitAct = true ∧ S.actF ≠ S.enF / S.qtyF) then
        [(.activation, (S.defs .activation).getD jPerKmol)] else []) := rfl
  rw [hDel]
  by_cases hx : S.explicitAct = true
  · rw [if_pos (Or.inl hx)]
    obtain ⟨u, hu, _, hset⟩ := iS.act hx
    have hk : O.setKeys (D ++ [(Key.activation, (S.defs .activation).getD jPerKmol)]) = (o6.1, true) := by
      rw [setKeys_append _ _ _ (by rw [hD]; exact p6.1), hD]
      simp [Sys.setKeys, Sys.setKey]
    unfold Sys.setMap
    rw [hk, if_pos rfl, actEntry_append _ _ hDa]
    have ha : actEntry [(Key.activation, (S.defs .activation).getD jPerKmol)] = some u := by
      simp [actEntry, hu]
    rw [ha]
    obtain ⟨T, h1, h2⟩ := hset o6.1
    refine ⟨T, h1, ?_⟩
    have hT : T.massF = o6.1.massF ∧ T.lengthF = o6.1.lengthF ∧ T.timeF = o6.1.timeF ∧
        T.presF = o6.1.presF ∧ T.enF = o6.1.enF ∧ T.qtyF = o6.1.qtyF := by
      unfold Sys.setAct at h1
      split_ifs at h1 <;> simp only [Prod.mk.injEq, and_true, Bool.false_eq_true, and_false] at h1
      all_goals subst h1; exact ⟨rfl, rfl, rfl, rfl, rfl, rfl⟩
    obtain ⟨t1, t2, t3, t4, t5, t6⟩ := hT
    exact ⟨t1.trans f1, t2.trans f2, t3.trans f3, t4.trans f4, t5.trans f5, t6.trans f6, h2⟩
  · have hS' : S.explicitAct = false := by simpa using hx
    have hO' : O.explicitAct = false := by
      cases h : O.explicitAct with
      | false => rfl
      | true => exact absurd (he h) hx
    rw [if_neg (by rw [hS', hO']; simp), List.append_nil]
    unfold Sys.setMap
    rw [hD, if_pos p6.1]
    have : actEntry D = none := by
      have := actEntry_append D [] hDa
      rw [List.append_nil] at this
      rw [this]; rfl
    rw [this]
    refine ⟨o6.1.refresh, rfl, ?_⟩
    have : o6.1.refresh = { o6.1 with actF := o6.1.enF / o6.1.qtyF } := by
      unfold Sys.refresh; rw [if_pos (by rw [f7, hO'])]
    rw [this]
    exact ⟨f1, f2, f3, f4, f5, f6, by simp only [f5, f6]; exact (aS hS').symm⟩

/-- **Finding.** The delta from a system with activation energies in kelvin to the default system is
empty: the difference is not reported (the test compares with the system itself, not the other). -/
theorem delta_misses_activation {R NA : ℝ} (hR1 : R ≠ 1) :
    ∃ O, Sys.init.setAct R NA kelvin = (O, true) ∧ Reach R NA O ∧ Reach R NA Sys.init ∧
      Sys.init.getDelta O = [] ∧ ¬ SameFactors (O.setMap R NA (Sys.init.getDelta O)).1 Sys.init := by
  have h : Sys.init.setAct R NA kelvin =
      ({ Sys.init.setDef .activation kelvin with actF := R, explicitAct := true }, true) := by
    unfold Sys.setAct
    rw [if_neg (kelvin_not_jkmol (convertible_refl _)), if_pos (convertible_refl _)]
  have hd : Sys.init.getDelta { Sys.init.setDef .activation kelvin with actF := R, explicitAct := true } = [] := by
    simp [Sys.getDelta, deltaEntry, Sys.init, Sys.setDef]
  refine ⟨_, h, .step (.act kelvin) .init (by simp [Op.Pos, kelvin, U.mk6]) h, .init, hd, ?_⟩
  rw [hd]
  simp [Sys.setMap, Sys.setKeys, actEntry, Sys.refresh, SameFactors, Sys.setDef, Sys.init, hR1]

/-! ### C44: UnitStack -/

/-- What a stack means: product of the entries raised to their exponents. -/
noncomputable def Stack.meaning (s : Stack) : U :=
  s.foldr (fun p acc => (p.1.pow p.2).mul acc) one

theorem same_refl (a : U) : Same a a := ⟨rfl, convertible_refl a⟩

theorem same_trans {a b c : U} (h : Same a b) (g : Same b c) : Same a c :=
  ⟨h.1.trans g.1, convertible_equivalence.1.trans h.2 g.2⟩

theorem same_symm {a b : U} (h : Same a b) : Same b a := ⟨h.1.symm, convertible_equivalence.1.symm h.2⟩

theorem same_mul {a b c d : U} (h : Same a b) (g : Same c d) : Same (a.mul c) (b.mul d) :=
  ⟨by simp only [U.mul, h.1, g.1], convertible_equivalence.2.1 _ _ _ _ h.2 g.2⟩

theorem product_fold (s : Stack) : ∀ out : U,
    Same (s.foldl (fun out p => if p.2 = 1 then out.mul p.1 else out.mul (p.1.pow p.2)) out)
      (out.mul (Stack.meaning s)) := by
  induction s with
  | nil =>
    intro out
    simp only [List.foldl_nil, Stack.meaning, List.foldr_nil, (mul_laws out out out).2.2.2.2.2.2.2.2.2.2]
    exact same_refl out
  | cons p s ih =>
    intro out
    simp only [List.foldl_cons, Stack.meaning, List.foldr_cons]
    refine same_trans (ih _) ?_
    have hst : Same (if p.2 = 1 then out.mul p.1 else out.mul (p.1.pow p.2)) (out.mul (p.1.pow p.2)) := by
      split_ifs with h
      · refine same_mul (same_refl _) ⟨?_, ?_⟩
        · simp [U.pow, U.mk6, h]
        · simp [U.Convertible, U.pow, U.mk6, h]
      · exact same_refl _
    refine same_trans (same_mul hst (same_refl _)) ?_
    rw [(mul_laws out (p.1.pow p.2) (Stack.meaning s)).2.2.2.2.2.2.2.2.1]
    exact same_refl _

/-- The product of a nonempty stack is the product of its powers (factor and dimensions). -/
theorem stack_product (s : Stack) (hs : s ≠ []) : Same s.product s.meaning := by
  unfold Stack.product
  rw [if_neg hs]
  refine same_trans (product_fold s _) ?_
  have : U.mk6 1 0 0 0 0 0 0 = one := rfl
  rw [this, (mul_laws s.meaning s.meaning s.meaning).2.2.2.2.2.2.2.2.2.1]
  exact same_refl _

theorem update_meaning (s : Stack) (u : U) (e : ℝ) (hu : 0 < u.factor) :
    Same (Stack.update s u e).meaning ((u.pow e).mul s.meaning) := by
  induction s with
  | nil => exact same_refl _
  | cons p s ih =>
    unfold Stack.update
    split_ifs with h
    · subst h
      simp only [Stack.meaning, List.foldr_cons]
      rw [← (mul_laws (p.1.pow e) (p.1.pow p.2) _).2.2.2.2.2.2.2.2.1]
      refine same_mul ?_ (same_refl _)
      rw [(mul_laws (p.1.pow e) (p.1.pow p.2) one).2.2.2.2.2.2.2.1]
      exact (real_pow_laws_partial p.1 p.1 hu hu p.2 e).2.1
    · simp only [Stack.meaning, List.foldr_cons] at ih ⊢
      refine same_trans (same_mul (same_refl _) ih) ?_
      rw [← (mul_laws (p.1.pow p.2) (u.pow e) _).2.2.2.2.2.2.2.2.1,
        (mul_laws (p.1.pow p.2) (u.pow e) one).2.2.2.2.2.2.2.1,
        (mul_laws (u.pow e) (p.1.pow p.2) _).2.2.2.2.2.2.2.2.1]
      exact same_refl _

theorem update_ne (s : Stack) (u : U) (e : ℝ) : Stack.update s u e ≠ [] := by
  cases s with
  | nil => simp [Stack.update]
  | cons p s => unfold Stack.update; split_ifs <;> simp

theorem updates_fold (l : List (U × ℝ)) (hl : ∀ p ∈ l, 0 < p.1.factor) : ∀ s : Stack,
    Same (l.foldl (fun s p => Stack.update s p.1 p.2) s).meaning
      (U.mul (Stack.meaning l) s.meaning) ∧
    (s ≠ [] ∨ l ≠ [] → l.foldl (fun s p => Stack.update s p.1 p.2) s ≠ []) := by
  induction l with
  | nil =>
    intro s
    refine ⟨?_, fun h => by simpa using h⟩
    simp only [List.foldl_nil, Stack.meaning, List.foldr_nil]
    rw [(mul_laws (List.foldr (fun p acc => (p.1.pow p.2).mul acc) one s) one one).2.2.2.2.2.2.2.2.2.1]
    exact same_refl _
  | cons p l ih =>
    intro s
    obtain ⟨h1, h2⟩ := ih (fun q hq => hl q (List.mem_cons_of_mem _ hq)) (Stack.update s p.1 p.2)
    refine ⟨?_, fun _ => h2 (Or.inl (update_ne _ _ _))⟩
    simp only [List.foldl_cons]
    refine same_trans h1 ?_
    have hm : Stack.meaning (p :: l) = (p.1.pow p.2).mul (Stack.meaning l) := rfl
    rw [hm]
    refine same_trans (same_mul (same_refl _) (update_meaning s p.1 p.2 (hl p (by simp)))) ?_
    rw [← (mul_laws (Stack.meaning l) (p.1.pow p.2) _).2.2.2.2.2.2.2.2.1,
      (mul_laws (Stack.meaning l) (p.1.pow p.2) one).2.2.2.2.2.2.2.1]
    exact same_refl _

/-- After any sequence of updates of a stack that starts from the standard unit with exponent zero,
the product is the product of all updates, whatever the order and however entries were merged. -/
theorem stack_updates (std : U) (hs : 0 < std.factor) (l : List (U × ℝ)) (hl : ∀ p ∈ l, 0 < p.1.factor) :
    Same (Stack.product (l.foldl (fun s p => Stack.update s p.1 p.2) [(std, 0)]))
      (l.foldr (fun p acc => (p.1.pow p.2).mul acc) one) := by
  obtain ⟨h1, h2⟩ := updates_fold l hl [(std, 0)]
  refine same_trans (stack_product _ (h2 (Or.inl (by simp)))) (same_trans h1 ?_)
  have h0 : Stack.meaning [(std, (0 : ℝ))] = one := by
    have : std.pow 0 = one := (int_pow_laws_partial std std hs.ne' 0 0).2.2.2.2.2
    simp only [Stack.meaning, List.foldr_cons, List.foldr_nil, this]
    exact (mul_laws one one one).2.2.2.2.2.2.2.2.2.1
  rw [h0, (mul_laws (Stack.meaning l) one one).2.2.2.2.2.2.2.2.2.2]
  exact same_refl _

/-- Joining an exponent multiplies by that power of the standard unit; on an empty stack it throws. -/
theorem stack_join (s : Stack) (e : ℝ) :
    (s = [] ∧ s.join e = .throw) ∨
    ∃ u x l, s = (u, x) :: l ∧ s.join e = .ok ((u, x + e) :: l) ∧
      (0 < u.factor → Same (Stack.product ((u, x + e) :: l)) ((u.pow e).mul (Stack.product s))) := by
  cases s with
  | nil => exact Or.inl ⟨rfl, rfl⟩
  | cons p l =>
    right
    refine ⟨p.1, p.2, l, rfl, rfl, fun hu => ?_⟩
    refine same_trans (stack_product _ (by simp)) ?_
    refine same_trans ?_ (same_mul (same_refl _) (same_symm (stack_product (p :: l) (by simp))))
    simp only [Stack.meaning, List.foldr_cons]
    rw [← (mul_laws (p.1.pow e) (p.1.pow p.2) _).2.2.2.2.2.2.2.2.1]
    refine same_mul ?_ (same_refl _)
    rw [(mul_laws (p.1.pow e) (p.1.pow p.2) one).2.2.2.2.2.2.2.1]
    exact (real_pow_laws_partial p.1 p.1 hu hu p.2 e).2.1

/-! ### Examples -/

example : cal.Convertible joule ∧ convert 1 cal joule = .ok (4184 / 1000) := by
  refine ⟨convert_cal, ?_⟩
  unfold convert
  rw [if_neg (by simpa using convert_cal)]
  simp [cal, joule, U.mk6]

example : ¬ joule.Convertible pascal := by
  simp [U.Convertible, joule, pascal, U.mk6]; norm_num

example (R NA : ℝ) : Reach R NA calSys :=
  .step (.list [cal]) .init (by intro u hu; simp at hu; subst hu; simp [cal, U.mk6]) (by
    simp only [Sys.step, ← calSys_eq.2, calSys])

example : ActUnit kelvin := Or.inr (Or.inl (convertible_refl _))

end Verif.Units
