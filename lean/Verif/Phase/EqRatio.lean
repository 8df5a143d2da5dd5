import Verif.Phase.Comp

/-!
# C16: equivalence ratio and mixture fraction (ThermoPhase.cpp:637-982)

Reals for doubles; `none` is infinity (a returned ratio) or a composition of NaNs (a phase).
The element matrix columns of C, S, H and O are given as `Option` (`none`: the phase has no such
element).  The final `setPressure(p)` (ThermoPhase.cpp:762, 893) changes the density only and is not
modelled; the overloads taking maps and strings reduce to the modelled ones by
`getCompositionFromMap` and `parseCompString`.
-/

namespace Verif.EqRatio

open Verif Verif.Comp
open scoped BigOperators

variable {n : ℕ}

/-- Atom numbers of the elements looked up by name (ThermoPhase.cpp:640-642, 668). -/
structure Elems (n : ℕ) where
  C : Option (Fin n → ℝ)
  S : Option (Fin n → ℝ)
  H : Option (Fin n → ℝ)
  O : Option (Fin n → ℝ)

/-- `sum_k y[k] / W[k] * nAtoms(k, m)` (ThermoPhase.cpp:648-656, 673, 964) -/
noncomputable def lin (W a y : Fin n → ℝ) : ℝ := ∑ k, y k / W k * a k

/-- the same for an element which may be absent -/
noncomputable def linO (W : Fin n → ℝ) (a : Option (Fin n → ℝ)) (y : Fin n → ℝ) : ℝ :=
  match a with
  | none => 0
  | some a => lin W a y

/-- Oxygen needed, not divided by the sum (ThermoPhase.cpp:649-657) -/
noncomputable def reqLin (W : Fin n → ℝ) (e : Elems n) (y : Fin n → ℝ) : ℝ :=
  linO W e.C y + linO W e.S y + 1 / 4 * linO W e.H y

/-- ThermoPhase::o2Required (ThermoPhase.cpp:637-664) -/
noncomputable def o2req (W : Fin n → ℝ) (e : Elems n) (y : Fin n → ℝ) : Outcome ℝ :=
  if ∑ k, y k = 0 then .throw else .ok (reqLin W e y / ∑ k, y k)

/-- ThermoPhase::o2Present (ThermoPhase.cpp:666-680).  Without the element O the index is npos and
`nAtoms` throws. -/
noncomputable def o2pres (W : Fin n → ℝ) (e : Elems n) (y : Fin n → ℝ) : Outcome ℝ :=
  match e.O with
  | none => .throw
  | some a => if ∑ k, y k = 0 then .throw else .ok (1 / 2 * lin W a y / ∑ k, y k)

/-- `o2Required(y) - o2Present(y)` (ThermoPhase.cpp:714-715, 930-932) -/
noncomputable def need (W : Fin n → ℝ) (e : Elems n) (y : Fin n → ℝ) : Outcome ℝ := do
  let r ← o2req W e y
  let p ← o2pres W e y
  return r - p

/-- Conversion of the input composition (ThermoPhase.cpp:705-712, 742-749, 827-834, 867-874, 919-926) -/
noncomputable def toMass (molar : Bool) (W x : Fin n → ℝ) : Outcome (Fin n → ℝ) :=
  if molar then xToY W x else .ok x

/-- ThermoPhase::stoichAirFuelRatio on mass fractions (ThermoPhase.cpp:714-728) -/
noncomputable def afr (W : Fin n → ℝ) (e : Elems n) (f o : Fin n → ℝ) : Outcome (Option ℝ) := do
  let nf ← need W e f
  let no ← need W e o
  if nf < 0 ∨ 0 < no then .throw
  else if no = 0 then .ok none
  else .ok (some (nf / -no))

/-- ThermoPhase::setEquivalenceRatio (ThermoPhase.cpp:731-763) -/
noncomputable def setPhi (p : Ph n) (e : Elems n) (φ : ℝ) (fuel ox : Fin n → ℝ) (molar : Bool) :
    Outcome (Option (Ph n)) :=
  if φ < 0 then .throw
  else do
    let f ← toMass molar p.W fuel
    let o ← toMass molar p.W ox
    let A ← afr p.W e f o
    match A with
    | none => .ok none
    | some A => .ok (some (setY p fun k => φ * f k / (∑ j, f j) + A * o k / ∑ j, o j))

/-- Clamp to [0,1] (ThermoPhase.cpp:950, 980) -/
noncomputable def clamp (z : ℝ) : ℝ := min (max z 0) 1

/-- ThermoPhase::mixtureFraction, Bilger (ThermoPhase.cpp:928-950) on mass fractions -/
noncomputable def mixB (p : Ph n) (e : Elems n) (f o : Fin n → ℝ) : Outcome ℝ := do
  let nf ← need p.W e f
  let no ← need p.W e o
  let nm ← need p.W e (getY p)
  if nf < 0 ∨ 0 < no then .throw
  else if nf - no = 0 then .throw
  else .ok (clamp ((nm - no) / (nf - no)))

/-- ThermoPhase::mixtureFraction for the element with atom numbers `a` (ThermoPhase.cpp:951-980) -/
noncomputable def mixE (p : Ph n) (a : Fin n → ℝ) (f o : Fin n → ℝ) : Outcome ℝ :=
  if ∑ k, f k = 0 ∨ ∑ k, o k = 0 then .throw
  else if lin p.W a f / (∑ k, f k) = lin p.W a o / ∑ k, o k then .throw
  else .ok (clamp ((lin p.W a (getY p) - lin p.W a o / ∑ k, o k) /
    (lin p.W a f / (∑ k, f k) - lin p.W a o / ∑ k, o k)))

/-- ThermoPhase::mixtureFraction (ThermoPhase.cpp:915-982) -/
noncomputable def mixFrac (p : Ph n) (e : Elems n) (fuel ox : Fin n → ℝ) (molar : Bool) : Outcome ℝ := do
  let f ← toMass molar p.W fuel
  let o ← toMass molar p.W ox
  mixB p e f o

noncomputable def mixFracE (p : Ph n) (a : Fin n → ℝ) (fuel ox : Fin n → ℝ) (molar : Bool) :
    Outcome ℝ := do
  let f ← toMass molar p.W fuel
  let o ← toMass molar p.W ox
  mixE p a f o

/-- ThermoPhase::setMixtureFraction (ThermoPhase.cpp:858-894) -/
noncomputable def setMix (p : Ph n) (z : ℝ) (fuel ox : Fin n → ℝ) (molar : Bool) : Outcome (Ph n) :=
  if z < 0 ∨ 1 < z then .throw
  else do
    let f ← toMass molar p.W fuel
    let o ← toMass molar p.W ox
    if ∑ k, f k = 0 ∨ ∑ k, o k = 0 then .throw
    else .ok (setYNoNorm p fun k => z * f k / (∑ j, f j) + (1 - z) * o k / ∑ j, o j)

/-- ThermoPhase::equivalenceRatio(fuel, ox, basis) (ThermoPhase.cpp:812-839) -/
noncomputable def phi (p : Ph n) (e : Elems n) (fuel ox : Fin n → ℝ) (molar : Bool) :
    Outcome (Option ℝ) := do
  let z ← mixFrac p e fuel ox molar
  if z = 0 then .ok (some 0)
  else if z = 1 then .ok none
  else do
    let f ← toMass molar p.W fuel
    let o ← toMass molar p.W ox
    let A ← afr p.W e f o
    match A with
    | none => .ok none
    | some A => .ok (some (max (z / (1 - z) * A) 0))

/-- ThermoPhase::equivalenceRatio() (ThermoPhase.cpp:782-792) -/
noncomputable def phi0 (p : Ph n) (e : Elems n) : Outcome (Option ℝ) := do
  let r ← o2req p.W e (getY p)
  let q ← o2pres p.W e (getY p)
  if q = 0 then .ok none else .ok (some (r / q))

/-! ### Linearity -/

theorem lin_comb (W a f o : Fin n → ℝ) (s t : ℝ) :
    lin W a (fun k => s * f k + t * o k) = s * lin W a f + t * lin W a o := by
  simp only [lin, Finset.mul_sum, ← Finset.sum_add_distrib]
  exact Finset.sum_congr rfl fun k _ => by ring

theorem linO_comb (W : Fin n → ℝ) (a) (f o : Fin n → ℝ) (s t : ℝ) :
    linO W a (fun k => s * f k + t * o k) = s * linO W a f + t * linO W a o := by
  cases a with
  | none => simp [linO]
  | some a => exact lin_comb W a f o s t

theorem reqLin_comb (W : Fin n → ℝ) (e) (f o : Fin n → ℝ) (s t : ℝ) :
    reqLin W e (fun k => s * f k + t * o k) = s * reqLin W e f + t * reqLin W e o := by
  simp only [reqLin, linO_comb]; ring

theorem sum_comb (f o : Fin n → ℝ) (s t : ℝ) :
    ∑ k, (s * f k + t * o k) = s * ∑ k, f k + t * ∑ k, o k := by
  rw [Finset.sum_add_distrib, Finset.mul_sum, Finset.mul_sum]

theorem o2req_ok {W : Fin n → ℝ} {e : Elems n} {y : Fin n → ℝ} {r : ℝ} (h : o2req W e y = .ok r) :
    ∑ k, y k ≠ 0 ∧ reqLin W e y = r * ∑ k, y k := by
  simp only [o2req] at h
  split_ifs at h with h0
  simp only [Outcome.ok.injEq] at h
  refine ⟨h0, ?_⟩
  rw [← h]; field_simp

theorem o2pres_ok {W : Fin n → ℝ} {e : Elems n} {y : Fin n → ℝ} {r : ℝ} (h : o2pres W e y = .ok r) :
    ∑ k, y k ≠ 0 ∧ ∃ a, e.O = some a ∧ 1 / 2 * lin W a y = r * ∑ k, y k := by
  simp only [o2pres] at h
  cases hO : e.O with
  | none => rw [hO] at h; cases h
  | some a =>
    rw [hO] at h
    simp only at h
    split_ifs at h with h0
    simp only [Outcome.ok.injEq] at h
    refine ⟨h0, a, rfl, ?_⟩
    rw [← h]; field_simp

theorem need_ok {W : Fin n → ℝ} {e : Elems n} {y : Fin n → ℝ} {r : ℝ} (h : need W e y = .ok r) :
    ∃ u v, o2req W e y = .ok u ∧ o2pres W e y = .ok v ∧ r = u - v := by
  cases h1 : o2req W e y with
  | ok u =>
    cases h2 : o2pres W e y with
    | ok v =>
      simp only [need, h1, h2, Outcome.bind_ok, Outcome.pure_eq, Outcome.ok.injEq] at h
      exact ⟨u, v, rfl, rfl, h.symm⟩
    | throw => simp [need, h1, h2] at h
    | ub => simp [need, h1, h2] at h
  | throw => simp [need, h1] at h
  | ub => simp [need, h1] at h

/-- Required and present oxygen of a mixture `s f/Σf + t o/Σo`. -/
theorem req_mix {W : Fin n → ℝ} {e : Elems n} {f o : Fin n → ℝ} {u v s t : ℝ}
    (hf : o2req W e f = .ok u) (ho : o2req W e o = .ok v) (hst : s + t ≠ 0) :
    o2req W e (fun k => s / (∑ j, f j) * f k + t / (∑ j, o j) * o k)
      = .ok ((s * u + t * v) / (s + t)) := by
  obtain ⟨f0, f1⟩ := o2req_ok hf
  obtain ⟨o0, o1⟩ := o2req_ok ho
  have hs : ∑ k, (s / (∑ j, f j) * f k + t / (∑ j, o j) * o k) = s + t := by
    rw [sum_comb]; field_simp
  simp only [o2req, hs, hst, if_false, reqLin_comb, f1, o1, Outcome.ok.injEq]
  field_simp

theorem pres_mix {W : Fin n → ℝ} {e : Elems n} {f o : Fin n → ℝ} {u v s t : ℝ}
    (hf : o2pres W e f = .ok u) (ho : o2pres W e o = .ok v) (hst : s + t ≠ 0) :
    o2pres W e (fun k => s / (∑ j, f j) * f k + t / (∑ j, o j) * o k)
      = .ok ((s * u + t * v) / (s + t)) := by
  obtain ⟨f0, a, ha, f1⟩ := o2pres_ok hf
  obtain ⟨o0, b, hb, o1⟩ := o2pres_ok ho
  rw [ha] at hb
  cases hb
  have hs : ∑ k, (s / (∑ j, f j) * f k + t / (∑ j, o j) * o k) = s + t := by
    rw [sum_comb]; field_simp
  have hl : lin W a f = 2 * (u * ∑ k, f k) := by linarith
  have hl' : lin W a o = 2 * (v * ∑ k, o k) := by linarith
  simp only [o2pres, ha, hs, hst, if_false, lin_comb, hl, hl', Outcome.ok.injEq]
  field_simp

theorem need_mix {W : Fin n → ℝ} {e : Elems n} {f o : Fin n → ℝ} {u v s t : ℝ}
    (hf : need W e f = .ok u) (ho : need W e o = .ok v) (hst : s + t ≠ 0) :
    need W e (fun k => s / (∑ j, f j) * f k + t / (∑ j, o j) * o k)
      = .ok ((s * u + t * v) / (s + t)) := by
  obtain ⟨a, b, h1, h2, h3⟩ := need_ok hf
  obtain ⟨c, d, h4, h5, h6⟩ := need_ok ho
  simp only [need, req_mix h1 h4 hst, pres_mix h2 h5 hst, Outcome.bind_ok, Outcome.pure_eq,
    Outcome.ok.injEq, h3, h6]
  field_simp
  ring

/-- One kmol of a species C_c S_s H_h O_o needs `c + s + h/4 - o/2` kmol O2 (any amount `m ≠ 0` of it;
per kg). -/
theorem need_species (W : Fin n → ℝ) (e : Elems n) (C S H O : Fin n → ℝ) (hC : e.C = some C)
    (hS : e.S = some S) (hH : e.H = some H) (hO : e.O = some O) (i : Fin n) (m : ℝ) (hm : m ≠ 0) :
    need W e (fun k => if k = i then m else 0)
      = .ok ((C i + S i + H i / 4 - O i / 2) / W i) := by
  have hl : ∀ a : Fin n → ℝ, lin W a (fun k => if k = i then m else 0) = m / W i * a i := fun a => by
    simp only [lin]
    rw [Finset.sum_eq_single i]
    · simp
    · intro b _ hb; simp [hb]
    · intro h; exact absurd (Finset.mem_univ i) h
  have hs : ∑ k, (if k = i then m else 0) = m := by simp
  simp only [need, o2req, o2pres, reqLin, linO, hC, hS, hH, hO, hl, hs, hm, if_false,
    Outcome.bind_ok, Outcome.pure_eq, Outcome.ok.injEq]
  by_cases hw : W i = 0
  · simp [hw]
  · field_simp

/-- Stoichiometric ratio: what the documentation defines. -/
theorem afr_spec {W : Fin n → ℝ} {e : Elems n} {f o : Fin n → ℝ} {u v : ℝ}
    (hf : need W e f = .ok u) (ho : need W e o = .ok v) :
    afr W e f o = if u < 0 ∨ 0 < v then .throw else if v = 0 then .ok none
      else .ok (some (u / -v)) := by
  simp only [afr, hf, ho, Outcome.bind_ok]

/-- With the stoichiometric amount the mixture needs exactly the oxygen present. -/
theorem afr_stoich {W : Fin n → ℝ} {e : Elems n} {f o : Fin n → ℝ} {A : ℝ}
    (h : afr W e f o = .ok (some A)) :
    0 ≤ A ∧ need W e (fun k => 1 / (∑ j, f j) * f k + A / (∑ j, o j) * o k) = .ok 0 := by
  cases h1 : need W e f with
  | throw => simp [afr, h1] at h
  | ub => simp [afr, h1] at h
  | ok u =>
    cases h2 : need W e o with
    | throw => simp [afr, h1, h2] at h
    | ub => simp [afr, h1, h2] at h
    | ok v =>
      rw [afr_spec h1 h2] at h
      split_ifs at h with h3 h4
      · simp at h
      simp only [Outcome.ok.injEq, Option.some.injEq] at h
      simp only [not_or, not_lt] at h3
      have hv : v < 0 := lt_of_le_of_ne h3.2 h4
      have hA : 0 ≤ A := by rw [← h]; exact div_nonneg h3.1 (by linarith)
      refine ⟨hA, ?_⟩
      rw [need_mix h1 h2 (by linarith : (1:ℝ) + A ≠ 0)]
      have e1 : 1 * u + A * v = 0 := by
        rw [← h]; field_simp; ring
      rw [e1, zero_div]

/-! ### Mixture fraction -/

theorem clamp_of_mem {z : ℝ} (h0 : 0 ≤ z) (h1 : z ≤ 1) : clamp z = z := by
  simp only [clamp, max_eq_left h0, min_eq_left h1]

/-- The result of a mixture fraction query is always in [0,1]. -/
theorem mixFrac_mem (p : Ph n) (e : Elems n) (f o : Fin n → ℝ) (molar : Bool) (z : ℝ)
    (h : mixFrac p e f o molar = .ok z) : 0 ≤ z ∧ z ≤ 1 := by
  have hc : ∀ w, 0 ≤ clamp w ∧ clamp w ≤ 1 := fun w =>
    ⟨le_min (le_max_right _ _) zero_le_one, min_le_right _ _⟩
  simp only [mixFrac] at h
  cases h1 : toMass molar p.W f with
  | throw => simp [h1] at h
  | ub => simp [h1] at h
  | ok f' =>
    cases h2 : toMass molar p.W o with
    | throw => simp [h1, h2] at h
    | ub => simp [h1, h2] at h
    | ok o' =>
      simp only [h1, h2, Outcome.bind_ok, mixB] at h
      cases h3 : need p.W e f' with
      | throw => simp [h3] at h
      | ub => simp [h3] at h
      | ok u =>
        cases h4 : need p.W e o' with
        | throw => simp [h3, h4] at h
        | ub => simp [h3, h4] at h
        | ok v =>
          cases h5 : need p.W e (getY p) with
          | throw => simp [h3, h4, h5] at h
          | ub => simp [h3, h4, h5] at h
          | ok w =>
            simp only [h3, h4, h5, Outcome.bind_ok] at h
            split_ifs at h
            simp only [Outcome.ok.injEq] at h
            rw [← h]; exact hc _

/-- Rewriting of the mixture used in the setters. -/
theorem mixform (f o : Fin n → ℝ) (s t : ℝ) :
    (fun k => s * f k / (∑ j, f j) + t * o k / ∑ j, o j)
      = fun k => s / (∑ j, f j) * f k + t / (∑ j, o j) * o k := by
  funext k; ring

/-- C16: the mixture fraction (Bilger) read back is the one set, for all compositions (of either
basis) with fuel need ≥ 0 ≥ oxidizer need, not both zero. -/
theorem mix_roundtrip (p : Ph n) (e : Elems n) (z : ℝ) (h0 : 0 ≤ z) (h1 : z ≤ 1)
    (fuel ox f o : Fin n → ℝ) (molar : Bool) (u v : ℝ)
    (hf : toMass molar p.W fuel = .ok f) (ho : toMass molar p.W ox = .ok o)
    (hu : need p.W e f = .ok u) (hv : need p.W e o = .ok v) (hu0 : 0 ≤ u) (hv0 : v ≤ 0)
    (huv : u ≠ v) :
    ∃ q, setMix p z fuel ox molar = .ok q ∧ mixFrac q e fuel ox molar = .ok z := by
  obtain ⟨a, b, ha, hb, _⟩ := need_ok hu
  obtain ⟨c, d, hc, hd, _⟩ := need_ok hv
  have hsf := (o2req_ok ha).1
  have hso := (o2req_ok hc).1
  have hz : ¬ (z < 0 ∨ 1 < z) := by rw [not_or, not_lt, not_lt]; exact ⟨h0, h1⟩
  have hss : ¬ (∑ k, f k = 0 ∨ ∑ k, o k = 0) := by rw [not_or]; exact ⟨hsf, hso⟩
  refine ⟨setYNoNorm p fun k => z * f k / (∑ j, f j) + (1 - z) * o k / ∑ j, o j, ?_, ?_⟩
  · simp only [setMix, hz, if_false, hf, ho, Outcome.bind_ok, hss]
  · have hW : (setYNoNorm p fun k => z * f k / (∑ j, f j) + (1 - z) * o k / ∑ j, o j).W = p.W := rfl
    have hY : getY (setYNoNorm p fun k => z * f k / (∑ j, f j) + (1 - z) * o k / ∑ j, o j)
        = fun k => z / (∑ j, f j) * f k + (1 - z) / (∑ j, o j) * o k := mixform f o z (1 - z)
    have hm := need_mix hu hv (s := z) (t := 1 - z) (by norm_num : z + (1 - z) ≠ 0)
    have hn : ¬ (u < 0 ∨ 0 < v) := by rw [not_or, not_lt, not_lt]; exact ⟨hu0, hv0⟩
    have hd' : u - v ≠ 0 := sub_ne_zero.2 huv
    simp only [mixFrac, hW, hf, ho, Outcome.bind_ok, mixB, hY, hm, hu, hv, hn, hd', if_false,
      Outcome.ok.injEq]
    have : ((z * u + (1 - z) * v) / (z + (1 - z)) - v) / (u - v) = z := by
      field_simp; ring
    rw [this]
    exact clamp_of_mem h0 h1

/-- The mixture fraction of a single element read back is the one set. -/
theorem mixE_roundtrip (p : Ph n) (a : Fin n → ℝ) (z : ℝ) (h0 : 0 ≤ z) (h1 : z ≤ 1)
    (fuel ox f o : Fin n → ℝ) (molar : Bool)
    (hf : toMass molar p.W fuel = .ok f) (ho : toMass molar p.W ox = .ok o)
    (hsf : ∑ k, f k ≠ 0) (hso : ∑ k, o k ≠ 0)
    (hne : lin p.W a f / (∑ k, f k) ≠ lin p.W a o / ∑ k, o k) :
    ∃ q, setMix p z fuel ox molar = .ok q ∧ mixFracE q a fuel ox molar = .ok z := by
  have hz : ¬ (z < 0 ∨ 1 < z) := by rw [not_or, not_lt, not_lt]; exact ⟨h0, h1⟩
  have hss : ¬ (∑ k, f k = 0 ∨ ∑ k, o k = 0) := by rw [not_or]; exact ⟨hsf, hso⟩
  refine ⟨setYNoNorm p fun k => z * f k / (∑ j, f j) + (1 - z) * o k / ∑ j, o j, ?_, ?_⟩
  · simp only [setMix, hz, if_false, hf, ho, Outcome.bind_ok, hss]
  · have hW : (setYNoNorm p fun k => z * f k / (∑ j, f j) + (1 - z) * o k / ∑ j, o j).W = p.W := rfl
    have hY : getY (setYNoNorm p fun k => z * f k / (∑ j, f j) + (1 - z) * o k / ∑ j, o j)
        = fun k => z / (∑ j, f j) * f k + (1 - z) / (∑ j, o j) * o k := mixform f o z (1 - z)
    simp only [mixFracE, hW, hf, ho, Outcome.bind_ok, mixE, hss, if_false, hne, hY, lin_comb,
      Outcome.ok.injEq]
    have hd : lin p.W a f / (∑ k, f k) - lin p.W a o / ∑ k, o k ≠ 0 := sub_ne_zero.2 hne
    have : (z / (∑ j, f j) * lin p.W a f + (1 - z) / (∑ j, o j) * lin p.W a o
          - lin p.W a o / ∑ k, o k) / (lin p.W a f / (∑ k, f k) - lin p.W a o / ∑ k, o k) = z := by
      rw [div_eq_iff hd]; ring
    rw [this]
    exact clamp_of_mem h0 h1

/-- Errors of the setter: range of Z, empty compositions. -/
theorem setMix_throw (p : Ph n) (z : ℝ) (fuel ox : Fin n → ℝ) (molar : Bool) (h : z < 0 ∨ 1 < z) :
    setMix p z fuel ox molar = .throw := by
  simp [setMix, h]

/-! ### Equivalence ratio -/

theorem toMass_nonneg {molar : Bool} {W x f : Fin n → ℝ} (hW : ∀ k, 0 < W k) (hx : ∀ k, 0 ≤ x k)
    (h : toMass molar W x = .ok f) : ∀ k, 0 ≤ f k := by
  cases molar with
  | false =>
    simp only [toMass, Bool.false_eq_true, if_false, Outcome.ok.injEq] at h
    rw [← h]; exact hx
  | true =>
    simp only [toMass, if_true, xToY] at h
    split_ifs at h with h0
    simp only [Outcome.ok.injEq] at h
    intro k
    rw [← h]
    have : 0 ≤ ∑ j, x j * W j := Finset.sum_nonneg fun j _ => mul_nonneg (hx j) (hW j).le
    exact mul_nonneg (mul_nonneg (hx k) (hW k).le) (one_div_nonneg.2 this)

/-- The phase after `setEquivalenceRatio`: normalised mass fractions of `φ` parts fuel and `A` parts
oxidizer. -/
theorem setPhi_spec (p : Ph n) (hW : Weights p) (e : Elems n) (φ : ℝ) (hφ : 0 ≤ φ)
    (fuel ox f o : Fin n → ℝ) (molar : Bool) (u v : ℝ)
    (hfn : ∀ k, 0 ≤ fuel k) (hon : ∀ k, 0 ≤ ox k)
    (hf : toMass molar p.W fuel = .ok f) (ho : toMass molar p.W ox = .ok o)
    (hu : need p.W e f = .ok u) (hv : need p.W e o = .ok v) (hu0 : 0 < u) (hv0 : v < 0) :
    ∃ q, setPhi p e φ fuel ox molar = .ok (some q) ∧ q.W = p.W ∧ Normalised q ∧
      getY q = fun k => (φ / (φ + u / -v)) / (∑ j, f j) * f k
        + (u / -v / (φ + u / -v)) / (∑ j, o j) * o k := by
  have hA : 0 < u / -v := div_pos hu0 (by linarith)
  obtain ⟨a, b, ha, hb, _⟩ := need_ok hu
  obtain ⟨c, d, hc, hd, _⟩ := need_ok hv
  have hsf := (o2req_ok ha).1
  have hso := (o2req_ok hc).1
  have hfn' := toMass_nonneg (fun k => (hW k).1) hfn hf
  have hon' := toMass_nonneg (fun k => (hW k).1) hon ho
  have hsf' : 0 < ∑ k, f k := lt_of_le_of_ne (Finset.sum_nonneg fun k _ => hfn' k) (Ne.symm hsf)
  have hso' : 0 < ∑ k, o k := lt_of_le_of_ne (Finset.sum_nonneg fun k _ => hon' k) (Ne.symm hso)
  generalize hAd : u / -v = A at *
  have hafr : afr p.W e f o = .ok (some A) := by
    rw [afr_spec hu hv, if_neg (by rw [not_or, not_lt, not_lt]; exact ⟨hu0.le, hv0.le⟩),
      if_neg hv0.ne, hAd]
  set y : Fin n → ℝ := fun k => φ * f k / (∑ j, f j) + A * o k / ∑ j, o j with hy
  have hyn : ∀ k, 0 ≤ y k := fun k =>
    add_nonneg (div_nonneg (mul_nonneg hφ (hfn' k)) hsf'.le)
      (div_nonneg (mul_nonneg hA.le (hon' k)) hso'.le)
  have hys : ∑ k, y k = φ + A := by
    rw [hy, mixform, sum_comb]; field_simp
  have hcl := clip_of_nonneg hyn
  refine ⟨setY p y, ?_, rfl, setY_normalised p y hW (by rw [hcl, hys]; linarith), ?_⟩
  · simp only [setPhi, not_lt.2 hφ, if_false, hf, ho, Outcome.bind_ok, hafr, hy]
  · funext k
    rw [setY_getY, hcl, hys]
    simp only [hy]
    have : φ + A ≠ 0 := by linarith
    field_simp

/-- C16: `equivalenceRatio(fuel, ox)` returns the φ set, for every fuel and oxidizer with finite
positive stoichiometric ratio, in either basis. -/
theorem phi_roundtrip (p : Ph n) (hW : Weights p) (e : Elems n) (φ : ℝ) (hφ : 0 ≤ φ)
    (fuel ox f o : Fin n → ℝ) (molar : Bool) (u v : ℝ)
    (hfn : ∀ k, 0 ≤ fuel k) (hon : ∀ k, 0 ≤ ox k)
    (hf : toMass molar p.W fuel = .ok f) (ho : toMass molar p.W ox = .ok o)
    (hu : need p.W e f = .ok u) (hv : need p.W e o = .ok v) (hu0 : 0 < u) (hv0 : v < 0) :
    ∃ q, setPhi p e φ fuel ox molar = .ok (some q) ∧ phi q e fuel ox molar = .ok (some φ) := by
  obtain ⟨q, h1, h2, _, h4⟩ := setPhi_spec p hW e φ hφ fuel ox f o molar u v hfn hon hf ho hu hv hu0 hv0
  refine ⟨q, h1, ?_⟩
  have hA : 0 < u / -v := div_pos hu0 (by linarith)
  have hafr : afr p.W e f o = .ok (some (u / -v)) := by
    rw [afr_spec hu hv, if_neg (by rw [not_or, not_lt, not_lt]; exact ⟨hu0.le, hv0.le⟩),
      if_neg hv0.ne]
  generalize hAd : u / -v = A at *
  have hs : φ + A ≠ 0 := by linarith
  have hst : φ / (φ + A) + A / (φ + A) = 1 := by field_simp
  have hm := need_mix hu hv (s := φ / (φ + A)) (t := A / (φ + A)) (by rw [hst]; norm_num)
  rw [hst, div_one] at hm
  have hn : ¬ (u < 0 ∨ 0 < v) := by rw [not_or, not_lt, not_lt]; exact ⟨hu0.le, hv0.le⟩
  have hd : u - v ≠ 0 := by linarith
  have hz : (φ / (φ + A) * u + A / (φ + A) * v - v) / (u - v) = φ / (φ + A) := by
    field_simp; ring
  have hz0 : 0 ≤ φ / (φ + A) := div_nonneg hφ (by linarith)
  have hz1 : φ / (φ + A) < 1 := by rw [div_lt_one (by linarith)]; linarith
  have hmix : mixFrac q e fuel ox molar = .ok (φ / (φ + A)) := by
    simp only [mixFrac, h2, hf, ho, Outcome.bind_ok, mixB, h4, hm, hu, hv, hn, hd, if_false,
      Outcome.ok.injEq, hz]
    exact clamp_of_mem hz0 hz1.le
  simp only [phi, hmix, Outcome.bind_ok]
  split_ifs with h5 h6
  · have : φ = 0 := by
      rcases div_eq_zero_iff.1 h5 with h | h
      · exact h
      · exact absurd h hs
    rw [this]
  · exact absurd h6 hz1.ne
  · simp only [h2, hf, ho, Outcome.bind_ok, hafr, Outcome.ok.injEq, Option.some.injEq]
    have h1z : 1 - φ / (φ + A) = A / (φ + A) := by field_simp; ring
    rw [h1z]
    have : φ / (φ + A) / (A / (φ + A)) * A = φ := by field_simp
    rw [this]
    exact max_eq_left hφ

/-- The element based `equivalenceRatio()` returns φ when the fuel holds no oxygen and the oxidizer
no fuel elements. -/
theorem phi0_roundtrip (p : Ph n) (hW : Weights p) (e : Elems n) (φ : ℝ) (hφ : 0 ≤ φ)
    (fuel ox f o : Fin n → ℝ) (molar : Bool) (u v : ℝ)
    (hfn : ∀ k, 0 ≤ fuel k) (hon : ∀ k, 0 ≤ ox k)
    (hf : toMass molar p.W fuel = .ok f) (ho : toMass molar p.W ox = .ok o)
    (hfr : o2req p.W e f = .ok u) (hfp : o2pres p.W e f = .ok 0)
    (hor : o2req p.W e o = .ok 0) (hop : o2pres p.W e o = .ok v) (hu0 : 0 < u) (hv0 : 0 < v) :
    ∃ q, setPhi p e φ fuel ox molar = .ok (some q) ∧ phi0 q e = .ok (some φ) := by
  have hu : need p.W e f = .ok u := by simp [need, hfr, hfp]
  have hv : need p.W e o = .ok (-v) := by simp [need, hor, hop]
  obtain ⟨q, h1, h2, _, h4⟩ := setPhi_spec p hW e φ hφ fuel ox f o molar u (-v) hfn hon hf ho hu hv
    hu0 (by linarith)
  refine ⟨q, h1, ?_⟩
  rw [neg_neg] at h4
  have hA : 0 < u / v := div_pos hu0 hv0
  have hs : φ + u / v ≠ 0 := by linarith
  have hst : φ / (φ + u / v) + u / v / (φ + u / v) = 1 := by field_simp
  have hr := req_mix hfr hor (s := φ / (φ + u / v)) (t := u / v / (φ + u / v))
    (by rw [hst]; norm_num)
  have hp := pres_mix hfp hop (s := φ / (φ + u / v)) (t := u / v / (φ + u / v))
    (by rw [hst]; norm_num)
  rw [hst] at hr hp
  simp only [phi0, h2, h4, hr, hp, Outcome.bind_ok]
  have hq : (φ / (φ + u / v) * 0 + u / v / (φ + u / v) * v) / 1 = u / (φ + u / v) := by
    field_simp; ring
  have hq0 : u / (φ + u / v) ≠ 0 := div_ne_zero hu0.ne' hs
  rw [hq, if_neg hq0]
  congr 2
  field_simp
  ring

/-- A negative φ is rejected. -/
theorem setPhi_throw (p : Ph n) (e : Elems n) (φ : ℝ) (fuel ox : Fin n → ℝ) (molar : Bool)
    (h : φ < 0) : setPhi p e φ fuel ox molar = .throw := by
  simp [setPhi, h]

/-- An oxidizer without free oxygen is not rejected: the air-fuel ratio is infinite and the phase is
given a composition of NaNs. -/
theorem setPhi_nan (p : Ph n) (e : Elems n) (φ : ℝ) (hφ : 0 ≤ φ) (fuel ox f o : Fin n → ℝ)
    (molar : Bool) (u : ℝ) (hf : toMass molar p.W fuel = .ok f) (ho : toMass molar p.W ox = .ok o)
    (hu : need p.W e f = .ok u) (hv : need p.W e o = .ok 0) (hu0 : 0 ≤ u) :
    setPhi p e φ fuel ox molar = .ok none := by
  simp [setPhi, not_lt.2 hφ, hf, ho, afr_spec hu hv, not_lt.2 hu0]

/-! ### Example: H2 and O2 with weights 2 and 32 -/

noncomputable def exP : Ph 2 :=
  ⟨![2, 32], ![1/2, 1/32], ![1, 0], ![1/2, 0], 2, 300, 1, true, .massY⟩

noncomputable def exE : Elems 2 := ⟨none, none, some ![2, 0], some ![0, 2]⟩

theorem exP_weights : Weights exP := by
  intro k; fin_cases k <;> norm_num [exP]

theorem exE_f : o2req exP.W exE ![1, 0] = .ok (1 / 4) ∧ o2pres exP.W exE ![1, 0] = .ok 0 := by
  constructor
  · norm_num [o2req, reqLin, linO, lin, exP, exE, Fin.sum_univ_two]
  · norm_num [o2pres, lin, exP, exE, Fin.sum_univ_two]

theorem exE_o : o2req exP.W exE ![0, 1] = .ok 0 ∧ o2pres exP.W exE ![0, 1] = .ok (1 / 32) := by
  constructor
  · norm_num [o2req, reqLin, linO, lin, exP, exE, Fin.sum_univ_two]
  · norm_num [o2pres, lin, exP, exE, Fin.sum_univ_two]

example : ∃ q, setPhi exP exE 2 ![1, 0] ![0, 1] false = .ok (some q) ∧
    phi q exE ![1, 0] ![0, 1] false = .ok (some 2) :=
  phi_roundtrip exP exP_weights exE 2 (by norm_num) _ _ _ _ false (1/4) (-(1/32))
    (fun k => by fin_cases k <;> norm_num) (fun k => by fin_cases k <;> norm_num) rfl rfl
    (by norm_num [need, exE_f.1, exE_f.2]) (by norm_num [need, exE_o.1, exE_o.2]) (by norm_num)
    (by norm_num)

example : ∃ q, setPhi exP exE 2 ![1, 0] ![0, 1] false = .ok (some q) ∧ phi0 q exE = .ok (some 2) :=
  phi0_roundtrip exP exP_weights exE 2 (by norm_num) _ _ _ _ false (1/4) (1/32)
    (fun k => by fin_cases k <;> norm_num) (fun k => by fin_cases k <;> norm_num) rfl rfl
    exE_f.1 exE_f.2 exE_o.1 exE_o.2 (by norm_num) (by norm_num)

example : ∃ q, setMix exP (1/3) ![1, 0] ![0, 1] false = .ok q ∧
    mixFrac q exE ![1, 0] ![0, 1] false = .ok (1/3) :=
  mix_roundtrip exP exE (1/3) (by norm_num) (by norm_num) _ _ _ _ false (1/4) (-(1/32)) rfl rfl
    (by norm_num [need, exE_f.1, exE_f.2]) (by norm_num [need, exE_o.1, exE_o.2]) (by norm_num)
    (by norm_num) (by norm_num)

/-- Fuel as oxidizer: NaN composition without an error. -/
theorem setPhi_nan_witness : need exP.W ⟨none, none, none, some ![0, 2]⟩ ![1, 0] = .ok 0 ∧
    setPhi exP ⟨none, none, none, some ![0, 2]⟩ 1 ![1, 0] ![1, 0] false = .ok none := by
  have h : need exP.W ⟨none, none, none, some ![0, 2]⟩ ![1, 0] = .ok 0 := by
    norm_num [need, o2req, o2pres, reqLin, linO, lin, exP, Fin.sum_univ_two]
  exact ⟨h, setPhi_nan exP _ 1 (by norm_num) _ _ _ _ false 0 rfl rfl h h le_rfl⟩

end Verif.EqRatio
