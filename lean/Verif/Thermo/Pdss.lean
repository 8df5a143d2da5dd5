import Mathlib.Data.Real.Basic

/-!
# Pressure dependent standard states

PDSS_ConstVol, PDSS_SSVol, the reference values of PDSS_Water, and the cache of
VPStandardStateTP.  The reference thermodynamics of a species are given functions of temperature.
-/

namespace Verif.Pdss

/-- `m_spthermo` (functions h/RT, s/R, cp/R), `m_p0`, `GasConstant`. -/
structure Ref where
  R : ℝ
  p0 : ℝ
  h : ℝ → ℝ
  s : ℝ → ℝ
  cp : ℝ → ℝ

/-- Members of PDSS and PDSS_Nondimensional, PDSS.cpp:186-198, with `dVdT_` and `d2VdT2_` of
PDSS_SSVol. -/
structure St where
  T : ℝ
  P : ℝ
  h0 : ℝ
  s0 : ℝ
  cp0 : ℝ
  g0 : ℝ
  hss : ℝ
  sss : ℝ
  gss : ℝ
  cpss : ℝ
  Vss : ℝ
  V0 : ℝ
  dV : ℝ
  d2V : ℝ

variable (D : Ref)

/-- PDSS.cpp:200-218. -/
noncomputable def enthalpy (x : St) : ℝ := x.hss * D.R * x.T
noncomputable def entropy (x : St) : ℝ := x.sss * D.R
noncomputable def gibbs (x : St) : ℝ := x.gss * D.R * x.T
noncomputable def cp (x : St) : ℝ := x.cpss * D.R

/-- PDSS_ConstVol.cpp:48-52 and PDSS_SSVol.cpp:84-88. -/
noncomputable def intEnergy (x : St) : ℝ := x.h0 * D.R * x.T - x.P * x.Vss

/-- PDSS_ConstVol.cpp:54-57 and PDSS_SSVol.cpp:90-93. -/
noncomputable def cv (x : St) : ℝ := cp D x - x.V0

/-! ## Constant volume -/
namespace ConstVol

/-- PDSS_ConstVol.cpp:59-65. -/
noncomputable def setPressure (x : St) (p : ℝ) : St :=
  let del := (p - D.p0) / (D.R * x.T)
  let hss := x.h0 + del * x.Vss
  { x with P := p, hss := hss, gss := hss - x.sss }

/-- PDSS_ConstVol.cpp:67-79. -/
noncomputable def setTemperature (x : St) (T : ℝ) : St :=
  let del := (x.P - D.p0) / (D.R * T)
  let hss := D.h T + del * x.Vss
  { x with
    T := T, cp0 := D.cp T, h0 := D.h T, s0 := D.s T, g0 := D.h T - D.s T, hss := hss,
    cpss := D.cp T, sss := D.s T, gss := hss - D.s T }

/-- PDSS_ConstVol.cpp:81-85. -/
noncomputable def setTP (x : St) (T p : ℝ) : St := setPressure D (setTemperature D x T) p

end ConstVol

/-! ## Volume from a polynomial -/
namespace SSVol

/-- `volumeModel_ = density_tpoly` or `tpoly`, `TCoeff_`, `m_mw`. -/
structure Vol where
  dens : Bool
  t0 : ℝ
  t1 : ℝ
  t2 : ℝ
  t3 : ℝ
  mw : ℝ

/-- PDSS_SSVol.cpp:98, 103. -/
noncomputable def poly (v : Vol) (T : ℝ) : ℝ := v.t0 + T * (v.t1 + T * (v.t2 + T * v.t3))
/-- PDSS_SSVol.cpp:100, 107. -/
noncomputable def dpoly (v : Vol) (T : ℝ) : ℝ := v.t1 + 2 * T * v.t2 + 3 * T * T * v.t3
/-- PDSS_SSVol.cpp:101, 108. -/
noncomputable def d2poly (v : Vol) (T : ℝ) : ℝ := 2 * v.t2 + 6 * T * v.t3

/-- PDSS_SSVol.cpp:95-114. -/
noncomputable def vol (v : Vol) (T : ℝ) : ℝ := if v.dens then v.mw / poly v T else poly v T
noncomputable def dvol (v : Vol) (T : ℝ) : ℝ :=
  if v.dens then -v.mw / (poly v T * poly v T) * dpoly v T else dpoly v T
noncomputable def d2vol (v : Vol) (T : ℝ) : ℝ :=
  if v.dens then 2 * v.mw / (poly v T * poly v T * poly v T) * dpoly v T * dpoly v T
    - v.mw / (poly v T * poly v T) * d2poly v T
  else d2poly v T

/-- PDSS_SSVol.cpp:119-132, 141-154. -/
noncomputable def pressureTerms (x : St) : St :=
  let dP := x.P - D.p0
  if |dP| < 1 / 10 ^ 10 then
    { x with hss := x.h0, sss := x.s0, gss := x.h0 - x.s0, cpss := x.cp0 }
  else
    let del := dP / (D.R * x.T)
    let sV := -dP / D.R * x.dV
    let hss := x.h0 + sV + del * x.Vss
    let sss := x.s0 + sV
    { x with hss := hss, sss := sss, gss := hss - sss, cpss := x.cp0 - x.T * dP * x.d2V }

/-- PDSS_SSVol.cpp:116-133. -/
noncomputable def setPressure (x : St) (p : ℝ) : St := pressureTerms D { x with P := p }

/-- PDSS_SSVol.cpp:135-155. -/
noncomputable def setTemperature (v : Vol) (x : St) (T : ℝ) : St :=
  pressureTerms D { x with
    T := T, cp0 := D.cp T, h0 := D.h T, s0 := D.s T, g0 := D.h T - D.s T,
    Vss := vol v T, V0 := vol v T, dV := dvol v T, d2V := d2vol v T }

/-- PDSS_SSVol.cpp:157-161. -/
noncomputable def setTP (v : Vol) (x : St) (T p : ℝ) : St :=
  setTemperature D v { x with P := p } T

end SSVol

/-! ## Water -/
namespace Water

/-- WaterPropsIAPWS as functions of temperature and density, the density of the given phase at
given temperature and pressure, and the offsets. -/
structure Sub where
  h : ℝ → ℝ → ℝ
  s : ℝ → ℝ → ℝ
  density : ℝ → ℝ → ℝ
  mw : ℝ
  EW : ℝ
  SW : ℝ
  R : ℝ
  p0 : ℝ

/-- PDSS_Water.cpp:52-70 with `gibbs_mass` = h - T s. -/
noncomputable def enthalpyMole (w : Sub) (T ρ : ℝ) : ℝ := w.h T ρ * w.mw + w.EW
noncomputable def entropyMole (w : Sub) (T ρ : ℝ) : ℝ := w.s T ρ * w.mw + w.SW
noncomputable def gibbsMole (w : Sub) (T ρ : ℝ) : ℝ :=
  (w.h T ρ - T * w.s T ρ) * w.mw + w.EW - w.SW * T

/-- PDSS_Water.cpp:87-93. -/
noncomputable def gibbsRef (w : Sub) (T : ℝ) : ℝ :=
  (w.h T (w.density T w.p0) * w.mw + w.EW - w.SW * T) / (T * w.R)
/-- PDSS_Water.cpp:95-101. -/
noncomputable def enthalpyRef (w : Sub) (T : ℝ) : ℝ :=
  (w.h T (w.density T w.p0) * w.mw + w.EW) / (T * w.R)
/-- PDSS_Water.cpp:103-109. -/
noncomputable def entropyRef (w : Sub) (T : ℝ) : ℝ :=
  (w.s T (w.density T w.p0) * w.mw + w.SW) / w.R

end Water

/-! ## Cache of VPStandardStateTP -/
namespace VP

/-- What a PDSS object gives at given temperature and pressure; reference values by temperature.
`V0` is the volume at the reference pressure. -/
structure Species where
  href : ℝ → ℝ
  sref : ℝ → ℝ
  cpref : ℝ → ℝ
  Vref : ℝ → ℝ
  h : ℝ → ℝ → ℝ
  s : ℝ → ℝ → ℝ
  cp : ℝ → ℝ → ℝ
  V : ℝ → ℝ → ℝ

/-- Members of VPStandardStateTP; the vectors are functions of the species index. -/
structure Cache where
  T : ℝ
  P : ℝ
  tlast : ℝ
  Tss : ℝ
  Pss : ℝ
  h0 : ℕ → ℝ
  s0 : ℕ → ℝ
  g0 : ℕ → ℝ
  cp0 : ℕ → ℝ
  V0 : ℕ → ℝ
  hss : ℕ → ℝ
  sss : ℕ → ℝ
  gss : ℕ → ℝ
  cpss : ℕ → ℝ
  Vss : ℕ → ℝ

variable (sp : ℕ → Species)

/-- VPStandardStateTP.cpp:261-285. -/
noncomputable def recompute (c : Cache) : Cache :=
  let c1 := if c.T ≠ c.tlast then
      { c with h0 := fun k => (sp k).href c.T, s0 := fun k => (sp k).sref c.T,
               g0 := fun k => (sp k).href c.T - (sp k).sref c.T,
               cp0 := fun k => (sp k).cpref c.T, V0 := fun k => (sp k).Vref c.T }
    else c
  { c1 with hss := fun k => (sp k).h c.T c.P, sss := fun k => (sp k).s c.T c.P,
            gss := fun k => (sp k).h c.T c.P - (sp k).s c.T c.P,
            cpss := fun k => (sp k).cp c.T c.P, Vss := fun k => (sp k).V c.T c.P,
            Pss := c.P, Tss := c.T, tlast := c.T }

/-- VPStandardStateTP.cpp:287-293. -/
noncomputable def update (c : Cache) : Cache :=
  if c.T ≠ c.Tss ∨ c.T ≠ c.tlast ∨ c.P ≠ c.Pss then recompute sp c else c

/-- VPStandardStateTP.cpp:207-216 (the density is not part of the cache). -/
noncomputable def setTP (c : Cache) (T P : ℝ) : Cache := update sp { c with T := T, P := P }

/-- VPStandardStateTP.cpp:255-259, ThermoPhase.cpp:1162-1165. -/
noncomputable def invalidate (c : Cache) : Cache :=
  { c with tlast := c.tlast + 1234 / 10000, Tss := c.Tss + 1234 / 10000000 }

/-- VPStandardStateTP.cpp:58-62. -/
noncomputable def getGibbs (c : Cache) (k : ℕ) : ℝ := (update sp c).gss k
/-- VPStandardStateTP.cpp:46-50. -/
noncomputable def getEnthalpy (c : Cache) (k : ℕ) : ℝ := (update sp c).hss k
/-- VPStandardStateTP.cpp:52-56. -/
noncomputable def getEntropy (c : Cache) (k : ℕ) : ℝ := (update sp c).sss k
/-- VPStandardStateTP.cpp:80-84. -/
noncomputable def getCp (c : Cache) (k : ℕ) : ℝ := (update sp c).cpss k
/-- VPStandardStateTP.cpp:86-90. -/
noncomputable def getVolume (c : Cache) (k : ℕ) : ℝ := (update sp c).Vss k
/-- VPStandardStateTP.cpp:71-78. -/
noncomputable def getIntEnergy (R : ℝ) (c : Cache) (k : ℕ) : ℝ :=
  (update sp c).hss k - (update sp c).Pss / (R * c.T) * (update sp c).Vss k
/-- VPStandardStateTP.cpp:99-134. -/
noncomputable def getEnthalpyRef (c : Cache) (k : ℕ) : ℝ := (update sp c).h0 k
noncomputable def getGibbsRef (c : Cache) (k : ℕ) : ℝ := (update sp c).g0 k
noncomputable def getEntropyRef (c : Cache) (k : ℕ) : ℝ := (update sp c).s0 k
noncomputable def getCpRef (c : Cache) (k : ℕ) : ℝ := (update sp c).cp0 k
/-- VPStandardStateTP.cpp:136-140: copies `m_Vss`, not `m_V0`. -/
noncomputable def getVolumeRef (c : Cache) (k : ℕ) : ℝ := (update sp c).Vss k

end VP

end Verif.Pdss
