import Verif.Thermo.Simplex
import Mathlib.Analysis.SpecialFunctions.Log.Deriv

/-!
# C63: Margules solutions

Source: src/thermo/MargulesVPSSTP.cpp (lines cited below), src/thermo/GibbsExcessVPSSTP.cpp.

Simplifications: `R` is the gas constant; interactions are those kept by `addBinaryInteraction`
(l. 203-226), hence with valid species indices; `moleFractions_` is the current composition; the
standard state functions of the species are inputs.
-/

namespace Verif.Thermo.Margules

open Verif Verif.Thermo

/-- One entry of the interaction tables. -/
structure MInt where
  A : ℕ
  B : ℕ
  hb : ℝ
  hc : ℝ
  sb : ℝ
  sc : ℝ
  vhb : ℝ
  vhc : ℝ
  vsb : ℝ
  vsc : ℝ

/-- `(m_HE_b_ij - T*m_SE_b_ij)/RT` (l. 236). -/
noncomputable def MInt.g0 (i : MInt) (R T : ℝ) : ℝ := (i.hb - T * i.sb) / (R * T)

/-- `(m_HE_c_ij - T*m_SE_c_ij)/RT` (l. 237). -/
noncomputable def MInt.g1 (i : MInt) (R T : ℝ) : ℝ := (i.hc - T * i.sc) / (R * T)

/-- The loop body shared by l. 238-247, 260-274 and 128-139: `all` is added to every entry, then the
entries of the two species are changed. -/
noncomputable def addTerm (kk : ℕ) (A B : ℕ) (g0 g1 : ℝ) (X : ℕ → ℝ) (v : ℕ → ℝ) : ℕ → ℝ :=
  let XA := X A
  let XB := X B
  let gg := g0 + g1 * XB
  let all := -1 * (XA * XB) * gg - XA * XB * XB * g1
  let v := fun k => if k < kk then v k + all else v k
  let v := Function.update v A (v A + XB * gg)
  Function.update v B (v B + (XA * gg + XA * XB * g1))

/-- `s_update_lnActCoeff` (l. 229-249). -/
noncomputable def lnAct (kk : ℕ) (R : ℝ) (ints : List MInt) (T : ℝ) (X : ℕ → ℝ) : ℕ → ℝ :=
  ints.foldl (fun v i => addTerm kk i.A i.B (i.g0 R T) (i.g1 R T) X v) (fun _ => 0)

/-- `dlnActCoeffdT_Scaled_` of `s_update_dlnActCoeff_dT` (l. 251-278). -/
noncomputable def dT (kk : ℕ) (R : ℝ) (ints : List MInt) (T : ℝ) (X : ℕ → ℝ) : ℕ → ℝ :=
  ints.foldl (fun v i => addTerm kk i.A i.B (-i.hb * (1 / R * (1 / T) * (1 / T)))
    (-i.hc * (1 / R * (1 / T) * (1 / T))) X v) (fun _ => 0)

/-- Update of `d2lnActCoeffdT2_Scaled_` in the loop (l. 267-276). -/
noncomputable def subTerm (kk : ℕ) (A B : ℕ) (g0 g1 mult : ℝ) (X : ℕ → ℝ) (v : ℕ → ℝ) : ℕ → ℝ :=
  let XA := X A
  let XB := X B
  let gg := g0 + g1 * XB
  let all := -1 * (XA * XB) * gg - XA * XB * XB * g1
  let dT2all := mult * all
  let v := fun k => if k < kk then v k - dT2all else v k
  let v := Function.update v A (v A - mult * XB * gg)
  Function.update v B (v B - mult * (XA * gg + XA * XB * g1))

/-- `d2lnActCoeffdT2_Scaled_` (l. 251-278). -/
noncomputable def d2T (kk : ℕ) (R : ℝ) (ints : List MInt) (T : ℝ) (X : ℕ → ℝ) : ℕ → ℝ :=
  ints.foldl (fun v i => subTerm kk i.A i.B (-i.hb * (1 / R * (1 / T) * (1 / T)))
    (-i.hc * (1 / R * (1 / T) * (1 / T))) (2 * (1 / T)) X v) (fun _ => 0)

/-- `getPartialMolarVolumes` (l. 118-141); `V0` are the standard volumes. -/
noncomputable def vbar (kk : ℕ) (ints : List MInt) (V0 : ℕ → ℝ) (T : ℝ) (X : ℕ → ℝ) : ℕ → ℝ :=
  ints.foldl (fun v i => addTerm kk i.A i.B (i.vhb - T * i.vsb) (i.vhc - T * i.vsc) X v) V0

/-- Molar volume from the density assigned by `calcDensity` (GibbsExcessVPSSTP.cpp:31-40). -/
noncomputable def molarVolume (kk : ℕ) (V0 X : ℕ → ℝ) : ℝ :=
  (List.range kk).foldl (fun s i => s + V0 i * X i) 0

/-- `SmallNumber` (ct_defs.h:158). -/
noncomputable def small : ℝ := 1e-300

/-- `getChemPotentials` (l. 38-50). -/
noncomputable def mu (kk : ℕ) (R : ℝ) (ints : List MInt) (mu0 : ℕ → ℝ) (T : ℝ) (X : ℕ → ℝ) : ℕ → ℝ :=
  fun k => mu0 k + R * T * (Real.log (max (X k) small) + lnAct kk R ints T X k)

/-- `getPartialMolarEnthalpies` (l. 57-74); `h0` are nondimensional. -/
noncomputable def hbar (kk : ℕ) (R : ℝ) (ints : List MInt) (h0 : ℕ → ℝ) (T : ℝ) (X : ℕ → ℝ) : ℕ → ℝ :=
  fun k => h0 k * (R * T) - R * T * T * dT kk R ints T X k

/-- `getPartialMolarCp` (l. 76-94). -/
noncomputable def cpbar (kk : ℕ) (R : ℝ) (ints : List MInt) (cp0 : ℕ → ℝ) (T : ℝ) (X : ℕ → ℝ) : ℕ → ℝ :=
  fun k => (cp0 k - (2 * T * dT kk R ints T X k + T * T * d2T kk R ints T X k)) * R

/-- `getPartialMolarEntropies` (l. 96-116). -/
noncomputable def sbar (kk : ℕ) (R : ℝ) (ints : List MInt) (s0 : ℕ → ℝ) (T : ℝ) (X : ℕ → ℝ) : ℕ → ℝ :=
  fun k => (s0 k + (-lnAct kk R ints T X k - Real.log (max (X k) small) - T * dT kk R ints T X k)) * R

/-- Loop body of `getdlnActCoeffds` (l. 305-322). -/
noncomputable def dsStep (kk : ℕ) (R T : ℝ) (X dX : ℕ → ℝ) (dTs : ℕ → ℝ) (dTds : ℝ) (v : ℕ → ℝ) (i : MInt) :
    ℕ → ℝ :=
  let XA := X i.A
  let XB := X i.B
  let dXA := dX i.A
  let dXB := dX i.B
  let g0 := i.g0 R T
  let g1 := i.g1 R T
  let gg := g0 + 2 * g1 * XB
  let g2 := 2 * g1 * XA * dXB
  let all := (-XB * dXA - XA * dXB) * gg - XB * g2
  let v := fun k => if k < kk then v k + (all + dTs k * dTds) else v k
  let v := Function.update v i.A (v i.A + dXB * gg)
  Function.update v i.B (v i.B + (dXA * gg + g2))

/-- `getdlnActCoeffds` (l. 296-323). -/
noncomputable def ds (kk : ℕ) (R : ℝ) (ints : List MInt) (T : ℝ) (X dX : ℕ → ℝ) (dTds : ℝ) : ℕ → ℝ :=
  ints.foldl (dsStep kk R T X dX (dT kk R ints T X) dTds) (fun _ => 0)

/-- `delAK`, `delBK` (l. 336-343, 369-382): the second is set only if the first is not. -/
def delA (i : MInt) (k : ℕ) : ℝ := if i.A = k then 1 else 0

def delB (i : MInt) (k : ℕ) : ℝ := if i.A = k then 0 else if i.B = k then 1 else 0

/-- `s_update_dlnActCoeff_dlnN_diag` (l. 325-355). -/
noncomputable def dlnNdiag (R : ℝ) (ints : List MInt) (T : ℝ) (X : ℕ → ℝ) (k : ℕ) : ℝ :=
  X k * ints.foldl (fun s i => s +
    2 * (delB i k - X i.B) * (i.g0 R T * (delA i k - X i.A) +
      i.g1 R T * (2 * (delA i k - X i.A) * X i.B + X i.A * (delB i k - X i.B)))) 0

/-- `s_update_dlnActCoeff_dlnN` (l. 357-394): entry `(iK, iM)`. -/
noncomputable def dlnN (R : ℝ) (ints : List MInt) (T : ℝ) (X : ℕ → ℝ) (k m : ℕ) : ℝ :=
  X m * ints.foldl (fun s i => s +
    i.g0 R T * ((delA i m - X i.A) * (delB i k - X i.B) + (delA i k - X i.A) * (delB i m - X i.B)) +
    2 * i.g1 R T * ((delA i m - X i.A) * (delB i k - X i.B) * X i.B +
      (delA i k - X i.A) * (delB i m - X i.B) * X i.B +
      (delB i m - X i.B) * (delB i k - X i.B) * X i.A)) 0

/-- Column-major storage of an `m_kk × m_kk` `Array2D` (Array.h: `m_data[m_nrows*j + i]`). -/
noncomputable def colMajor (kk : ℕ) (M : ℕ → ℕ → ℝ) (p : ℕ) : ℝ := M (p % kk) (p / kk)

/-- `getdlnActCoeffdlnN` (l. 432-441): entry `k`, `m` of the output with leading dimension `ld`. -/
noncomputable def getdlnN (kk : ℕ) (R : ℝ) (ints : List MInt) (T : ℝ) (X : ℕ → ℝ) (k m : ℕ) : ℝ :=
  colMajor kk (dlnN R ints T X) (kk * k + m)

/-- `s_update_dlnActCoeff_dlnX_diag` (l. 396-414). -/
noncomputable def dlnXdiag (R : ℝ) (ints : List MInt) (T : ℝ) (X : ℕ → ℝ) : ℕ → ℝ :=
  ints.foldl (fun v i =>
    let c := X i.A * X i.B * (2 * i.g1 R T * -2 * i.g0 R T - 6 * i.g1 R T * X i.B)
    let v := Function.update v i.A (v i.A + c)
    Function.update v i.B (v i.B + c)) (fun _ => 0)

end Verif.Thermo.Margules
