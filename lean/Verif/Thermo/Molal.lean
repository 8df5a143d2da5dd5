import Mathlib.Analysis.SpecialFunctions.Log.Basic
import Mathlib.Analysis.SpecialFunctions.ExpDeriv
import Mathlib.Algebra.BigOperators.Group.Finset.Basic

/-!
# Molalities and ideal molal solutions

MolalityVPSSTP and IdealMolalSoln.  The standard states (chemical potential, enthalpy, entropy) are
given numbers for the temperature and pressure of the state.  Species 0 is the solvent.  Mole
fractions are functions of the index which sum to one over `k < n`.
-/

namespace Verif.Molal

/-- ct_defs.h:158. -/
noncomputable def small : ℝ := 1 / 10 ^ 300

/-- Number of species, `m_Mnaught` (kg of solvent per mole), `m_xmolSolventMIN`, charges. -/
structure Sol where
  n : ℕ
  M0 : ℝ
  xmin : ℝ
  z : ℕ → ℝ

variable (M : Sol)

/-- MolalityVPSSTP.cpp:60-68. -/
noncomputable def molality (X : ℕ → ℝ) (k : ℕ) : ℝ := X k * (1 / (M.M0 * max (X 0) M.xmin))

/-- Phase.cpp:289-319: normalization by `setMoleFractions`. -/
noncomputable def normalize (x : ℕ → ℝ) (k : ℕ) : ℝ :=
  max (x k) 0 / ∑ j ∈ Finset.range M.n, max (x j) 0

/-- MolalityVPSSTP.cpp:78-98: mole fractions handed to `setMoleFractions`. -/
noncomputable def fromMolalities (m : ℕ → ℝ) (k : ℕ) : ℝ :=
  let Lsum := 1 / M.M0 + ∑ j ∈ Finset.Ico 1 M.n, m j
  let tmp := 1 / Lsum
  let y := fun j => if j = 0 then tmp / M.M0 else tmp * m j
  let sum := ∑ j ∈ Finset.range M.n, y j
  if sum ≠ 1 then y k * (1 / sum) else y k

/-- MolalityVPSSTP.cpp:78-103: mole fractions after `setMolalities`. -/
noncomputable def setMolalities (m : ℕ → ℝ) : ℕ → ℝ := normalize M (fromMolalities M m)

/-! ## Molalities by name -/

/-- MolalityVPSSTP.cpp:112-119: `mol k` is the value in the map, zero if the name is not in it. -/
noncomputable def byName (X mol : ℕ → ℝ) (k : ℕ) : ℝ :=
  if 0 < mol k then mol k * M.M0 * max (X 0) M.xmin else X k

/-- Local variables of the loop MolalityVPSSTP.cpp:122-140. -/
structure Acc where
  lp : Option ℕ
  cp : ℝ
  ln : Option ℕ
  cn : ℝ
  sum : ℝ

/-- One pass of the loop, MolalityVPSSTP.cpp:127-140. -/
noncomputable def accStep (z mf : ℕ → ℝ) (a : Acc) (k : ℕ) : Acc :=
  let a1 := if 0 < mf k then
      let a1 := if 0 < z k ∧ a.cp < z k * mf k then { a with lp := some k, cp := z k * mf k } else a
      if z k < 0 ∧ a1.cn < |z k| * mf k then { a1 with ln := some k, cn := |z k| * mf k } else a1
    else a
  { a1 with sum := a1.sum + mf k * z k }

/-- MolalityVPSSTP.cpp:122-140. -/
noncomputable def acc (mf : ℕ → ℝ) : Acc :=
  (List.range M.n).foldl (accStep M.z mf) ⟨none, 0, none, 0, 0⟩

/-- MolalityVPSSTP.cpp:141-157: `none` is the exception (also for an index `npos`, which the proofs
show not to occur). -/
noncomputable def neutralize (mf : ℕ → ℝ) : Option (ℕ → ℝ) :=
  let a := acc M mf
  if a.sum ≠ 0 then
    if 0 < a.sum then
      if a.sum < a.cp then
        a.lp.map (fun k => Function.update mf k (mf k - a.sum / M.z k))
      else none
    else
      if -a.sum < a.cn then
        a.ln.map (fun k => Function.update mf k (mf k - -a.sum / |M.z k|))
      else none
  else some mf

/-- MolalityVPSSTP.cpp:105-171. -/
noncomputable def setByName (X mol : ℕ → ℝ) : Option (ℕ → ℝ) :=
  (neutralize M (byName M X mol)).map (fun mf =>
    let sum := 1 / ∑ k ∈ Finset.range M.n, mf k
    normalize M (fun k => mf k * sum))

/-! ## Activity coefficients of IdealMolalSoln -/

/-- Parameters of the cutoff: type, `IMS_X_o_cutoff_`, `IMS_gamma_o_min_`, `IMS_gamma_k_min_`,
`IMS_cCut_`, the slopes, and the coefficients of the exponential form. -/
structure Cut where
  type : ℕ
  Xo : ℝ
  γo : ℝ
  γk : ℝ
  c : ℝ
  sf : ℝ
  sg : ℝ
  af : ℝ
  bf : ℝ
  df : ℝ
  ef : ℝ
  ag : ℝ
  bg : ℝ
  dg : ℝ
  eg : ℝ

/-- IdealMolalSoln.cpp:386, 393, 445. -/
noncomputable def idealO (x : ℝ) : ℝ := -Real.log x + (x - 1) / x

/-- IdealMolalSoln.cpp:404-411. -/
noncomputable def h2 (C : Cut) (x : ℝ) : ℝ :=
  let u := x - C.Xo / 2
  3.5 * u ^ 2 / C.Xo - 2 * u ^ 3 / C.Xo ^ 2
noncomputable def h2' (C : Cut) (x : ℝ) : ℝ :=
  let u := x - C.Xo / 2
  7 * u / C.Xo - 6 * u ^ 2 / C.Xo ^ 2

/-- IdealMolalSoln.cpp:413-414. -/
noncomputable def h1 (C : Cut) (x : ℝ) : ℝ :=
  let u := x - C.Xo / 2
  1 - 3 * u ^ 2 / C.Xo ^ 2 + 2 * u ^ 3 / C.Xo ^ 3
noncomputable def h1' (C : Cut) (x : ℝ) : ℝ :=
  let u := x - C.Xo / 2
  (-6 * u / C.Xo ^ 2 + 6 * u ^ 2 / C.Xo ^ 3)

/-- IdealMolalSoln.cpp:416-427. -/
noncomputable def polyF (C : Cut) (x : ℝ) : ℝ := h2 C x + h1 C x * (1 / (Real.exp 1 * C.γk))
noncomputable def polyF' (C : Cut) (x : ℝ) : ℝ := h2' C x + h1' C x * (1 / (Real.exp 1 * C.γk))
noncomputable def polyG (C : Cut) (x : ℝ) : ℝ := h2 C x + h1 C x / C.γo
noncomputable def polyG' (C : Cut) (x : ℝ) : ℝ := h2' C x + h1' C x / C.γo

/-- IdealMolalSoln.cpp:448-459: `x + e + exp(-x/c) (a + x (b + d x))` and the expression used for
its derivative. -/
noncomputable def expF (a b d e c x : ℝ) : ℝ := x + e + Real.exp (-(x / c)) * (a + x * (b + d * x))
noncomputable def expF' (a b d c x : ℝ) : ℝ :=
  1 + Real.exp (-(x / c)) * (b - a / c - b * (x / c) + 2 * d * x - d * x * (x / c))

/-- IdealMolalSoln.cpp:429-431, 461-463: logarithms of the activity coefficients of the solutes
(on the scale of mole fractions) and of the solvent. -/
noncomputable def lnGamK (f f' g g' x : ℝ) : ℝ :=
  let tmp := x / g * g' + (1 - x) / f * f'
  (-1 - Real.log f + tmp * x)
noncomputable def lnGamO (f f' g g' x : ℝ) : ℝ :=
  let tmp := x / g * g' + (1 - x) / f * f'
  (-Real.log g - tmp * (1 - x))

/-- IdealMolalSoln.cpp:373-472: logarithm of the molality based activity coefficients of the
solutes (all the same), for the mole fraction `x` of the solvent. -/
noncomputable def lnActK (C : Cut) (xmin x : ℝ) : ℝ :=
  if C.type = 1 then
    if 3 * C.Xo / 2 < x then 0
    else if x < C.Xo / 2 then Real.log (max xmin x * C.γk)
    else Real.log x + lnGamK (polyF C x) (polyF' C x) (polyG C x) (polyG' C x) x
  else if C.type = 2 then
    if C.Xo < x then 0
    else Real.log (max xmin x) + lnGamK (expF C.af C.bf C.df C.ef C.c x)
      (expF' C.af C.bf C.df C.c x) (expF C.ag C.bg C.dg C.eg C.c x) (expF' C.ag C.bg C.dg C.c x) x
  else 0

/-- The same for the solvent. -/
noncomputable def lnActO (C : Cut) (xmin x : ℝ) : ℝ :=
  if C.type = 1 then
    if 3 * C.Xo / 2 < x then idealO (max xmin x)
    else if x < C.Xo / 2 then Real.log C.γo
    else lnGamO (polyF C x) (polyF' C x) (polyG C x) (polyG' C x) x
  else if C.type = 2 then
    if C.Xo < x then idealO (max xmin x)
    else lnGamO (expF C.af C.bf C.df C.ef C.c x)
      (expF' C.af C.bf C.df C.c x) (expF C.ag C.bg C.dg C.eg C.c x) (expF' C.ag C.bg C.dg C.c x) x
  else idealO (max xmin x)

/-- IdealMolalSoln.cpp:111-138. -/
noncomputable def activity (C : Cut) (X : ℕ → ℝ) (k : ℕ) : ℝ :=
  if C.type = 0 then
    if k = 0 then Real.exp ((max M.xmin (X 0) - 1) / max M.xmin (X 0)) else molality M X k
  else
    if k = 0 then Real.exp (lnActO C M.xmin (X 0)) * X 0
    else molality M X k * Real.exp (lnActK C M.xmin (X 0))

/-- IdealMolalSoln.cpp:140-158. -/
noncomputable def molActCoeff (C : Cut) (X : ℕ → ℝ) (k : ℕ) : ℝ :=
  if C.type = 0 then
    if k = 0 then Real.exp ((max M.xmin (X 0) - 1) / max M.xmin (X 0)) / max M.xmin (X 0) else 1
  else if k = 0 then Real.exp (lnActO C M.xmin (X 0)) else Real.exp (lnActK C M.xmin (X 0))

/-- IdealMolalSoln.cpp:162-198; `mu0` standard chemical potentials, `RT` gas constant times
temperature. -/
noncomputable def chemPot (C : Cut) (mu0 : ℕ → ℝ) (RT : ℝ) (X : ℕ → ℝ) (k : ℕ) : ℝ :=
  if C.type = 0 ∨ 3 * C.Xo / 2 < X 0 then
    if k = 0 then mu0 k + RT * (X 0 - 1) / max (X 0) small
    else mu0 k + RT * Real.log (max (molality M X k) small)
  else
    if k = 0 then mu0 k + RT * (Real.log (max (X 0) small) + lnActO C M.xmin (X 0))
    else mu0 k + RT * (Real.log (max (molality M X k) small) + lnActK C M.xmin (X 0))

/-- IdealMolalSoln.cpp:200-206; `hRT` from `getEnthalpy_RT`. -/
noncomputable def pmEnthalpy (hRT : ℕ → ℝ) (RT : ℝ) (k : ℕ) : ℝ := hRT k * RT

/-- IdealMolalSoln.cpp:216-243; `sR` from `getEntropy_R`: the result starts as the dimensionless
entropy, which is not multiplied with the gas constant. -/
noncomputable def pmEntropy (C : Cut) (sR : ℕ → ℝ) (R : ℝ) (X : ℕ → ℝ) (k : ℕ) : ℝ :=
  if C.type = 0 then
    if k = 0 then sR k - R * (X 0 - 1) / X 0
    else sR k - R * Real.log (max small (molality M X k))
  else
    if k = 0 then sR k - R * (Real.log (max small (X 0)) + lnActO C M.xmin (X 0))
    else sR k - R * (Real.log (max small (molality M X k)) + lnActK C M.xmin (X 0))

/-- MolalityVPSSTP.cpp:216-232; `a0` is the activity of the solvent. -/
noncomputable def osmotic (X : ℕ → ℝ) (a0 : ℝ) : ℝ :=
  let sum := ∑ k ∈ Finset.Ico 1 M.n, max (molality M X k) 0
  if 1 / 10 ^ 200 < sum then -Real.log a0 / (M.M0 * sum) else 1

/-! ## Coefficients of the exponential cutoff -/

/-- One pass of the loops IdealMolalSoln.cpp:479-492, 501-515: coefficients `a b d` and the new `e`
from the old one; `A` is the value wanted at zero, `s` the slope. -/
noncomputable def coefA (A e : ℝ) : ℝ := A - e
noncomputable def coefB (A s c e : ℝ) : ℝ := coefA A e / c + s - 1
noncomputable def coefD (A s c Xo e : ℝ) : ℝ :=
  (-coefA A e / c + coefB A s c e - coefB A s c e * Xo / c) / (Xo * Xo / c - 2 * Xo)
noncomputable def coefE (A s c Xo e : ℝ) : ℝ :=
  -Real.exp (-Xo / c) * (coefA A e + Xo * (coefB A s c e + coefD A s c Xo e * Xo))

/-- The loop: at most `its` passes from `e`; the result is the `e` before the last pass (from which
the other coefficients were computed), or `none` when it did not converge (the exception). -/
noncomputable def loop (A s c Xo : ℝ) : ℕ → ℝ → Option ℝ
  | 0, _ => none
  | its + 1, e =>
    if |coefE A s c Xo e - e| < 1 / 10 ^ 14 then some e else loop A s c Xo its (coefE A s c Xo e)

/-- IdealMolalSoln.cpp:474-520. -/
noncomputable def calcCut (C : Cut) : Option Cut :=
  let A := 1 / (Real.exp 1 * C.γk)
  match loop A C.sf C.c C.Xo 100 0 with
  | none => none
  | some e =>
    let af := coefA A e
    let bf := coefB A C.sf C.c e
    let ef := coefE A C.sf C.c C.Xo e
    let f0 := af + ef
    let f0' := 1 - af / C.c + bf
    let G := Real.exp (-Real.log C.γo - f0' / f0)
    match loop G C.sg C.c C.Xo 100 0 with
    | none => none
    | some e' => some { C with
        af := af, bf := bf, df := coefD A C.sf C.c C.Xo e, ef := ef,
        ag := coefA G e', bg := coefB G C.sg C.c e', dg := coefD G C.sg C.c C.Xo e',
        eg := coefE G C.sg C.c C.Xo e' }

end Verif.Molal
