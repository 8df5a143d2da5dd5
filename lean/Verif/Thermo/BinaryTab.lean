import Mathlib.Analysis.SpecialFunctions.Log.Basic
import Verif.Basic

/-!
# BinarySolutionTabulatedThermo

A table of `N` points: `xs` are the sorted mole fractions (`m_molefrac_tab`), other columns are
functions of the index.  The sorting of the table (BinarySolutionTabulatedThermo.cpp:112-135) is left
out: the columns are sorted separately but with the mole fractions as key.
-/

namespace Verif.BinaryTab

/-- `std::lower_bound` on the first `N` points: the first which is not below `x`. -/
noncomputable def lowerBound (N : ℕ) (xs : ℕ → ℝ) (x : ℝ) : ℕ :=
  ((List.range N).find? (fun i => decide (¬ xs i < x))).getD N

/-- BinarySolutionTabulatedThermo.cpp:159-177.  `back()` of an empty vector and the index
`0 - 1` are undefined behaviour. -/
noncomputable def interpolate (N : ℕ) (xs ys : ℕ → ℝ) (x : ℝ) : Outcome ℝ :=
  if N = 0 then .ub
  else if xs (N - 1) < x then .ok (ys (N - 1))
  else if x < xs 0 then .ok (ys 0)
  else
    let i := lowerBound N xs x
    if i = 0 then .ub
    else .ok (ys (i - 1) + (ys i - ys (i - 1)) * (x - xs (i - 1)) / (xs i - xs (i - 1)))

/-- BinarySolutionTabulatedThermo.cpp:179-197, for a table which is not empty. -/
noncomputable def diff (N : ℕ) (xs ys : ℕ → ℝ) (i : ℕ) : ℝ :=
  if 1 < N then
    if i = 0 then (ys 1 - ys 0) / (xs 1 - xs 0)
    else if i = N - 1 then (ys (N - 1) - ys (N - 2)) / (xs (N - 1) - xs (N - 2))
    else (ys (i + 1) - ys (i - 1)) / (xs (i + 1) - xs (i - 1))
  else 0

/-- BinarySolutionTabulatedThermo.cpp:106-109: volumes of the table when none are given; `Vt`, `Vo`
are the molar volumes of the tabulated species and the other. -/
noncomputable def defaultVol (xs : ℕ → ℝ) (Vt Vo : ℝ) (i : ℕ) : ℝ := xs i * Vt + (1 - xs i) * Vo

/-- Result of `calcDensity`: molar volumes of the tabulated species and the other, density. -/
structure Vol where
  Vt : ℝ
  Vo : ℝ
  ρ : ℝ

/-- BinarySolutionTabulatedThermo.cpp:204-217 and Phase.cpp:597-605; `vs` is the column of molar
volumes, `mmw` the mean molecular weight. -/
noncomputable def calcDensity (N : ℕ) (xs vs : ℕ → ℝ) (mmw x : ℝ) : Outcome Vol :=
  match interpolate N xs vs x, interpolate N xs (diff N xs vs) x with
  | .ok Vm, .ok d =>
    if 0 < mmw / Vm then .ok ⟨Vm + (1 - x) * d, Vm - x * d, mmw / Vm⟩ else .throw
  | _, _ => .ub

/-- ct_defs.h: BigNumber. -/
noncomputable def big : ℝ := 10 ^ 300

/-- BinarySolutionTabulatedThermo.cpp:45-53: the entropy added to that of the tabulated species;
`st` is the value of the table, `xt`, `xo` the mole fractions of the tabulated species and the
other, `ct`, `co` their standard concentrations. -/
noncomputable def entropyTab (R F st xt xo ct co : ℝ) : ℝ :=
  if xt = 0 then -big
  else if xo = 0 then big
  else st + (R * Real.log (xt / xo) + R / F * Real.log (co / ct))

/-- BinarySolutionTabulatedThermo.cpp:59-65 and IdealSolidSolnPhase.cpp:118-127: chemical potential
of the tabulated species at the reference pressure; `hr`, `sr` are its dimensionless reference
functions, `ht` the enthalpy of the table. -/
noncomputable def chemPotTab (R F T hr sr ht st xt xo ct co : ℝ) : ℝ :=
  R * T * ((hr + ht * (1 / (R * T))) - (sr + entropyTab R F st xt xo ct co / R) + Real.log xt)

/-- IdealSolidSolnPhase.cpp:118-127 for the other species. -/
noncomputable def chemPotOther (R T hr sr xo : ℝ) : ℝ := R * T * (hr - sr + Real.log xo)

end Verif.BinaryTab
