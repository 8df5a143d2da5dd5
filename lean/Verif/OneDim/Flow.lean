import Verif.Basic
import Mathlib.Data.Real.Basic
import Mathlib.Algebra.BigOperators.Group.Finset.Basic
import Mathlib.Algebra.BigOperators.Ring.Finset
import Mathlib.Algebra.BigOperators.Field
import Mathlib.Tactic.Linarith
import Mathlib.Tactic.Ring
import Mathlib.Tactic.FieldSimp
import Mathlib.Tactic.NormNum

/-!
# One-dimensional flow domain (src/oneD/Flow1D.cpp) between two boundaries (src/oneD/Boundary1D.cpp)

Used for C53, C54 and C55.

Simplifications.
* `double` is `ℝ`.  Thermodynamic, kinetic and transport properties are functions of the
  temperature and the mass fractions set in the phase (`gas`, `tr`); the pressure is constant.
* The solution vector is indexed by grid point and component (the flat layout is C30).  `size_t`
  is `ℕ`; the subtraction at Flow1D.cpp:329 and the increment at 331 are modulo `2^64`.
* The domain has at least two points (with one point Flow1D.cpp:519 reads beyond the grid).
* Loops over points whose bodies write different columns are simultaneous assignments.
* Only the stack boundary - flow - boundary is modelled as a system, which is the one of all the
  flames built on Sim1D.  `IonFlow` is not modelled.
-/

namespace Verif.OneDim.Flow

open Finset

/-! ## Data -/

/-- Offsets of the components (Flow1D.h:23-32). -/
abbrev oU : ℕ := 0
/-- Flow1D.h:26 -/
abbrev oV : ℕ := 1
/-- Flow1D.h:27 -/
abbrev oT : ℕ := 2
/-- Flow1D.h:28 -/
abbrev oL : ℕ := 3
/-- Flow1D.h:29 -/
abbrev oE : ℕ := 4
/-- Flow1D.h:30 -/
abbrev oUo : ℕ := 5
/-- Flow1D.h:31 -/
abbrev oY : ℕ := 6

/-- A solution vector or residual: grid point, component. -/
abbrev Sol := ℕ → ℕ → ℝ

/-- What `updateThermo` reads from the phase and the kinetics at one state
(Flow1D.h:439-443). -/
structure Gas where
  rho : ℝ
  wtm : ℝ
  cp : ℝ
  hk : ℕ → ℝ
  wdot : ℕ → ℝ

/-- What `updateTransport` reads at one midpoint state (Flow1D.cpp:376-417). -/
structure Tr where
  rho : ℝ
  wtm : ℝ
  visc : ℝ
  tcon : ℝ
  /-- `getMixDiffCoeffs` -/
  mix : ℕ → ℝ
  /-- `getMixDiffCoeffsMass` -/
  mixMass : ℕ → ℝ
  multi : ℕ → ℕ → ℝ
  dth : ℕ → ℝ

/-- Members of the flow domain that do not change during an evaluation (Flow1D.h:845-999). -/
structure Cfg where
  nsp : ℕ
  pts : ℕ
  z : ℕ → ℝ
  /-- `m_usesLambda` -/
  lam : Bool
  /-- `m_isFree` -/
  free : Bool
  /-- `m_twoPointControl` -/
  two : Bool
  /-- `m_do_multicomponent` -/
  multi : Bool
  /-- `m_do_soret` -/
  soret : Bool
  /-- `m_fluxGradientBasis` is `ThermoBasis::mass` -/
  massBasis : Bool
  /-- `m_dovisc` -/
  dovisc : Bool
  /-- `m_do_radiation` -/
  rad : Bool
  /-- `m_force_full_update` -/
  force : Bool
  doE : ℕ → Bool
  wt : ℕ → ℝ
  gas : ℝ → (ℕ → ℝ) → Gas
  tr : ℝ → (ℕ → ℝ) → Tr
  press : ℝ
  sigma : ℝ
  epsL : ℝ
  epsR : ℝ
  kCO2 : Option ℕ
  kH2O : Option ℕ
  zfixed : ℝ
  tfixed : ℝ
  zLeft : ℝ
  tLeft : ℝ
  zRight : ℝ
  tRight : ℝ
  /-- `m_fixedtemp` -/
  fixedT : ℕ → ℝ
  /-- `m_slast` -/
  prev : Sol

/-- Transport properties stored for one interval (`m_visc[j]`, `m_tcon[j]`, column `j` of `m_diff`,
`m_multidiff`, `m_dthermal`). -/
structure TCol where
  visc : ℝ
  tcon : ℝ
  diff : ℕ → ℝ
  multi : ℕ → ℕ → ℝ
  dth : ℕ → ℝ

/-- The work arrays of the domain. -/
structure Buf where
  rho : ℕ → ℝ
  wtm : ℕ → ℝ
  cp : ℕ → ℝ
  /-- point, species -/
  hk : ℕ → ℕ → ℝ
  wdot : ℕ → ℕ → ℝ
  tc : ℕ → TCol
  flux : ℕ → ℕ → ℝ
  /-- `m_qdotRadiation` -/
  q : ℕ → ℝ
  kL : ℕ
  kR : ℕ

/-- `m_dz[j]` (Flow1D.cpp:196). -/
def Cfg.dz (c : Cfg) (j : ℕ) : ℝ := c.z (j + 1) - c.z j

/-- The mass fractions at a point (Flow1D.h:683-685). -/
def Yv (x : Sol) (j : ℕ) : ℕ → ℝ := fun k => x j (oY + k)

/-! ## Properties -/

/-- The state read by `updateThermo` at point `j` (Flow1D.cpp:243-249). -/
def gasAt (c : Cfg) (x : Sol) (j : ℕ) : Gas := c.gas (x j oT) (Yv x j)

/-- The state read by `updateTransport` for the interval `j` (Flow1D.cpp:251-261). -/
noncomputable def trAt (c : Cfg) (x : Sol) (j : ℕ) : Tr :=
  c.tr ((1 / 2) * (x j oT + x (j + 1) oT)) (fun k => (1 / 2) * (Yv x j k + Yv x (j + 1) k))

/-- `Flow1D::updateThermo` (Flow1D.h:436-445) for the points `j0..j1`. -/
def updateThermo (c : Cfg) (x : Sol) (j0 j1 : ℕ) (b : Buf) : Buf :=
  { b with
    rho := fun j => if j0 ≤ j ∧ j ≤ j1 then (gasAt c x j).rho else b.rho j
    wtm := fun j => if j0 ≤ j ∧ j ≤ j1 then (gasAt c x j).wtm else b.wtm j
    cp := fun j => if j0 ≤ j ∧ j ≤ j1 then (gasAt c x j).cp else b.cp j
    hk := fun j => if j0 ≤ j ∧ j ≤ j1 then (gasAt c x j).hk else b.hk j
    wdot := fun j => if j0 ≤ j ∧ j ≤ j1 then (gasAt c x j).wdot else b.wdot j }

/-- The body of the loops of `Flow1D::updateTransport` (Flow1D.cpp:377-391, 395-416); `old` is the
column before (the multicomponent arrays are not written by the mixture-averaged model, and
`m_dthermal` only with the Soret effect). -/
noncomputable def trCol (c : Cfg) (x : Sol) (j : ℕ) (old : TCol) : TCol :=
  { visc := if c.dovisc then (trAt c x j).visc else 0
    tcon := (trAt c x j).tcon
    diff := fun k =>
      if c.multi then c.wt k * (trAt c x j).rho / ((trAt c x j).wtm * (trAt c x j).wtm)
      else if c.massBasis then (trAt c x j).mixMass k * (trAt c x j).rho
      else (trAt c x j).mix k * (c.wt k * (trAt c x j).rho / (trAt c x j).wtm)
    multi := if c.multi then (trAt c x j).multi else old.multi
    dth := if c.multi ∧ c.soret then (trAt c x j).dth else old.dth }

/-- `Flow1D::updateTransport` (Flow1D.cpp:373-419) for the intervals `j0..j1-1`. -/
noncomputable def updateTransport (c : Cfg) (x : Sol) (j0 j1 : ℕ) (b : Buf) : Buf :=
  { b with tc := fun j => if j0 ≤ j ∧ j < j1 then trCol c x j (b.tc j) else b.tc j }

/-- `Flow1D::X` (Flow1D.h:700-702) -/
noncomputable def Xf (c : Cfg) (b : Buf) (x : Sol) (k j : ℕ) : ℝ := b.wtm j * Yv x j k / c.wt k

/-- The flux before the correction (Flow1D.cpp:438-448). -/
noncomputable def rawFlux (c : Cfg) (b : Buf) (x : Sol) (j k : ℕ) : ℝ :=
  if c.massBasis then (b.tc j).diff k * (Yv x j k - Yv x (j + 1) k) / (c.z (j + 1) - c.z j)
  else (b.tc j).diff k * (Xf c b x k j - Xf c b x k (j + 1)) / (c.z (j + 1) - c.z j)

/-- The diffusive flux without thermal diffusion (Flow1D.cpp:423-454). -/
noncomputable def diffFlux (c : Cfg) (b : Buf) (x : Sol) (j k : ℕ) : ℝ :=
  if c.multi then
    (∑ m ∈ range c.nsp, c.wt m * (b.tc j).multi k m * (Xf c b x m (j + 1) - Xf c b x m j))
      * (b.tc j).diff k / (c.z (j + 1) - c.z j)
  else
    rawFlux c b x j k + (0 - ∑ m ∈ range c.nsp, rawFlux c b x j m) * Yv x j k

/-- Flow1D.cpp:458-459 -/
noncomputable def gradLogT (c : Cfg) (x : Sol) (m : ℕ) : ℝ :=
  2 * (x (m + 1) oT - x m oT) / ((x (m + 1) oT + x m oT) * (c.z (m + 1) - c.z m))

/-- Column `j` of `m_flux` after `updateDiffFluxes` (Flow1D.cpp:421-465). -/
noncomputable def fluxCol (c : Cfg) (b : Buf) (x : Sol) (j k : ℕ) : ℝ :=
  if c.soret then diffFlux c b x j k - (b.tc j).dth k * gradLogT c x j else diffFlux c b x j k

/-- `Flow1D::updateDiffFluxes` (Flow1D.cpp:421-465) for the intervals `j0..j1-1`. -/
noncomputable def updateDiffFluxes (c : Cfg) (x : Sol) (j0 j1 : ℕ) (b : Buf) : Buf :=
  { b with flux := fun j => if j0 ≤ j ∧ j < j1 then fluxCol c b x j else b.flux j }

open Classical in
/-- `max_element`: the first largest of the mass fractions (Flow1D.cpp:362-365); 0 without
species. -/
noncomputable def maxIdx (y : ℕ → ℝ) : ℕ → ℕ
  | 0 => 0
  | n + 1 => if y (maxIdx y n) < y n then n else maxIdx y n

/-- `Flow1D::updateProperties` (Flow1D.cpp:349-371); `full` is `jg == npos`. -/
noncomputable def updateProperties (c : Cfg) (full : Bool) (x : Sol) (jmin jmax : ℕ) (b : Buf) :
    Buf :=
  let j0 := max jmin 1 - 1
  let j1 := min (jmax + 1) (c.pts - 1)
  let b1 := updateThermo c x j0 j1 b
  let b2 := if full || c.force then updateTransport c x j0 j1 b1 else b1
  let b3 := if full then { b2 with kL := maxIdx (Yv x jmin) c.nsp,
                                   kR := maxIdx (Yv x jmax) c.nsp } else b2
  updateDiffFluxes c x j0 j1 b3

/-- Flow1D.cpp:474-475 -/
noncomputable def cH2O : List ℝ := [-0.23093, -1.12390, 9.41530, -2.99880, 0.51382, -1.86840e-5]
/-- Flow1D.cpp:476-477 -/
noncomputable def cCO2 : List ℝ := [18.741, -121.310, 273.500, -194.050, 56.310, -5.8169]

/-- Flow1D.cpp:488-492, 497-501 -/
noncomputable def planck (cs : List ℝ) (T : ℝ) : ℝ :=
  (∑ n ∈ range 6, cs.getD n 0 * (1000 / T) ^ n) / 101325

/-- The radiative heat loss at a point (Flow1D.cpp:480-510). -/
noncomputable def radLoss (c : Cfg) (b : Buf) (x : Sol) (j : ℕ) : ℝ :=
  2 * ((match c.kH2O with
        | some k => c.press * Xf c b x k j * planck cH2O (x j oT)
        | none => 0)
      + (match c.kCO2 with
        | some k => c.press * Xf c b x k j * planck cCO2 (x j oT)
        | none => 0))
    * (2 * c.sigma * (x j oT) ^ 4 - c.epsL * c.sigma * (x 0 oT) ^ 4
        - c.epsR * c.sigma * (x (c.pts - 1) oT) ^ 4)

/-- `Flow1D::computeRadiation` (Flow1D.cpp:467-512): points `jmin..jmax-1`. -/
noncomputable def computeRadiation (c : Cfg) (x : Sol) (jmin jmax : ℕ) (b : Buf) : Buf :=
  { b with q := fun j => if jmin ≤ j ∧ j < jmax then radLoss c b x j else b.q j }

/-! ## Residual equations -/

/-- `Flow1D::rho_u` (Flow1D.h:647-649) -/
noncomputable def rhoU (b : Buf) (x : Sol) (j : ℕ) : ℝ := b.rho j * x j oU

open Classical in
/-- The upwind index (Flow1D.h:739, 754, 768; Flow1D.cpp:1141). -/
noncomputable def jloc (x : Sol) (j : ℕ) : ℕ := if x j oU > 0 then j else j + 1

/-- `dVdz`, `dYdz`, `dTdz` for the component `n` (Flow1D.h:738-770). -/
noncomputable def upwind (c : Cfg) (x : Sol) (n j : ℕ) : ℝ :=
  (x (jloc x j) n - x (jloc x j - 1) n) / c.dz (jloc x j - 1)

/-- `Flow1D::shear` (Flow1D.h:795-799) -/
noncomputable def shear (c : Cfg) (b : Buf) (x : Sol) (j : ℕ) : ℝ :=
  2 * ((b.tc j).visc * (x (j + 1) oV - x j oV) / (c.z (j + 1) - c.z j)
    - (b.tc (j - 1)).visc * (x j oV - x (j - 1) oV) / (c.z j - c.z (j - 1)))
    / (c.z (j + 1) - c.z (j - 1))

/-- `Flow1D::conduction` (Flow1D.h:810-814) -/
noncomputable def conduction (c : Cfg) (b : Buf) (x : Sol) (j : ℕ) : ℝ :=
  -2 * ((b.tc j).tcon * (x (j + 1) oT - x j oT) / (c.z (j + 1) - c.z j)
    - (b.tc (j - 1)).tcon * (x j oT - x (j - 1) oT) / (c.z j - c.z (j - 1)))
    / (c.z (j + 1) - c.z (j - 1))

/-- `Flow1D::grad_hk` (Flow1D.cpp:1139-1145) -/
noncomputable def gradH (c : Cfg) (b : Buf) (x : Sol) (j k : ℕ) : ℝ :=
  (b.hk (jloc x j) k - b.hk (jloc x j - 1) k) / c.dz (jloc x j - 1)

open Classical in
/-- `Flow1D::evalContinuity` (Flow1D.cpp:514-569), the residual at point `j`. -/
noncomputable def continuity (c : Cfg) (b : Buf) (x : Sol) (j : ℕ) : ℝ :=
  if j = 0 then
    -(rhoU b x (j + 1) - rhoU b x j) / c.dz j - (b.rho (j + 1) * x (j + 1) oV + b.rho j * x j oV)
  else if j = c.pts - 1 then
    if c.lam then rhoU b x j else rhoU b x j - rhoU b x (j - 1)
  else if c.lam then
    -(rhoU b x (j + 1) - rhoU b x j) / c.dz j - (b.rho (j + 1) * x (j + 1) oV + b.rho j * x j oV)
  else if c.free then
    if c.z j > c.zfixed then -(rhoU b x j - rhoU b x (j - 1)) / c.dz (j - 1)
    else if c.z j = c.zfixed then
      if c.doE j then x j oT - c.tfixed else rhoU b x j - b.rho 0 * 0.3
    else -(rhoU b x (j + 1) - rhoU b x j) / c.dz j
  else rhoU b x j - rhoU b x (j - 1)

/-- `Flow1D::evalMomentum` (Flow1D.cpp:571-605) -/
noncomputable def momentum (c : Cfg) (b : Buf) (rdt : ℝ) (x : Sol) (j : ℕ) : ℝ :=
  if c.lam = false then x j oV
  else if j = 0 then x j oV
  else if j = c.pts - 1 then x j oV
  else if c.two then
    (shear c b x j - x j oL - rhoU b x j * upwind c x oV j - b.rho j * x j oV * x j oV) / b.rho j
  else
    (shear c b x j - x j oL - rhoU b x j * upwind c x oV j - b.rho j * x j oV * x j oV) / b.rho j
      - rdt * (x j oV - c.prev j oV)

open Classical in
/-- `Flow1D::evalLambda` (Flow1D.cpp:607-648) -/
noncomputable def lambdaEq (c : Cfg) (b : Buf) (x : Sol) (j : ℕ) : ℝ :=
  if c.lam = false then x j oL
  else if j = 0 then (if c.two then x (j + 1) oL - x j oL else -rhoU b x j)
  else if j = c.pts - 1 then x j oL - x (j - 1) oL
  else if c.two then
    if c.z j = c.zLeft then x j oT - c.tLeft
    else if c.z j > c.zLeft then x j oL - x (j - 1) oL
    else x j oL - x (j + 1) oL
  else x j oL - x (j - 1) oL

/-- The energy equation without the transient term (Flow1D.cpp:666-677). -/
noncomputable def energySS (c : Cfg) (b : Buf) (x : Sol) (j : ℕ) : ℝ :=
  (-b.cp j * rhoU b x j * upwind c x oT j - conduction c b x j
    - ∑ k ∈ range c.nsp, (b.wdot j k * b.hk j k
        + (1 / 2) * (b.flux (j - 1) k + b.flux j k) * gradH c b x j k / c.wt k))
    / (b.rho j * b.cp j) - b.q j / (b.rho j * b.cp j)

open Classical in
/-- The condition of Flow1D.cpp:678, which compares coordinates with temperatures. -/
noncomputable def energyTransient (c : Cfg) (j : ℕ) : Bool :=
  !c.two || (decide (c.z j ≠ c.tLeft) && decide (c.z j ≠ c.tRight))

/-- `Flow1D::evalEnergy` (Flow1D.cpp:650-690) -/
noncomputable def energy (c : Cfg) (b : Buf) (rdt : ℝ) (x : Sol) (j : ℕ) : ℝ :=
  if j = 0 then x j oT
  else if j = c.pts - 1 then x j oT
  else if c.doE j then
    if energyTransient c j then energySS c b x j - rdt * (x j oT - c.prev j oT)
    else energySS c b x j
  else x j oT - c.fixedT j

open Classical in
/-- `Flow1D::evalUo` (Flow1D.cpp:692-730) -/
noncomputable def uoEq (c : Cfg) (x : Sol) (j : ℕ) : ℝ :=
  if c.two = false then x j oUo
  else if j = 0 then x (j + 1) oUo - x j oUo
  else if j = c.pts - 1 then x j oUo - x (j - 1) oUo
  else if c.z j = c.zRight then x j oT - c.tRight
  else if c.z j > c.zRight then x j oUo - x (j - 1) oUo
  else x j oUo - x (j + 1) oUo

/-- `Flow1D::evalSpecies` (Flow1D.cpp:732-770) for species `k`. -/
noncomputable def species (c : Cfg) (b : Buf) (rdt : ℝ) (x : Sol) (j k : ℕ) : ℝ :=
  if j = 0 then
    if k = b.kL then 1 - ∑ i ∈ range c.nsp, Yv x j i
    else -(b.flux j k + rhoU b x j * Yv x j k)
  else if j = c.pts - 1 then
    if k = b.kR then 1 - ∑ i ∈ range c.nsp, Yv x j i
    else b.flux (j - 1) k + rhoU b x j * Yv x j k
  else
    (c.wt k * b.wdot j k - rhoU b x j * upwind c x (oY + k) j
      - 2 * (b.flux j k - b.flux (j - 1) k) / (c.z (j + 1) - c.z (j - 1))) / b.rho j
      - rdt * (x j (oY + k) - c.prev j (oY + k))

/-- The residual written at point `j` for component `n` (Flow1D.cpp:340-346); nothing is written
beyond the last species. -/
noncomputable def cell (c : Cfg) (b : Buf) (rdt : ℝ) (x : Sol) (j n : ℕ) : ℝ :=
  match n with
  | 0 => continuity c b x j
  | 1 => momentum c b rdt x j
  | 2 => energy c b rdt x j
  | 3 => lambdaEq c b x j
  | 4 => x j oE
  | 5 => uoEq c x j
  | k + 6 => if k < c.nsp then species c b rdt x j k else 0

/-- Arithmetic of `size_t`. -/
def word : ℕ := 2 ^ 64

/-- The points evaluated for the global point `jg` (Flow1D.cpp:324-332), `none` for all points. -/
def evalRange (c : Cfg) (first : ℕ) : Option ℕ → ℕ × ℕ
  | none => (0, c.pts - 1)
  | some jg =>
    let jpt := if jg = 0 then 0 else (jg + word - first) % word
    (max jpt 1 - 1, min ((jpt + 1) % word) (c.pts - 1))

/-- The domain is skipped (Flow1D.cpp:315-317). -/
def skipped (c : Cfg) (first : ℕ) : Option ℕ → Bool
  | none => false
  | some jg => decide (jg + 1 < first) || decide (jg > first + c.pts - 1 + 1)

/-- `Flow1D::eval` (Flow1D.cpp:310-347): work arrays and residual afterwards.  `first` is
`firstPoint()`.  The boundary points are written only if they are the ends of the range
(Flow1D.cpp:518, 525 and so on), the interior ones in between: for a domain of at least two points
these are exactly the points of the range. -/
noncomputable def evalFlow (c : Cfg) (first : ℕ) (rdt : ℝ) (jg : Option ℕ) (x : Sol) (b : Buf)
    (r : Sol) : Buf × Sol :=
  if skipped c first jg then (b, r)
  else
    let rg := evalRange c first jg
    let b1 := updateProperties c jg.isNone x rg.1 rg.2 b
    let b2 := if c.rad then computeRadiation c x rg.1 rg.2 b1 else b1
    (b2, fun j n => if rg.1 ≤ j ∧ j ≤ rg.2 then cell c b2 rdt x j n else r j n)

/-! ## Boundaries -/

/-- Reacting surface: `m_nsp`, `m_temp`, `m_enabled`, `m_fixed_cov`, `m_slast`, the sizes divided
by the site density, and the net production rates as function of the coverages and of temperature
and mass fractions of the adjacent gas (surface species, gas species). -/
structure RSurf where
  ns : ℕ
  temp : ℝ
  enabled : Bool
  fixedCov : ℕ → ℝ
  prev : ℕ → ℝ
  sizeRs : ℕ → ℝ
  kin : (ℕ → ℝ) → ℝ → (ℕ → ℝ) → (ℕ → ℝ) × (ℕ → ℝ)

/-- The boundary domains (Boundary1D.cpp). -/
inductive Bdry where
  | inlet (temp V0 mdot : ℝ) (yin : ℕ → ℝ)
  | empty
  | symm
  | outlet
  | outletRes (yres : ℕ → ℝ)
  | surf (temp : ℝ)
  | rsurf (s : RSurf)

/-- Number of components of a boundary (`_init` with 0, or the surface species). -/
def Bdry.nv : Bdry → ℕ
  | .rsurf s => s.ns
  | _ => 0

/-- The mass flux of a left inlet (Boundary1D.cpp:203-227). -/
noncomputable def leftMdot (c : Cfg) (b : Buf) (mdot : ℝ) (xb : ℕ → ℝ) : ℝ :=
  if c.free then b.rho 0 * xb oU
  else if c.lam then (if c.two then b.rho 0 * xb oU else mdot)
  else mdot

/-- The mass flux of a right inlet (Boundary1D.cpp:250-256). -/
noncomputable def rightMdot (c : Cfg) (b : Buf) (mdot : ℝ) (xb : ℕ → ℝ) : ℝ :=
  if c.two then -b.rho (c.pts - 1) * xb oUo else mdot

/-- Residual of the own components of a reacting surface (Boundary1D.cpp:676-717). -/
noncomputable def rsurfRes (s : RSurf) (rdt : ℝ) (gasT : ℝ) (gasY : ℕ → ℝ) (cov : ℕ → ℝ) (k : ℕ) :
    ℝ :=
  if k < s.ns then
    if s.enabled then
      if k = 0 then 1 - ∑ i ∈ range s.ns, cov i
      else (s.kin cov gasT gasY).1 k * s.sizeRs k - rdt * (cov k - s.prev k)
    else cov k - s.fixedCov k
  else 0

/-- What a boundary at the left of the flow makes of the residual `rb` of the first point; `x` is
the flow part of the solution.  Inlet: Boundary1D.cpp:186-234; symmetry: 338-349; surface: 559-563;
reacting surface: 719-723.  `Outlet1D` and `OutletRes1D` refuse to be at the left (388-391,
463-466). -/
noncomputable def leftRb (c : Cfg) (B : Bdry) (b : Buf) (x : Sol) (rb : ℕ → ℝ) (n : ℕ) : ℝ :=
  match B with
  | .inlet temp V0 mdot yin =>
    if n = oT then (if c.doE 0 then rb n - temp else rb n - c.fixedT 0)
    else if n = oL then
      (if c.free then rb n
       else if c.lam then (if c.two then rb n else rb n + mdot) else rb n)
    else if n = oV then (if c.free then rb n else if c.lam then rb n - V0 else rb n)
    else if n = oU then
      (if c.free then rb n else if c.lam then rb n else b.rho 0 * x 0 oU - mdot)
    else if oY ≤ n ∧ n < oY + c.nsp then
      (if n - oY = b.kL then rb n else rb n + leftMdot c b mdot (x 0) * yin (n - oY))
    else rb n
  | .symm =>
    if n = oV then x 0 oV - x 1 oV
    else if n = oT then (if c.doE 0 then x 0 oT - x 1 oT else rb n)
    else rb n
  | .surf temp => if n = oT then x 0 oT - temp else rb n
  | .rsurf s => if n = oT then x 0 oT - s.temp else rb n
  | .empty => rb n
  | .outlet => rb n
  | .outletRes _ => rb n

/-- The same for the last point of the flow and a boundary at its right; `cov` are the own
components of the boundary.  Inlet: Boundary1D.cpp:236-264; symmetry: 351-362; outlet: 417-429;
reservoir: 499-511 (`kSkip` is compared with a component number); surface: 565-570; reacting
surface: 724-744. -/
noncomputable def rightRb (c : Cfg) (B : Bdry) (b : Buf) (x : Sol) (cov : ℕ → ℝ) (rb : ℕ → ℝ)
    (n : ℕ) : ℝ :=
  match B with
  | .inlet temp V0 mdot yin =>
    if n = oV then rb n - V0
    else if n = oT then
      (if c.doE (c.pts - 1) then rb n - temp else rb n - c.fixedT (c.pts - 1))
    else if n = oU then rb n + rightMdot c b mdot (x (c.pts - 1))
    else if oY ≤ n ∧ n < oY + c.nsp then
      (if n - oY = b.kR then rb n
       else rb n + rightMdot c b mdot (x (c.pts - 1)) * yin (n - oY))
    else rb n
  | .symm =>
    if n = oV then x (c.pts - 1) oV - x (c.pts - 1 - 1) oV
    else if n = oT then
      (if c.doE (c.pts - 1) then x (c.pts - 1) oT - x (c.pts - 1 - 1) oT else rb n)
    else rb n
  | .outlet =>
    if n = oT then
      (if c.doE (c.pts - 1) then x (c.pts - 1) oT - x (c.pts - 1 - 1) oT
       else x (c.pts - 1) oT - c.fixedT (c.pts - 1))
    else if oY ≤ n ∧ n < oY + c.nsp then
      (if n = oY + b.kR then rb n else x (c.pts - 1) n - x (c.pts - 1 - 1) n)
    else rb n
  | .outletRes yres =>
    if n = oT then
      (if c.doE (c.pts - 1) then x (c.pts - 1) oT - x (c.pts - 1 - 1) oT
       else x (c.pts - 1) oT - c.fixedT (c.pts - 1))
    else if oY ≤ n ∧ n < oY + c.nsp then
      (if n = b.kR then rb n else x (c.pts - 1) n - yres (n - oY))
    else rb n
  | .surf temp => if n = oT then x (c.pts - 1) oT - temp else rb n
  | .rsurf s =>
    if n = oT then x (c.pts - 1) oT - s.temp
    else if oY ≤ n ∧ n < oY + c.nsp then
      (if n - oY = b.kR then rb n
       else rb n + (s.kin cov (x (c.pts - 1) oT) (Yv x (c.pts - 1))).2 (n - oY) * c.wt (n - oY))
    else rb n
  | .empty => rb n

/-- Own components of a boundary next to the flow point with the components `xb`. -/
noncomputable def ownRes (B : Bdry) (rdt : ℝ) (xb : ℕ → ℝ) (cov : ℕ → ℝ) (k : ℕ) : ℝ :=
  match B with
  | .rsurf s => rsurfRes s rdt (xb oT) (fun k => xb (oY + k)) cov k
  | _ => 0

/-! ## The stack boundary - flow - boundary -/

/-- The simulation: `L` is global point 0, the flow has the points `1..pts`, `R` is point
`pts + 1`. -/
structure Sys where
  c : Cfg
  L : Bdry
  R : Bdry

/-- The part of the solution that belongs to the flow. -/
def flowPart (X : Sol) : Sol := fun j => X (j + 1)

/-- A boundary at the global point `p` takes part in the evaluation for `jg`
(Boundary1D.cpp:182, 329, 402, 485, 551, 667). -/
def bdryActive (p : ℕ) : Option ℕ → Bool
  | none => true
  | some jg => !(decide (jg + 2 < p) || decide (jg > p + 2))

/-- The residual of the stack, given work arrays `bf` and residual `rf` after the evaluation of the
flow. -/
noncomputable def sysRes (S : Sys) (rdt : ℝ) (jg : Option ℕ) (X : Sol) (bf : Buf) (rf : Sol) : Sol :=
  fun p n =>
    if p = 0 then
      (if bdryActive 0 jg then ownRes S.L rdt (X 1) (X 0) n else 0)
    else if p = S.c.pts + 1 then
      (if bdryActive (S.c.pts + 1) jg then
        ownRes S.R rdt (X S.c.pts) (X (S.c.pts + 1)) n else 0)
    else if p = 1 then
      (if bdryActive 0 jg then leftRb S.c S.L bf (flowPart X) (rf 0) n else rf 0 n)
    else if p = S.c.pts then
      (if bdryActive (S.c.pts + 1) jg then
        rightRb S.c S.R bf (flowPart X) (X (S.c.pts + 1)) (rf (S.c.pts - 1)) n
       else rf (S.c.pts - 1) n)
    else if p ≤ S.c.pts then rf (p - 1) n
    else 0

/-- `OneDim::eval` (OneDim.cpp:261-291): the residual starts at zero, the flow is evaluated first,
then the boundaries. -/
noncomputable def evalSys (S : Sys) (rdt : ℝ) (jg : Option ℕ) (X : Sol) (b : Buf) : Buf × Sol :=
  ((evalFlow S.c 1 rdt jg (flowPart X) b (fun _ _ => 0)).1,
    sysRes S rdt jg X (evalFlow S.c 1 rdt jg (flowPart X) b (fun _ _ => 0)).1
      (evalFlow S.c 1 rdt jg (flowPart X) b (fun _ _ => 0)).2)

end Verif.OneDim.Flow
