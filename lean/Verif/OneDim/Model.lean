import Verif.Basic
import Verif.Util.Prefix

/-!
# C30: layout of a one-dimensional simulation (src/oneD/OneDim.cpp, src/oneD/Domain1D.cpp)

Only the integer bookkeeping is modelled.  `size_t` is `Nat`, except in the bandwidth computation
where the subtraction at OneDim.cpp:210 can wrap around: there the arithmetic is modulo `2^64`.
Sizes are assumed not to overflow otherwise.  `npos` is `none`.
-/

namespace Verif.OneDim

open Verif Verif.Prefix

/-- The modelled members of a domain: `m_nv`, `m_points`, `m_bw` (`none` for `npos`), `m_iloc` and
`m_jstart` (Domain1D.h). -/
structure Dom where
  nv : Nat
  np : Nat
  bw : Option Nat
  iloc : Nat
  jstart : Nat
  deriving DecidableEq, Repr

/-- Domain1D.h:399-401 -/
def Dom.size (d : Dom) : Nat := d.nv * d.np

/-- A newly constructed domain has no neighbour, so `resize` in the constructor (Domain1D.cpp:19-22)
locates it at zero. -/
def Dom.fresh (nv np : Nat) (bw : Option Nat) : Dom := ⟨nv, np, bw, 0, 0⟩

/-- Domain1D.cpp:207-218 for one domain with left neighbour `l`.  `lastPoint() + 1` is
`m_jstart + m_points - 1 + 1` (Domain1D.h:420-422). -/
def Dom.placeAfter (l : Option Dom) (d : Dom) : Dom :=
  match l with
  | some l => { d with jstart := l.jstart + l.np, iloc := l.iloc + l.size }
  | none => { d with jstart := 0, iloc := 0 }

/-- Domain1D::locate (Domain1D.cpp:205-223): place this domain, then repeat for the one on the
right. -/
def locate (l : Option Dom) : List Dom → List Dom
  | [] => []
  | d :: ds => d.placeAfter l :: locate (some (d.placeAfter l)) ds

/-- Calling `locate()` on domain `i` of the chain; `m_left` of domain `i` is domain `i-1`. -/
def locateFrom (ds : List Dom) (i : Nat) : List Dom :=
  ds.take i ++ locate (if i = 0 then none else ds[i - 1]?) (ds.drop i)

/-- Domain1D::resize of domain `i` of the chain (Domain1D.cpp:44-65). -/
def resizeDom (ds : List Dom) (i nv np : Nat) : List Dom :=
  locateFrom (ds.modify i (fun d => { d with nv := nv, np := np })) i

/-- Domain1D::setBandwidth (Domain1D.h:98-100). -/
def setBandwidth (ds : List Dom) (i : Nat) (b : Option Nat) : List Dom :=
  ds.modify i (fun d => { d with bw := b })

/-- The simulation: domain list and the tables filled by `OneDim::resize`. -/
structure Sim where
  doms : List Dom
  nvars : List Nat
  loc : List Nat
  pts : Nat
  bw : Nat
  size : Nat
  deriving DecidableEq, Repr

/-- `2^64` -/
def two64 : Nat := 18446744073709551616

/-- OneDim.cpp:197-200 -/
def Dom.bw1 (d : Dom) : Nat :=
  match d.bw with
  | some b => b
  | none => max (2 * d.nv) 1 - 1

/-- OneDim.cpp:206-209 -/
def Dom.bw2base (prev : Dom) : Nat :=
  match prev.bw with
  | some b => b
  | none => prev.nv

/-- OneDim.cpp:210, `size_t` arithmetic. -/
def Dom.bw2 (prev d : Dom) : Nat :=
  (prev.bw2base + (d.nv + (two64 - 1)) % two64) % two64

/-- OneDim.cpp:187-192: push the entries of one domain. -/
def pushPoints (nv : Nat) : Nat → List Nat × List Nat × Nat × Nat → List Nat × List Nat × Nat × Nat
  | 0, t => t
  | n + 1, (nvars, loc, lc, pts) => pushPoints nv n (nvars ++ [nv], loc ++ [lc], lc + nv, pts + 1)

/-- OneDim.cpp:194-212: update the running bandwidth. -/
def bwStep (prev : Option Dom) (d : Dom) (bw : Nat) : Nat :=
  let bw := max bw d.bw1
  match prev with
  | some p => max bw (p.bw2 d)
  | none => bw

/-- The loop OneDim.cpp:182-214; `prev` is domain `i-1`. -/
def resizeLoop (prev : Option Dom) :
    List Dom → List Nat × List Nat × Nat × Nat → Nat → Nat → (List Nat × List Nat × Nat × Nat) × Nat × Nat
  | [], t, bw, size => (t, bw, size)
  | d :: ds, t, bw, _ =>
    resizeLoop (some d) ds (pushPoints d.nv d.np t) (bwStep prev d bw) (d.iloc + d.size)

/-- OneDim::resize (OneDim.cpp:172-228) without statistics and the numerical work arrays. -/
def Sim.resize (s : Sim) : Sim :=
  let r := resizeLoop none s.doms ([], [], 0, 0) 0 s.size
  { s with nvars := r.1.1, loc := r.1.2.1, pts := r.1.2.2.2, bw := r.2.1, size := r.2.2 }

/-- An empty simulation. -/
def Sim.empty : Sim := ⟨[], [], [], 0, 0, 0⟩

/-- OneDim::addDomain (OneDim.cpp:65-86): `append` calls `locate` on the new domain
(Domain1D.h:428-448) when it is not the first one. -/
def Sim.addDomain (s : Sim) (d : Dom) : Sim :=
  Sim.resize { s with doms := s.doms ++
    [if s.doms.length = 0 then d else d.placeAfter (s.doms.getLast?)] }

/-- Operations on a simulation.  Grid refinement and restoring a solution change the grid through
`domResize` and end with `resize`. -/
inductive Op where
  | addDomain (nv np : Nat) (bw : Option Nat)
  | domResize (i nv np : Nat)
  | setBandwidth (i : Nat) (b : Option Nat)
  | resize

/-- One operation. -/
def Sim.step (s : Sim) : Op → Sim
  | .addDomain nv np bw => s.addDomain (Dom.fresh nv np bw)
  | .domResize i nv np => { s with doms := resizeDom s.doms i nv np }
  | .setBandwidth i b => { s with doms := OneDim.setBandwidth s.doms i b }
  | .resize => s.resize

/-- A history from the empty simulation. -/
def Sim.run (ops : List Op) : Sim := ops.foldl Sim.step Sim.empty

/-- The location used by `Sim1D::value`/`setValue` (Sim1D.cpp:57, 65): `domain(dom).loc() +
domain(dom).index(comp, point)` with `index(n, j) = m_nv*j + n` (Domain1D.h:335).  Triples are
(domain, point, component). -/
def Sim.index (s : Sim) (t : Nat × Nat × Nat) : Outcome Nat :=
  Outcome.vecGet s.doms t.1 >>= fun d => .ok (d.iloc + (d.nv * t.2.1 + t.2.2))

/-- OneDim::start (OneDim.h:107-115). -/
def Sim.start (s : Sim) (i : Nat) : Outcome Nat :=
  Outcome.vecGet s.doms i >>= fun d => .ok (if d.nv ≠ 0 then d.iloc else 0)

/-- The scan OneDim.cpp:53-57; `start` is only called with valid domain indices there. -/
def Sim.componentScan (s : Sim) (i : Nat) : Option Nat :=
  scanDown (fun n => match s.start n with
    | .ok a => decide (a ≤ i)
    | _ => false) s.doms.length

/-- OneDim::component (OneDim.cpp:51-63): domain, point and component number (the names are looked up
from these).  Integer division by zero and `m_dom[npos]` are undefined. -/
def Sim.component (s : Sim) (i : Nat) : Outcome (Nat × Nat × Nat) :=
  match s.componentScan i with
  | none => .ub
  | some n =>
    Outcome.vecGet s.doms n >>= fun dom =>
    s.start n >>= fun st =>
      if dom.nv = 0 then .ub
      else
        let offset := i - st
        let pt := offset / dom.nv
        .ok (n, pt, offset - pt * dom.nv)

/-- OneDim::pointDomain (OneDim.cpp:249-259): index of the domain returned, `none` for a null
pointer. -/
def Sim.pointDomain (s : Sim) (i : Nat) : Option Nat :=
  scanDown (fun n => match s.doms[n]? with
    | some d => decide (d.iloc ≤ i)
    | none => false) s.doms.length

/-- The positions `(row, column)` passed to `m_jac->setValue` by `evalJacobian`
(OneDim.cpp:300-332), before the threshold on the size of the entry: for each point `j` and each of
its variables the running index `ipt` is the column, the rows are the variables of points
`j-1`, `j`, `j+1`. -/
def Sim.jacPositions (s : Sim) (row col : Nat) : Prop :=
  ∃ j n i m, j < s.pts ∧ n < s.nvars.getD j 0 ∧ i < s.pts ∧ (i + 1 = j ∨ i = j ∨ i = j + 1) ∧
    m < s.nvars.getD i 0 ∧ row = m + s.loc.getD i 0 ∧ col = pre s.nvars j + n

end Verif.OneDim
