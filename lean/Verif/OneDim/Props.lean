import Verif.OneDim.Lemmas

/-!
# C30: flattened multi-domain indexing

`(Sim.run ops).resize` is the simulation after any history of adding domains, changing the number of
components or points of any domain and setting bandwidths, followed by the `OneDim::resize` that the
interface asks for after a grid change.
-/

namespace Verif.OneDim

open Verif Verif.Prefix

/-- `t` names an existing (domain, point, component). -/
def Sim.Valid (s : Sim) (t : Nat × Nat × Nat) : Prop :=
  ∃ d, s.doms[t.1]? = some d ∧ t.2.1 < d.np ∧ t.2.2 < d.nv

/-- After any history each domain starts where the previous ones end, both in the solution vector and
in the list of points. -/
theorem layout_locations (ops : List Op) (i : Nat) (d : Dom) (hd : (Sim.run ops).doms[i]? = some d) :
    d.iloc = (((Sim.run ops).doms.take i).map (fun e => e.nv * e.np)).sum ∧
    d.jstart = (((Sim.run ops).doms.take i).map Dom.np).sum := by
  have h := placed_run ops
  rw [placed_iloc h hd, placed_jstart h hd]
  simp [pre, sizes, points, List.map_take]

/-- The solution vector has exactly one place per component and point. -/
theorem layout_size (ops : List Op) :
    (Sim.run ops).resize.size = (((Sim.run ops).doms).map (fun e => e.nv * e.np)).sum :=
  resize_size _ (placed_run ops) (run_size0 ops)

theorem index_ok {s : Sim} {t : Nat × Nat × Nat} (h : s.Valid t) (hp : Placed s.doms) :
    ∃ d, s.doms[t.1]? = some d ∧ t.2.1 < d.np ∧ t.2.2 < d.nv ∧
      s.index t = .ok (pre (sizes s.doms) t.1 + (d.nv * t.2.1 + t.2.2)) := by
  obtain ⟨d, h1, h2, h3⟩ := h
  refine ⟨d, h1, h2, h3, ?_⟩
  simp [Sim.index, Outcome.vecGet, h1, placed_iloc hp h1]

theorem local_lt {nv np p c : Nat} (hp : p < np) (hc : c < nv) : nv * p + c < nv * np := by
  calc nv * p + c < nv * p + nv := by omega
    _ = nv * (p + 1) := by ring
    _ ≤ nv * np := Nat.mul_le_mul_left _ (by omega)

theorem sizes_get {ds : List Dom} {k : Nat} {d : Dom} (h : ds[k]? = some d) :
    ∃ hk : k < (sizes ds).length, (sizes ds)[k] = d.nv * d.np := by
  obtain ⟨hk, e⟩ := List.getElem?_eq_some_iff.mp h
  refine ⟨by simpa [sizes] using hk, ?_⟩
  simp [sizes, e]

/-- (domain, point, component) ↔ global index is a bijection onto `0 .. size-1`. -/
theorem index_bijection (ops : List Op) :
    (∀ t, (Sim.run ops).resize.Valid t →
      ∃ g, (Sim.run ops).resize.index t = .ok g ∧ g < (Sim.run ops).resize.size) ∧
    (∀ g, g < (Sim.run ops).resize.size →
      ∃! t, (Sim.run ops).resize.Valid t ∧ (Sim.run ops).resize.index t = .ok g) := by
  have hp : Placed (Sim.run ops).resize.doms := placed_run ops
  have hs : (Sim.run ops).resize.size = (sizes (Sim.run ops).resize.doms).sum :=
    resize_size _ (placed_run ops) (run_size0 ops)
  generalize (Sim.run ops).resize = s at hp hs
  constructor
  · intro t ht
    obtain ⟨d, h1, h2, h3, h4⟩ := index_ok ht hp
    refine ⟨_, h4, ?_⟩
    obtain ⟨hk, e⟩ := sizes_get h1
    have hlt := local_lt h2 h3
    have := pre_le_sum (sizes s.doms) (t.1 + 1)
    rw [pre_succ _ _ hk, e] at this
    rw [hs]; omega
  · intro g hg
    rw [hs] at hg
    obtain ⟨i, hi, h1, h2⟩ := exists_block _ g hg
    have hi' : i < s.doms.length := by simpa [sizes] using hi
    have hd : s.doms[i]? = some s.doms[i] := List.getElem?_eq_getElem hi'
    have e : (sizes s.doms)[i] = s.doms[i].nv * s.doms[i].np := by simp [sizes]
    rw [e] at h2
    have hnv : 0 < s.doms[i].nv := by
      rcases Nat.eq_zero_or_pos s.doms[i].nv with h | h
      · rw [h] at h2; omega
      · exact h
    have hpt : (g - pre (sizes s.doms) i) / s.doms[i].nv < s.doms[i].np := by
      rw [Nat.div_lt_iff_lt_mul hnv, Nat.mul_comm]; omega
    refine ⟨(i, (g - pre (sizes s.doms) i) / s.doms[i].nv,
      (g - pre (sizes s.doms) i) % s.doms[i].nv), ⟨⟨_, hd, hpt, Nat.mod_lt _ hnv⟩, ?_⟩, ?_⟩
    · obtain ⟨d, k1, k2, k3, k4⟩ := index_ok (s := s)
        (t := (i, (g - pre (sizes s.doms) i) / s.doms[i].nv,
          (g - pre (sizes s.doms) i) % s.doms[i].nv)) ⟨_, hd, hpt, Nat.mod_lt _ hnv⟩ hp
      rw [k4]
      simp only at k1
      rw [hd, Option.some.injEq] at k1
      subst k1
      simp only [Nat.div_add_mod]
      congr 1; omega
    · rintro ⟨i', p', c'⟩ ⟨hv, hidx⟩
      obtain ⟨d, k1, k2, k3, k4⟩ := index_ok hv hp
      rw [k4] at hidx
      simp only at k1 k2 k3 k4 hidx
      injection hidx with hidx
      obtain ⟨hk, e'⟩ := sizes_get k1
      have hlt := local_lt k2 k3
      have : i' = i := block_unique (sizes s.doms) (g := g) hk hi (by omega) (by rw [e']; omega)
        h1 (by rw [e]; exact h2)
      subst this
      rw [hd, Option.some.injEq] at k1
      subst k1
      have hg' : g - pre (sizes s.doms) i' = s.doms[i'].nv * p' + c' := by omega
      rw [hg', Nat.mul_add_div hnv, Nat.mul_add_mod, Nat.div_eq_of_lt k3, Nat.mod_eq_of_lt k3]
      simp

/-- The per-point tables: point `p` of domain `d` has global number `d.jstart + p`, `d.nv` variables
and its variables start at the index of its component 0. -/
theorem point_tables (ops : List Op) (i : Nat) (d : Dom) (p : Nat)
    (hd : (Sim.run ops).doms[i]? = some d) (hp : p < d.np) :
    (Sim.run ops).resize.nvars[d.jstart + p]? = some d.nv ∧
    (Sim.run ops).resize.loc[d.jstart + p]? = some (d.iloc + d.nv * p) ∧
    (Sim.run ops).resize.pts = (((Sim.run ops).doms).map Dom.np).sum := by
  have h := placed_run ops
  obtain ⟨t1, t2, t3⟩ := resize_tab (Sim.run ops)
  obtain ⟨v1, v2⟩ := varsAt_point _ i d hd p (by omega)
  have v2 := v2 hp
  rw [t1, t2, t3, placed_jstart h hd, placed_iloc h hd]
  refine ⟨v2, ?_, ?_⟩
  · have hlt := (List.getElem?_eq_some_iff.mp v2).1
    simp [hlt, v1]
  · simp [varsAt, List.length_flatMap]

theorem start_ok {s : Sim} {k : Nat} {d : Dom} (h : s.doms[k]? = some d) :
    s.start k = .ok (if d.nv ≠ 0 then d.iloc else 0) := by
  simp [Sim.start, Outcome.vecGet, h]

/-- Domains right of the owner of a global index start after it. -/
theorem later_start {ds : List Dom} (hp : Placed ds) {i k : Nat} {d e : Dom} {p c : Nat}
    (hd : ds[i]? = some d) (h2 : p < d.np) (h3 : c < d.nv) (hik : i < k) (he : ds[k]? = some e) :
    pre (sizes ds) i + (d.nv * p + c) < e.iloc := by
  obtain ⟨hk, e'⟩ := sizes_get hd
  have hlt := local_lt h2 h3
  have := pre_mono (sizes ds) (by omega : i + 1 ≤ k)
  rw [pre_succ _ _ hk, e'] at this
  rw [placed_iloc hp he]; omega

/-- `component` inverts the index map when no domain without components lies to the right of the
domain concerned.  Missing: that condition is necessary, see `component_divides_by_zero`. -/
theorem component_inverts_partial (ops : List Op) (t : Nat × Nat × Nat)
    (hv : (Sim.run ops).resize.Valid t)
    (hz : ∀ k d, t.1 < k → (Sim.run ops).doms[k]? = some d → d.nv ≠ 0) (g : Nat)
    (hg : (Sim.run ops).resize.index t = .ok g) :
    (Sim.run ops).resize.component g = .ok t := by
  have hp : Placed (Sim.run ops).resize.doms := placed_run ops
  have hz' : ∀ k d, t.1 < k → (Sim.run ops).resize.doms[k]? = some d → d.nv ≠ 0 := hz
  generalize (Sim.run ops).resize = s at hp hv hg hz'
  obtain ⟨d, h1, h2, h3, h4⟩ := index_ok hv hp
  rw [h4] at hg
  injection hg with hg
  have hnv : d.nv ≠ 0 := by omega
  have hscan : s.componentScan g = some t.1 := by
    unfold Sim.componentScan
    rw [scanDown_some]
    refine ⟨(List.getElem?_eq_some_iff.mp h1).1, ?_, ?_⟩
    · rw [start_ok h1]
      simp only [hnv, ne_eq, not_false_eq_true, if_true, decide_eq_true_eq]
      rw [placed_iloc hp h1]; omega
    · intro j hj hjl
      have he : s.doms[j]? = some s.doms[j] := List.getElem?_eq_getElem hjl
      rw [start_ok he]
      have := later_start hp h1 h2 h3 hj he
      simp only [hz' j _ hj he, ne_eq, not_false_eq_true, if_true, decide_eq_false_iff_not]
      omega
  unfold Sim.component
  rw [hscan]
  simp only [Outcome.vecGet, h1, Outcome.bind_ok, start_ok h1, hnv, ne_eq, not_false_eq_true,
    if_true, if_false]
  have hloc : g - d.iloc = d.nv * t.2.1 + t.2.2 := by rw [placed_iloc hp h1]; omega
  rw [hloc, Nat.mul_add_div (by omega), Nat.div_eq_of_lt h3]
  obtain ⟨a, b, c⟩ := t
  simp [Nat.mul_comm]

/-- **Finding.** `component` divides by zero for every index whenever the rightmost domain has no
components; every boundary object except a surface with solved coverages has none
(Boundary1D.cpp:148, 305, 323, 386, 461, 545). -/
theorem component_divides_by_zero (s : Sim) (d : Dom) (hl : s.doms.getLast? = some d)
    (hz : d.nv = 0) (g : Nat) : s.component g = .ub := by
  rw [List.getLast?_eq_getElem?] at hl
  have hlen := (List.getElem?_eq_some_iff.mp hl).1
  have hscan : s.componentScan g = some (s.doms.length - 1) := by
    unfold Sim.componentScan
    rw [scanDown_some]
    refine ⟨hlen, ?_, fun j a b => by omega⟩
    rw [start_ok hl]; simp [hz]
  unfold Sim.component
  rw [hscan]
  simp [Outcome.vecGet, hl, start_ok hl, hz]

/-- More generally a valid index is answered correctly exactly when no domain to the right of its own
is without components. -/
theorem component_correct_iff (ops : List Op) (t : Nat × Nat × Nat)
    (hv : (Sim.run ops).resize.Valid t) (g : Nat) (hg : (Sim.run ops).resize.index t = .ok g) :
    (Sim.run ops).resize.component g = .ok t ↔
      ∀ k d, t.1 < k → (Sim.run ops).doms[k]? = some d → d.nv ≠ 0 := by
  refine ⟨?_, fun h => component_inverts_partial ops t hv h g hg⟩
  intro hc k d hk hd hz
  have hd' : (Sim.run ops).resize.doms[k]? = some d := hd
  generalize (Sim.run ops).resize = s at hc hd'
  unfold Sim.component at hc
  cases hs : s.componentScan g with
  | none => simp [hs] at hc
  | some n =>
    have hs' := hs
    unfold Sim.componentScan at hs'
    rw [scanDown_some] at hs'
    obtain ⟨a1, a2, a3⟩ := hs'
    have hkn : k ≤ n := by
      by_contra hlt
      have := a3 k (by omega) (List.getElem?_eq_some_iff.mp hd').1
      rw [start_ok hd'] at this
      simp [hz] at this
    have he : s.doms[n]? = some s.doms[n] := List.getElem?_eq_getElem a1
    simp only [hs, Outcome.vecGet, he, Outcome.bind_ok, start_ok he] at hc
    split_ifs at hc
    simp only [Outcome.ok.injEq] at hc
    have := congrArg Prod.fst hc
    simp only at this
    omega

/-- **Finding.** An index beyond the end is not rejected: `component` names a point that does not
exist. -/
theorem component_accepts_out_of_range : ∃ (ops : List Op) (g : Nat),
    (Sim.run ops).size ≤ g ∧ ∃ t, (Sim.run ops).component g = .ok t ∧ ¬ (Sim.run ops).Valid t := by
  refine ⟨[.addDomain 2 3 none], 6, by decide, (0, 3, 0), by decide, ?_⟩
  rintro ⟨d, h1, h2, h3⟩
  have : (Sim.run [.addDomain 2 3 none]).doms[0]? = some ⟨2, 3, none, 0, 0⟩ := by decide
  rw [this, Option.some.injEq] at h1
  subst h1
  simp at h2

/-- `pointDomain` returns the domain owning a solution vector index, for every layout. -/
theorem pointDomain_owner (ops : List Op) (t : Nat × Nat × Nat)
    (hv : (Sim.run ops).resize.Valid t) (g : Nat) (hg : (Sim.run ops).resize.index t = .ok g) :
    (Sim.run ops).resize.pointDomain g = some t.1 := by
  have hp : Placed (Sim.run ops).resize.doms := placed_run ops
  generalize (Sim.run ops).resize = s at hp hv hg
  obtain ⟨d, h1, h2, h3, h4⟩ := index_ok hv hp
  rw [h4] at hg
  injection hg with hg
  unfold Sim.pointDomain
  rw [scanDown_some]
  refine ⟨(List.getElem?_eq_some_iff.mp h1).1, ?_, ?_⟩
  · simp only [h1, decide_eq_true_eq]
    rw [placed_iloc hp h1]; omega
  · intro j hj hjl
    have he : s.doms[j]? = some s.doms[j] := List.getElem?_eq_getElem hjl
    have := later_start hp h1 h2 h3 hj he
    simp only [he, decide_eq_false_iff_not]
    omega

/-- **Finding.** Documented as "the domain global point *i* belongs to" (OneDim.h:220), but given a
global point number it can return another domain. -/
theorem pointDomain_not_of_point : ∃ (ops : List Op) (i : Nat) (d : Dom),
    (Sim.run ops).doms[1]? = some d ∧ d.jstart ≤ i ∧ i < d.jstart + d.np ∧
    (Sim.run ops).pointDomain i = some 0 :=
  ⟨[.addDomain 3 2 none, .addDomain 3 2 none], 2, ⟨3, 2, none, 6, 2⟩, by decide, by decide,
    by decide, by decide⟩

/-- Every Jacobian entry written by `evalJacobian` lies inside the declared bandwidth, when domains
that declare their own bandwidth declare at least the default one.  Missing: smaller declared
bandwidths, see `jacobian_outside_band`. -/
theorem jacobian_in_band_partial (ops : List Op)
    (hb : ∀ d ∈ (Sim.run ops).doms, ∀ b, d.bw = some b → 2 * d.nv ≤ b + 1) (row col : Nat)
    (h : (Sim.run ops).resize.jacPositions row col) :
    row ≤ col + (Sim.run ops).resize.bw ∧ col ≤ row + (Sim.run ops).resize.bw := by
  obtain ⟨t1, t2, t3⟩ := resize_tab (Sim.run ops)
  obtain ⟨j, n, i, m, hj, hn, hi, hij, hm, hr, hc⟩ := h
  rw [t1] at hn hm hc
  rw [t3] at hj hi
  rw [t2] at hr
  have key : ∀ (x y : Nat), (varsAt (Sim.run ops).doms)[x]? = some y → 2 * y ≤ (Sim.run ops).resize.bw + 1 := by
    intro x y hx
    obtain ⟨d, hd, he⟩ := mem_varsAt hx
    have h1 : d.bw1 ≤ (Sim.run ops).resize.bw := resizeLoop_bw1 none _ _ 0 _ d hd
    have h2 : 2 * d.nv ≤ d.bw1 + 1 := by
      unfold Dom.bw1
      cases hbw : d.bw with
      | none => simp only; omega
      | some b => simp only; exact hb d hd b hbw
    omega
  generalize (Sim.run ops).resize.bw = B at key ⊢
  generalize varsAt (Sim.run ops).doms = v at *
  have e1 : v.getD j 0 = v[j] := by simp [List.getD_eq_getElem?_getD, hj]
  have e2 : v.getD i 0 = v[i] := by simp [List.getD_eq_getElem?_getD, hi]
  have e3 : ((List.range v.length).map (pre v)).getD i 0 = pre v i := by
    simp [List.getD_eq_getElem?_getD, hi]
  rw [e1] at hn
  rw [e2] at hm
  rw [e3] at hr
  have k1 := key j v[j] (List.getElem?_eq_getElem hj)
  have k2 := key i v[i] (List.getElem?_eq_getElem hi)
  rcases hij with h | h | h
  · subst h
    have := pre_succ v i hi
    omega
  · subst h
    omega
  · subst h
    have := pre_succ v j hj
    omega

/-- The bandwidth also covers the coupling of the last point of a domain to the first point of the
next, if a declared bandwidth of the first is at least its number of components. -/
theorem coupling_in_band (ops : List Op) (k : Nat) (p d : Dom)
    (hp : (Sim.run ops).doms[k]? = some p) (hd : (Sim.run ops).doms[k + 1]? = some d)
    (hb : ∀ b, p.bw = some b → p.nv ≤ b ∧ b + d.nv < two64) (hs : p.nv + d.nv < two64)
    (h1 : 1 ≤ d.nv) : p.nv + d.nv ≤ (Sim.run ops).resize.bw + 1 := by
  have h2 : p.bw2 d ≤ (Sim.run ops).resize.bw := resizeLoop_bw2 none _ _ 0 _ k p d hp hd
  cases hpb : p.bw with
  | none =>
    rw [bw2_eq p d p.nv (by simp [Dom.bw2base, hpb]) h1 hs] at h2
    omega
  | some b =>
    have := hb b hpb
    rw [bw2_eq p d b (by simp [Dom.bw2base, hpb]) h1 this.2] at h2
    omega

/-- The bandwidth is no larger than it must be: without declared bandwidths and with at most `N`
components anywhere, it is at most `2N-1` unless two domains without components are adjacent. -/
theorem bandwidth_le (ops : List Op) (N : Nat) (h1 : 1 ≤ N) (hN : 2 * N < two64)
    (hd : ∀ d ∈ (Sim.run ops).doms, d.bw = none ∧ d.nv ≤ N)
    (hz : ∀ k p d, (Sim.run ops).doms[k]? = some p → (Sim.run ops).doms[k + 1]? = some d →
      1 ≤ p.nv + d.nv) : (Sim.run ops).resize.bw ≤ 2 * N - 1 := by
  refine resizeLoop_bw_le none _ _ 0 _ _ (by omega) ?_ ?_ (by simp)
  · intro d hm
    have := hd d hm
    simp only [Dom.bw1, this.1]
    omega
  · intro k p d hp hq
    have a := hd p (List.mem_of_getElem? hp)
    have b := hd d (List.mem_of_getElem? hq)
    have c := hz k p d hp hq
    rcases Nat.eq_zero_or_pos d.nv with h0 | h0
    · have hp1 : 1 ≤ p.nv := by omega
      simp only [Dom.bw2, Dom.bw2base, a.1, h0, Nat.zero_add]
      rw [Nat.mod_eq_of_lt (by unfold two64; omega : two64 - 1 < two64)]
      have : p.nv + (two64 - 1) = (p.nv - 1) + two64 := by unfold two64 at *; omega
      rw [this, Nat.add_mod_right, Nat.mod_eq_of_lt (by omega)]
      omega
    · rw [bw2_eq p d p.nv (by simp [Dom.bw2base, a.1]) h0 (by omega)]
      omega

/-- **Finding.** Two adjacent domains without components make the bandwidth `2^64 - 1`: the
subtraction at OneDim.cpp:210 wraps around. -/
theorem bandwidth_wraps (ops : List Op) (k : Nat) (p d : Dom)
    (hp : (Sim.run ops).doms[k]? = some p) (hd : (Sim.run ops).doms[k + 1]? = some d)
    (h1 : p.nv = 0) (h2 : p.bw = none) (h3 : d.nv = 0) :
    two64 - 1 ≤ (Sim.run ops).resize.bw := by
  refine le_trans ?_ (resizeLoop_bw2 none _ ([], [], 0, 0) 0 (Sim.run ops).size k p d hp hd)
  simp [Dom.bw2, Dom.bw2base, h1, h2, h3, two64]

/-- **Finding.** A declared bandwidth smaller than the number of components (components uncoupled
from each other, the use case documented at Domain1D.h:110-115) is added to the neighbour's component
count at OneDim.cpp:206-210 as if it were a component count: a position written by `evalJacobian` in
the block coupling two domains lies outside the band. -/
theorem jacobian_outside_band : ∃ (ops : List Op) (row col : Nat),
    (Sim.run ops).jacPositions row col ∧ col + (Sim.run ops).bw < row := by
  refine ⟨[.addDomain 3 1 (some 0), .addDomain 1 1 none], 3, 0, ?_, by decide⟩
  exact ⟨0, 0, 1, 0, by decide, by decide, by decide, by decide, by decide, by decide, by decide⟩

/-! ### The statements are not vacuous -/

/-- Inlet, flow domain and a surface with coverages, then the flow domain is refined. -/
def demoOps : List Op :=
  [.addDomain 0 1 none, .addDomain 4 3 none, .addDomain 2 1 none, .domResize 1 4 5, .resize]

example : (Sim.run demoOps).doms[2]? = some ⟨2, 1, none, 20, 6⟩ := by decide
example : (Sim.run demoOps).size = 22 := by decide
example : (Sim.run demoOps).resize.Valid (1, 4, 3) := ⟨⟨4, 5, none, 0, 1⟩, by decide⟩
example : (Sim.run demoOps).resize.index (1, 4, 3) = .ok 19 := by decide
example : (Sim.run demoOps).resize.component 19 = .ok (1, 4, 3) := by decide
example : (Sim.run demoOps).resize.pointDomain 19 = some 1 := by decide
example : ∀ (k : Nat) (d : Dom), (1 : Nat) < k → (Sim.run demoOps).doms[k]? = some d → d.nv ≠ 0 := by
  intro k d hk hd
  have : k = 2 := by
    have := (List.getElem?_eq_some_iff.mp hd).1
    have hl : (Sim.run demoOps).doms.length = 3 := by decide
    omega
  subst this
  have : (Sim.run demoOps).doms[2]? = some ⟨2, 1, none, 20, 6⟩ := by decide
  rw [this, Option.some.injEq] at hd
  subst hd; decide
example : (Sim.run demoOps).resize.nvars = [0, 4, 4, 4, 4, 4, 2] := by decide
example : (Sim.run demoOps).resize.bw = 7 := by decide
example : (Sim.run demoOps).resize.jacPositions 7 0 :=
  ⟨1, 0, 2, 3, by decide, by decide, by decide, by decide, by decide, by decide, by decide⟩
example : ∀ d ∈ (Sim.run demoOps).doms, ∀ b, d.bw = some b → 2 * d.nv ≤ b + 1 := by decide
/-- The everyday flame: inlet, flow, outlet. -/
example : (Sim.run [.addDomain 0 1 none, .addDomain 4 3 none, .addDomain 0 1 none]).component 5 = .ub :=
  component_divides_by_zero _ ⟨0, 1, none, 12, 4⟩ (by decide) rfl 5
example : (Sim.run [.addDomain 0 1 none, .addDomain 0 1 none]).resize.bw = two64 - 1 := by decide

end Verif.OneDim
