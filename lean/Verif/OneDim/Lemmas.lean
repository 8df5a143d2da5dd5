import Verif.OneDim.Model
import Mathlib.Tactic.Ring
import Mathlib.Tactic.Linarith

/-! # C30: lemmas about the layout of a one-dimensional simulation -/

namespace Verif.OneDim

open Verif Verif.Prefix

/-- Sizes of the domains. -/
def sizes (ds : List Dom) : List Nat := ds.map (fun d => d.nv * d.np)

/-- Numbers of points of the domains. -/
def points (ds : List Dom) : List Nat := ds.map Dom.np

/-- The number of variables at every global point, from the declared domains. -/
def varsAt (ds : List Dom) : List Nat := ds.flatMap (fun d => List.replicate d.np d.nv)

theorem placeAfter_idem (l : Option Dom) (d : Dom) :
    (d.placeAfter l).placeAfter l = d.placeAfter l := by
  cases l <;> rfl

theorem locate_idem (l : Option Dom) (ds : List Dom) : locate l (locate l ds) = locate l ds := by
  induction ds generalizing l with
  | nil => rfl
  | cons d ds ih => simp only [locate, placeAfter_idem, ih]

/-- The domain to the left of whatever follows `ds`. -/
def lastOf (l : Option Dom) (ds : List Dom) : Option Dom :=
  match ds.getLast? with
  | some d => some d
  | none => l

theorem lastOf_cons (l : Option Dom) (d : Dom) (ds : List Dom) :
    lastOf l (d :: ds) = lastOf (some d) ds := by
  cases ds with
  | nil => rfl
  | cons e es => simp [lastOf, List.getLast?_cons]

theorem locate_append (l : Option Dom) (a b : List Dom) :
    locate l (a ++ b) = locate l a ++ locate (lastOf l (locate l a)) b := by
  induction a generalizing l with
  | nil => rfl
  | cons d ds ih => simp only [List.cons_append, locate, ih, lastOf_cons]

/-- The chain is placed. -/
def Placed (ds : List Dom) : Prop := locate none ds = ds

theorem placed_take {ds : List Dom} (h : Placed ds) (i : Nat) : Placed (ds.take i) := by
  have h2 : locate none (ds.take i ++ ds.drop i) = ds.take i ++ ds.drop i := by
    rw [List.take_append_drop]; exact h
  rw [locate_append] at h2
  refine (List.append_inj h2 ?_).1
  have : ∀ l (a : List Dom), (locate l a).length = a.length := by
    intro l a; induction a generalizing l with
    | nil => rfl
    | cons d ds ih => simp [locate, ih]
  rw [this]

theorem placed_locateFrom {ds : List Dom} {i : Nat} (h : Placed (ds.take i)) :
    Placed (locateFrom ds i) := by
  unfold Placed locateFrom
  rw [locate_append]
  have h1 : locate none (ds.take i) = ds.take i := h
  rw [h1]
  congr 1
  by_cases hd : ds.drop i = []
  · rw [hd]; rfl
  · have hi : i < ds.length := by
      by_contra hc; exact hd (List.drop_eq_nil_of_le (by omega))
    have : lastOf none (ds.take i) = if i = 0 then none else ds[i - 1]? := by
      by_cases h0 : i = 0
      · subst h0; simp [lastOf]
      · simp only [h0, if_false, lastOf, List.getLast?_eq_getElem?, List.length_take]
        rw [Nat.min_eq_left (by omega), List.getElem?_take]
        have : i - 1 < i := by omega
        simp only [this, if_true]
        have h3 : ds[i - 1]? = some (ds[i - 1]'(by omega)) := List.getElem?_eq_getElem _
        rw [h3]
    rw [this, locate_idem]

theorem placed_resizeDom {ds : List Dom} (h : Placed ds) (i nv np : Nat) :
    Placed (resizeDom ds i nv np) := by
  unfold resizeDom
  apply placed_locateFrom
  rw [List.take_modify]
  have : (ds.take i).modify i (fun d => { d with nv := nv, np := np }) = ds.take i :=
    List.modify_eq_self (by simp)
  rw [this]
  exact placed_take h i

theorem locate_setBandwidth (l : Option Dom) (ds : List Dom) (i : Nat) (b : Option Nat) :
    ∀ l', (l.map (fun d => (d.nv, d.np, d.iloc, d.jstart)) = l'.map (fun d => (d.nv, d.np, d.iloc, d.jstart))) →
    locate l ds = ds → locate l' (setBandwidth ds i b) = setBandwidth ds i b := by
  induction ds generalizing l i with
  | nil => intro l' _ _; simp [setBandwidth, locate]
  | cons d ds ih =>
    intro l' hl h
    simp only [locate, List.cons.injEq] at h
    obtain ⟨h1, h2⟩ := h
    have key : ∀ e : Dom, e.nv = d.nv → e.np = d.np → e.iloc = d.iloc → e.jstart = d.jstart →
        e.placeAfter l' = e := by
      intro e e1 e2 e3 e4
      cases l with
      | none =>
        cases l' with
        | none =>
          have a1 : d.jstart = 0 := by rw [← h1]; rfl
          have a2 : d.iloc = 0 := by rw [← h1]; rfl
          cases e; simp only at e3 e4; subst e3 e4; simp [Dom.placeAfter, a1, a2]
        | some x => simp at hl
      | some y =>
        cases l' with
        | none => simp at hl
        | some x =>
          cases e; cases d; cases x; cases y; simp_all [Dom.placeAfter, Dom.size]
    cases i with
    | zero =>
      simp only [setBandwidth, List.modify_zero_cons, locate]
      rw [key { d with bw := b } rfl rfl rfl rfl]
      congr 1
      have := ih (some d) ds.length (some { d with bw := b }) rfl (by rw [h1] at h2; exact h2)
      have e : setBandwidth ds ds.length b = ds := by
        unfold setBandwidth; exact List.modify_eq_self le_rfl
      rw [e] at this
      exact this
    | succ i =>
      simp only [setBandwidth, List.modify_succ_cons, locate]
      rw [key d rfl rfl rfl rfl]
      congr 1
      exact ih (some d) i (some d) rfl (by rw [h1] at h2; exact h2)

theorem placed_setBandwidth {ds : List Dom} (h : Placed ds) (i : Nat) (b : Option Nat) :
    Placed (setBandwidth ds i b) := locate_setBandwidth none ds i b none rfl h

theorem placed_add {ds : List Dom} (h : Placed ds) (nv np : Nat) (bw : Option Nat) :
    Placed (ds ++ [if ds.length = 0 then Dom.fresh nv np bw
      else (Dom.fresh nv np bw).placeAfter ds.getLast?]) := by
  unfold Placed
  rw [locate_append]
  have h1 : locate none ds = ds := h
  rw [h1]
  congr 1
  cases ds with
  | nil => simp [locate, lastOf, Dom.placeAfter, Dom.fresh]
  | cons d ds =>
    simp only [List.length_cons, Nat.add_eq_zero_iff, one_ne_zero, and_false, if_false, locate]
    have : lastOf none (d :: ds) = (d :: ds).getLast? := by
      simp [lastOf, List.getLast?_cons]
    rw [this, placeAfter_idem]

theorem Sim.resize_doms (s : Sim) : s.resize.doms = s.doms := rfl

theorem placed_run (ops : List Op) : Placed (Sim.run ops).doms := by
  unfold Sim.run
  suffices h : ∀ (ops : List Op) (s : Sim), Placed s.doms → Placed (ops.foldl Sim.step s).doms from
    h ops _ rfl
  intro ops
  induction ops with
  | nil => intro s h; exact h
  | cons o ops ih =>
    intro s h
    simp only [List.foldl_cons]
    apply ih
    cases o with
    | addDomain nv np bw => exact placed_add h nv np bw
    | domResize i nv np => exact placed_resizeDom h i nv np
    | setBandwidth i b => exact placed_setBandwidth h i b
    | resize => exact h

/-- First free location right of `l`. -/
def baseLoc : Option Dom → Nat
  | some x => x.iloc + x.size
  | none => 0

/-- First free point right of `l`. -/
def basePt : Option Dom → Nat
  | some x => x.jstart + x.np
  | none => 0

theorem locate_getElem (l : Option Dom) (ds : List Dom) (h : locate l ds = ds) (k : Nat) (d : Dom)
    (hd : ds[k]? = some d) :
    d.iloc = baseLoc l + pre (sizes ds) k ∧
    d.jstart = basePt l + pre (points ds) k := by
  induction ds generalizing l k with
  | nil => simp at hd
  | cons e ds ih =>
    simp only [locate, List.cons.injEq] at h
    obtain ⟨h1, h2⟩ := h
    have hi : e.iloc = baseLoc l := by
      rw [← h1]; cases l <;> rfl
    have hj : e.jstart = basePt l := by
      rw [← h1]; cases l <;> rfl
    cases k with
    | zero =>
      simp only [List.getElem?_cons_zero, Option.some.injEq] at hd
      subst hd
      simp [hi, hj]
    | succ k =>
      simp only [List.getElem?_cons_succ] at hd
      rw [h1] at h2
      have := ih (some e) h2 k hd
      rw [this.1, this.2]
      simp [baseLoc, basePt, sizes, points, pre, Dom.size, Nat.add_assoc, hi, hj]

theorem placed_iloc {ds : List Dom} (h : Placed ds) {k : Nat} {d : Dom} (hd : ds[k]? = some d) :
    d.iloc = pre (sizes ds) k := by
  simpa [baseLoc, basePt] using (locate_getElem none ds h k d hd).1

theorem placed_jstart {ds : List Dom} (h : Placed ds) {k : Nat} {d : Dom} (hd : ds[k]? = some d) :
    d.jstart = pre (points ds) k := by
  simpa [baseLoc, basePt] using (locate_getElem none ds h k d hd).2

/-! ### Tables -/

/-- The table invariant. -/
def TabInv (t : List Nat × List Nat × Nat × Nat) (nv : List Nat) : Prop :=
  t.1 = nv ∧ t.2.1 = (List.range nv.length).map (pre nv) ∧ t.2.2.1 = nv.sum ∧ t.2.2.2 = nv.length

theorem pushPoints_inv (v n : Nat) (t : List Nat × List Nat × Nat × Nat) (nv : List Nat)
    (h : TabInv t nv) : TabInv (pushPoints v n t) (nv ++ List.replicate n v) := by
  induction n generalizing t nv with
  | zero => simpa [pushPoints] using h
  | succ n ih =>
    obtain ⟨a, b, c, e⟩ := t
    obtain ⟨h1, h2, h3, h4⟩ := h
    simp only at h1 h2 h3 h4
    simp only [pushPoints]
    rw [List.replicate_succ, List.append_cons nv v]
    apply ih
    refine ⟨by rw [h1], ?_, by simp [h3], by simp [h4]⟩
    simp only [h2, h3, List.length_append, List.length_singleton, List.range_succ, List.map_append,
      List.map_cons, List.map_nil]
    congr 1
    · apply List.map_congr_left
      intro x hx
      have : x < nv.length := List.mem_range.mp hx
      simp [pre, List.take_append_of_le_length (by omega : x ≤ nv.length)]
    · simp [pre]

theorem resizeLoop_tab (prev : Option Dom) (ds : List Dom) (t : List Nat × List Nat × Nat × Nat)
    (nv : List Nat) (bw size : Nat) (h : TabInv t nv) :
    TabInv (resizeLoop prev ds t bw size).1 (nv ++ varsAt ds) := by
  induction ds generalizing prev t nv bw size with
  | nil => simpa [resizeLoop, varsAt] using h
  | cons d ds ih =>
    simp only [resizeLoop]
    have := ih (some d) (pushPoints d.nv d.np t) (nv ++ List.replicate d.np d.nv)
      (bwStep prev d bw)
      (d.iloc + d.size) (pushPoints_inv _ _ _ _ h)
    simpa [varsAt, List.append_assoc] using this

theorem resize_tab (s : Sim) : s.resize.nvars = varsAt s.doms ∧
    s.resize.loc = (List.range (varsAt s.doms).length).map (pre (varsAt s.doms)) ∧
    s.resize.pts = (varsAt s.doms).length := by
  have := resizeLoop_tab none s.doms ([], [], 0, 0) [] 0 s.size ⟨rfl, rfl, rfl, rfl⟩
  obtain ⟨h1, h2, h3, h4⟩ := this
  exact ⟨h1, h2, h4⟩

theorem resizeLoop_size (prev : Option Dom) (ds : List Dom) (t : List Nat × List Nat × Nat × Nat)
    (bw size : Nat) : (resizeLoop prev ds t bw size).2.2 =
      match ds.getLast? with | some d => d.iloc + d.size | none => size := by
  induction ds generalizing prev t bw size with
  | nil => rfl
  | cons d ds ih =>
    simp only [resizeLoop]
    rw [ih]
    cases ds with
    | nil => rfl
    | cons e es => simp [List.getLast?_cons]

theorem resize_size (s : Sim) (h : Placed s.doms) (h0 : s.doms = [] → s.size = 0) :
    s.resize.size = (sizes s.doms).sum := by
  show (resizeLoop none s.doms _ 0 s.size).2.2 = _
  rw [resizeLoop_size]
  cases hl : s.doms.getLast? with
  | none =>
    have := List.getLast?_eq_none_iff.mp hl
    simp [this, sizes, h0 this]
  | some d =>
    rw [List.getLast?_eq_getElem?] at hl
    simp only
    rw [placed_iloc h hl]
    have hlen : s.doms.length - 1 < s.doms.length := by
      by_contra hc
      rw [List.getElem?_eq_none (by omega)] at hl
      simp at hl
    have e := pre_succ (sizes s.doms) (s.doms.length - 1) (by simpa [sizes] using hlen)
    have e2 : (sizes s.doms)[s.doms.length - 1]'(by simpa [sizes] using hlen) = d.size := by
      rw [List.getElem?_eq_getElem hlen, Option.some.injEq] at hl
      simp [sizes, hl, Dom.size]
    rw [e2] at e
    rw [← e]
    have : s.doms.length - 1 + 1 = (sizes s.doms).length := by simp [sizes]; omega
    rw [this, pre_length]

theorem run_size0 (ops : List Op) : (Sim.run ops).doms = [] → (Sim.run ops).size = 0 := by
  unfold Sim.run
  suffices h : ∀ (ops : List Op) (s : Sim), (s.doms = [] → s.size = 0) →
      ((ops.foldl Sim.step s).doms = [] → (ops.foldl Sim.step s).size = 0) from
    h ops _ (fun _ => rfl)
  intro ops
  induction ops with
  | nil => intro s h; exact h
  | cons o ops ih =>
    intro s h
    simp only [List.foldl_cons]
    apply ih
    cases o with
    | addDomain nv np bw => intro hc; simp [Sim.step, Sim.addDomain, Sim.resize_doms] at hc
    | domResize i nv np =>
      intro hc
      apply h
      simp only [Sim.step, resizeDom, locateFrom] at hc
      have hl : ∀ l (a : List Dom), (locate l a).length = a.length := by
        intro l a; induction a generalizing l with
        | nil => rfl
        | cons d ds ih => simp [locate, ih]
      have := congrArg List.length hc
      simp only [List.length_append, hl, List.length_take, List.length_drop, List.length_modify,
        List.length_nil] at this
      apply List.eq_nil_of_length_eq_zero
      omega
    | setBandwidth i b =>
      intro hc
      apply h
      have := congrArg List.length hc
      simpa [Sim.step, OneDim.setBandwidth] using this
    | resize =>
      intro hc
      have hc' : s.doms = [] := hc
      show (resizeLoop none s.doms _ 0 s.size).2.2 = 0
      rw [resizeLoop_size, hc']
      exact h hc'

theorem varsAt_point (ds : List Dom) (k : Nat) (d : Dom) (hd : ds[k]? = some d) (p : Nat)
    (hp : p ≤ d.np) :
    pre (varsAt ds) (pre (points ds) k + p) = pre (sizes ds) k + d.nv * p ∧
    (p < d.np → (varsAt ds)[pre (points ds) k + p]? = some d.nv) := by
  induction ds generalizing k with
  | nil => simp at hd
  | cons e ds ih =>
    cases k with
    | zero =>
      simp only [List.getElem?_cons_zero, Option.some.injEq] at hd
      subst hd
      simp only [pre_zero, Nat.zero_add]
      constructor
      · simp only [pre, varsAt, List.flatMap_cons]
        rw [List.take_append_of_le_length (by simpa using hp), List.take_replicate,
          Nat.min_eq_left hp]
        simp [Nat.mul_comm]
      · intro h
        simp only [varsAt, List.flatMap_cons]
        rw [List.getElem?_append_left (by simpa using h)]
        simp [h]
    | succ k =>
      simp only [List.getElem?_cons_succ] at hd
      obtain ⟨i1, i2⟩ := ih k hd
      have e1 : pre (points (e :: ds)) (k + 1) = e.np + pre (points ds) k := by
        simp [points, pre]
      have e2 : pre (sizes (e :: ds)) (k + 1) = e.nv * e.np + pre (sizes ds) k := by
        simp [sizes, pre]
      rw [e1, e2]
      constructor
      · have : pre (varsAt (e :: ds)) (e.np + pre (points ds) k + p)
            = e.nv * e.np + pre (varsAt ds) (pre (points ds) k + p) := by
          simp only [pre, varsAt, List.flatMap_cons, List.take_append, List.length_replicate,
            List.sum_append]
          rw [List.take_of_length_le (by simp; omega)]
          have h2 : e.np + (List.take k (points ds)).sum + p - e.np
              = (List.take k (points ds)).sum + p := by omega
          rw [h2]
          simp [Nat.mul_comm]
        rw [this, i1]; omega
      · intro h
        simp only [varsAt, List.flatMap_cons]
        rw [List.getElem?_append_right (by simp; omega)]
        have h2 : e.np + pre (points ds) k + p - (List.replicate e.np e.nv).length
              = pre (points ds) k + p := by simp; omega
        rw [h2]
        exact i2 h

/-! ### Bandwidth -/

theorem resizeLoop_bw_mono (prev : Option Dom) (ds : List Dom) (t : List Nat × List Nat × Nat × Nat)
    (bw size : Nat) : bw ≤ (resizeLoop prev ds t bw size).2.1 := by
  induction ds generalizing prev t bw size with
  | nil => exact le_rfl
  | cons d ds ih =>
    simp only [resizeLoop]
    refine le_trans ?_ (ih _ _ _ _)
    cases prev with
    | none => exact le_max_left _ _
    | some p => exact le_trans (le_max_left _ _) (le_max_left _ _)

theorem resizeLoop_bw1 (prev : Option Dom) (ds : List Dom) (t : List Nat × List Nat × Nat × Nat)
    (bw size : Nat) (d : Dom) (hd : d ∈ ds) : d.bw1 ≤ (resizeLoop prev ds t bw size).2.1 := by
  induction ds generalizing prev t bw size with
  | nil => simp at hd
  | cons e ds ih =>
    simp only [resizeLoop]
    rcases List.mem_cons.mp hd with h | h
    · subst h
      refine le_trans ?_ (resizeLoop_bw_mono _ _ _ _ _)
      cases prev with
      | none => exact le_max_right _ _
      | some p => exact le_trans (le_max_right _ _) (le_max_left _ _)
    · exact ih _ _ _ _ h

theorem resizeLoop_bw2 (prev : Option Dom) (ds : List Dom) (t : List Nat × List Nat × Nat × Nat)
    (bw size : Nat) (k : Nat) (p d : Dom) (hp : ds[k]? = some p) (hd : ds[k + 1]? = some d) :
    p.bw2 d ≤ (resizeLoop prev ds t bw size).2.1 := by
  induction ds generalizing prev t bw size k with
  | nil => simp at hp
  | cons e ds ih =>
    simp only [resizeLoop]
    simp only [List.getElem?_cons_succ] at hd
    cases k with
    | zero =>
      simp only [List.getElem?_cons_zero, Option.some.injEq] at hp
      subst hp
      cases ds with
      | nil => simp at hd
      | cons f ds =>
        simp only [List.getElem?_cons_zero, Option.some.injEq] at hd
        subst hd
        simp only [resizeLoop]
        refine le_trans ?_ (resizeLoop_bw_mono _ _ _ _ _)
        exact le_max_right _ _
    | succ k =>
      simp only [List.getElem?_cons_succ] at hp
      exact ih _ _ _ _ k hp hd

theorem resizeLoop_bw_le (prev : Option Dom) (ds : List Dom) (t : List Nat × List Nat × Nat × Nat)
    (bw size B : Nat) (h0 : bw ≤ B) (h1 : ∀ d ∈ ds, d.bw1 ≤ B)
    (h2 : ∀ k p d, ds[k]? = some p → ds[k + 1]? = some d → p.bw2 d ≤ B)
    (h3 : ∀ p d, prev = some p → ds[0]? = some d → p.bw2 d ≤ B) :
    (resizeLoop prev ds t bw size).2.1 ≤ B := by
  induction ds generalizing prev t bw size with
  | nil => exact h0
  | cons e ds ih =>
    simp only [resizeLoop]
    apply ih
    · have := h1 e (by simp)
      cases prev with
      | none => exact max_le h0 this
      | some p => exact max_le (max_le h0 this) (h3 p e rfl rfl)
    · intro d hd; exact h1 d (by simp [hd])
    · intro k p d hp hd
      exact h2 (k + 1) p d (by simpa using hp) (by simpa using hd)
    · intro p d hp hd
      cases hp
      exact h2 0 e d rfl (by simpa using hd)

theorem bw2_eq (p d : Dom) (b : Nat) (hb : p.bw2base = b)
    (h1 : 1 ≤ d.nv) (h2 : b + d.nv < two64) : p.bw2 d = b + d.nv - 1 := by
  unfold Dom.bw2
  have e : (d.nv + (two64 - 1)) % two64 = d.nv - 1 := by
    have : d.nv + (two64 - 1) = (d.nv - 1) + two64 := by unfold two64 at *; omega
    rw [this, Nat.add_mod_right, Nat.mod_eq_of_lt (by omega)]
  rw [e, hb]
  rw [Nat.mod_eq_of_lt (by omega)]
  omega

theorem mem_varsAt {ds : List Dom} {x j : Nat} (h : (varsAt ds)[j]? = some x) :
    ∃ d ∈ ds, d.nv = x := by
  have := List.mem_of_getElem? h
  simp only [varsAt, List.mem_flatMap, List.mem_replicate] at this
  obtain ⟨d, hd, _, hx⟩ := this
  exact ⟨d, hd, hx.symm⟩

end Verif.OneDim
