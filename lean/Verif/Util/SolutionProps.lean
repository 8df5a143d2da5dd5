import Verif.Util.Solution

/-!
# Properties of Solution objects (C111)
-/

namespace Verif.Solution

/-- What is accepted, and the result. -/
theorem add_ok {w : World} {me a : ℕ} {s t : Adj} : add w me a s = .ok t ↔
    w.has a = true ∧ s.byName (w.name a) = none ∧ (w.has me = true → w.dim me < w.dim a) ∧
    t.list = s.list ++ [a] ∧ ∀ n, t.byName n = if n = w.name a then some a else s.byName n := by
  unfold add
  split_ifs with h1 h2 h3
  · simp [h1]
  · refine iff_of_false (by simp) ?_
    rintro ⟨-, h, -⟩
    rw [h] at h2
    cases h2
  · refine iff_of_false (by simp) ?_
    rintro ⟨-, -, h, -⟩
    have := h h3.1
    omega
  · have hn : s.byName (w.name a) = none := by simpa using h2
    constructor
    · intro h
      obtain rfl := Outcome.ok.inj h
      refine ⟨by simpa using h1, hn, fun h => ?_, rfl, fun n => ?_⟩
      · by_contra hc
        exact h3 ⟨h, by omega⟩
      · simp only [Function.update_apply]
    · rintro ⟨-, -, -, hl, hb⟩
      congr 1
      cases t
      simp only at hl hb
      rw [hl]
      congr 1
      funext n
      rw [hb n, Function.update_apply]

/-- The table of names and the list agree. -/
def Good (w : World) (s : Adj) : Prop :=
  (s.list.map w.name).Nodup ∧ ∀ n a, s.byName n = some a ↔ a ∈ s.list ∧ w.name a = n

theorem good_empty (w : World) : Good w Adj.empty := by
  refine ⟨by simp [Adj.empty], fun n a => by simp [Adj.empty]⟩

theorem good_add {w : World} {me a : ℕ} {s t : Adj} (hs : Good w s) (h : add w me a s = .ok t) : Good w t := by
  obtain ⟨-, hn, -, hl, hb⟩ := add_ok.1 h
  obtain ⟨h1, h2⟩ := hs
  have hno : ∀ b ∈ s.list, w.name b ≠ w.name a := by
    intro b hb' he
    have := (h2 (w.name a) b).2 ⟨hb', he⟩
    rw [hn] at this
    cases this
  refine ⟨?_, fun n b => ?_⟩
  · rw [hl, List.map_append, List.nodup_append]
    refine ⟨h1, by simp, ?_⟩
    intro x hx y hy
    simp only [List.map_cons, List.map_nil, List.mem_singleton] at hy
    obtain ⟨b, hb', rfl⟩ := List.mem_map.1 hx
    rw [hy]
    exact hno b hb'
  · rw [hb, hl, List.mem_append, List.mem_singleton]
    by_cases hc : n = w.name a
    · rw [if_pos hc]
      constructor
      · intro h
        obtain rfl : a = b := by simpa using h
        exact ⟨Or.inr rfl, hc.symm⟩
      · rintro ⟨h | h, g⟩
        · exact absurd (g.trans hc) (hno b h)
        · rw [h]
    · rw [if_neg hc, h2]
      constructor
      · rintro ⟨h, g⟩
        exact ⟨Or.inl h, g⟩
      · rintro ⟨h | h, g⟩
        · exact ⟨h, g⟩
        · rw [h] at g
          exact absurd g.symm hc

/-- Any number of accepted calls: names differ and lookup by name gives the objects of the list, all of higher
dimension. -/
theorem addAll_good {w : World} {me : ℕ} {l : List ℕ} {s t : Adj} (hs : Good w s) (h : addAll w me l s = .ok t) :
    Good w t ∧ t.list = s.list ++ l ∧ ∀ a ∈ l, w.has a = true ∧ (w.has me = true → w.dim me < w.dim a) := by
  induction l generalizing s with
  | nil =>
    obtain rfl := Outcome.ok.inj h
    exact ⟨hs, by simp, by simp⟩
  | cons a l ih =>
    simp only [addAll] at h
    cases hr : add w me a s with
    | throw => rw [hr] at h; cases h
    | ub => rw [hr] at h; cases h
    | ok r =>
      rw [hr] at h
      obtain ⟨g1, g2, g3⟩ := ih (good_add hs hr) h
      obtain ⟨h1, -, h3, h4, -⟩ := add_ok.1 hr
      refine ⟨g1, ?_, ?_⟩
      · rw [g2, h4]
        simp
      · intro b hb
        rcases List.mem_cons.1 hb with rfl | hb
        · exact ⟨h1, h3⟩
        · exact g3 b hb

theorem adjName_eq {w : World} {s : Adj} {i : ℕ} {n : String} (h : adjName w s i = .ok n) :
    ∃ a, s.list[i]? = some a ∧ w.name a = n := by
  unfold adjName at h
  split at h
  · cases h
  · rename_i a ha
    split_ifs at h
    exact ⟨a, ha, Outcome.ok.inj h⟩

/-- In order: the name of an adjacent phase finds it. -/
theorem adjName_lookup {w : World} {s : Adj} (hs : Good w s) {i : ℕ} {n : String} (h : adjName w s i = .ok n) :
    ∃ a, s.list[i]? = some a ∧ s.byName n = some a := by
  obtain ⟨a, h1, h2⟩ := adjName_eq h
  exact ⟨a, h1, (hs.2 n a).2 ⟨List.mem_of_getElem? h1, h2⟩⟩

/-- A phase renamed after it was added is found by its old name only. -/
theorem renamed {w : World} {me a : ℕ} {s : Adj} (h : add w me a Adj.empty = .ok s) {n : String} (hn : n ≠ w.name a) :
    adjName { w with name := Function.update w.name a n } s 0 = .ok n ∧ s.byName n = none ∧ s.byName (w.name a) = some a := by
  obtain ⟨h1, -, -, hl, hb⟩ := add_ok.1 h
  refine ⟨?_, ?_, ?_⟩
  · unfold adjName
    rw [hl]
    simp [Adj.empty, h1]
  · rw [hb, if_neg hn]
    rfl
  · rw [hb, if_pos rfl]

/-- After such a renaming two adjacent phases can have the same name. -/
theorem renamed_twice {w : World} {me a b : ℕ} {s : Adj} (h : add w me a Adj.empty = .ok s) (hab : a ≠ b)
    (hb : w.has b = true) (hd : w.has me = true → w.dim me < w.dim b) (hn : w.name b ≠ w.name a) :
    ∃ t, add { w with name := Function.update w.name a (w.name b) } me b s = .ok t ∧ t.list = [a, b] := by
  obtain ⟨h1, -, -, hl, hq⟩ := add_ok.1 h
  refine ⟨⟨[a, b], fun n => if n = w.name b then some b else s.byName n⟩, ?_, rfl⟩
  have e : Function.update w.name a (w.name b) b = w.name b := Function.update_of_ne hab.symm _ _
  rw [add_ok]
  refine ⟨hb, ?_, hd, ?_, ?_⟩
  · simp only [e]
    rw [hq, if_neg hn]
    rfl
  · rw [hl]
    rfl
  · intro n
    simp only [e]

/-! ## Managers and callbacks -/

theorem register_eq (id f : ℕ) (m : Man) (j : ℕ) : (register id f m).cb j = (if j = id then some f else m.cb j) ∧
    (remove id m).cb j = (if j = id then none else m.cb j) := by
  constructor
  · simp only [register, Function.update_apply]
  · simp only [remove, Function.update_apply]

/-- Every registered callback is called when a manager changes, none if it is the same object. -/
theorem setKin_eq (k : Option ℕ) (m : Man) : (setKin k m).1.kin = k ∧ (setKin k m).1.cb = m.cb ∧
    (k ≠ m.kin → (setKin k m).2 = m.cb) ∧ (k = m.kin → ∀ j, (setKin k m).2 j = none) := by
  unfold setKin
  split_ifs with h
  · exact ⟨h.symm, rfl, fun g => absurd h g, fun _ _ => rfl⟩
  · exact ⟨rfl, rfl, fun _ => rfl, fun g => absurd g h⟩

theorem setTr_eq (k : Option ℕ) (m : Man) : (setTr k m).1.tr = k ∧ (setTr k m).1.cb = m.cb ∧
    (k ≠ m.tr → (setTr k m).2 = m.cb) ∧ (k = m.tr → ∀ j, (setTr k m).2 j = none) := by
  unfold setTr
  split_ifs with h
  · exact ⟨h.symm, rfl, fun g => absurd h g, fun _ _ => rfl⟩
  · exact ⟨rfl, rfl, fun _ => rfl, fun g => absurd g h⟩

theorem setThermo_eq (t : ℕ) (m : Man) : ∃ r, setThermo (some t) m = .ok (r, m.cb) ∧ r.thermo = some t ∧ r.kin = m.kin ∧
    r.tr = m.tr ∧ r.cb = m.cb := ⟨_, rfl, rfl, rfl, rfl, rfl⟩

/-- A null pointer is accepted for kinetics and transport, but not for thermo. -/
theorem setThermo_null (m : Man) : setThermo none m = .ub := rfl

/-! ## The assumptions can be met -/

/-- A surface (object 0), a gas and a solid. -/
def sample : World := ⟨fun _ => true, fun a => if a = 1 then "gas" else if a = 2 then "solid" else "surf", fun a => if a = 0 then 2 else 3⟩

theorem sample_add : add sample 0 1 Adj.empty = .ok ⟨[1], Function.update (fun _ => none) "gas" (some 1)⟩ := rfl

example : ∃ t, add { sample with name := Function.update sample.name 1 "solid" } 0 2
    ⟨[1], Function.update (fun _ => none) "gas" (some 1)⟩ = .ok t ∧ t.list = [1, 2] :=
  renamed_twice sample_add (by decide) rfl (fun _ => by decide) (by decide)

example : ∃ t, addAll sample 0 [1, 2] Adj.empty = .ok t ∧ t.list = [1, 2] := ⟨_, rfl, rfl⟩

example : add sample 0 0 Adj.empty = .throw := rfl

end Verif.Solution
