import Verif.Kinetics.SolveSPProps

/-!
# C99: theorems on the iteration of solveSP and its result
-/

namespace Verif.SolveSP

open Verif

variable {ifunc : ℕ} {ts : ℝ} {o : ℕ → Obs}

/-- The flag: failure exactly for a last update norm above one; a norm that is not a number is success. -/
theorem ret_spec (s : LSt) : (ret s = -1 ↔ ∃ u, s.upd = some u ∧ 1 < u) ∧ (ret s = 1 ∨ ret s = -1) := by
  classical
  unfold ret
  constructor
  · split_ifs with h
    · exact ⟨fun _ => h, fun _ => rfl⟩
    · exact ⟨fun q => absurd q (by norm_num), fun q => absurd q h⟩
  · split_ifs <;> simp

/-- Nothing to solve. -/
theorem run_empty : (run ifunc 0 ts o).notConv = false ∧ (run ifunc 0 ts o).iter = 0 ∧ ret (run ifunc 0 ts o) = 1 := by
  classical
  have e : run ifunc 0 ts o = startSt ifunc 0 := by
    unfold run
    rw [show (1000 : ℕ) = 999 + 1 from rfl, loop, if_neg (by simp [startSt])]
  rw [e]
  refine ⟨by simp [startSt], rfl, ?_⟩
  have h := (ret_spec (startSt ifunc 0)).1.not.2 (by
    rintro ⟨u, h1, h2⟩
    simp only [startSt, if_true, Option.some.injEq] at h1
    linarith)
  exact (ret_spec _).2.resolve_right h

/-- A property kept by every pass holds at the end. -/
theorem loop_inv {I : LSt → Prop} (hs : ∀ s, s.notConv = true → I s → I (step ifunc ts (o s.iter) s)) :
    ∀ n s, I s → I (loop ifunc ts o n s) := by
  intro n
  induction n with
  | zero => intro s h; exact h
  | succ n ih =>
    intro s h
    rw [loop]
    split_ifs with q
    · exact ih _ (hs s q h)
    · exact h

theorem step_iter (x : Obs) (s : LSt) : (step ifunc ts x s).iter = s.iter + 1 := by
  unfold step
  simp only
  by_cases h4 : ifunc = 4
  · rw [if_pos h4]
  · rw [if_neg h4]
    cases s.time
    · rfl
    · simp only [if_true, apply_ite LSt.iter, ite_self]

theorem step_upd (x : Obs) (s : LSt) : (step ifunc ts x s).upd = x.upd := by
  unfold step
  simp only
  by_cases h4 : ifunc = 4
  · rw [if_pos h4]
  · rw [if_neg h4]
    cases s.time
    · rfl
    · simp only [if_true, apply_ite LSt.upd, ite_self]

theorem loop_iter (n : ℕ) (s : LSt) : (loop ifunc ts o n s).iter ≤ s.iter + n ∧
    ((loop ifunc ts o n s).notConv = true → (loop ifunc ts o n s).iter = s.iter + n) := by
  induction n generalizing s with
  | zero => exact ⟨le_refl _, fun _ => rfl⟩
  | succ n ih =>
    rw [loop]
    split_ifs with q
    · obtain ⟨h1, h2⟩ := ih (step ifunc ts (o s.iter) s)
      rw [step_iter] at h1 h2
      exact ⟨by omega, fun h => by rw [h2 h]; omega⟩
    · exact ⟨by omega, fun h => absurd h q⟩

/-- At most 1000 passes, and exactly 1000 if the iteration did not converge. -/
theorem run_iter (neq : ℕ) : (run ifunc neq ts o).iter ≤ 1000 ∧
    ((run ifunc neq ts o).notConv = true → (run ifunc neq ts o).iter = 1000) := by
  have h := loop_iter (ifunc := ifunc) (ts := ts) (o := o) 1000 (startSt ifunc neq)
  simpa [run, startSt] using h

/-- What is known of the last pass when a steady problem has converged. -/
def Good (ifunc : ℕ) (o : ℕ → Obs) (s : LSt) : Prop :=
  s.notConv = false → s.time = false ∧ 0 < s.iter ∧ s.upd = (o (s.iter - 1)).upd ∧
    (∀ u, (o (s.iter - 1)).upd = some u → u ≤ extra ifunc) ∧ ∀ r, (o (s.iter - 1)).res = some r → r ≤ extra ifunc

theorem step_good (h4 : ifunc ≠ 4) (s : LSt) (hn : s.notConv = true) : Good ifunc o (step ifunc ts (o s.iter) s) := by
  classical
  intro h
  unfold step at h ⊢
  simp only [if_neg h4] at h ⊢
  by_cases ht : s.time = true
  · simp only [ht, if_true] at h
    split_ifs at h <;> simp [hn] at h
  · simp only [ht, if_false, Bool.false_eq_true] at h ⊢
    have h' := of_decide_eq_false h
    refine ⟨by simp, by omega, rfl, fun u hu => ?_, fun r hr => ?_⟩
    · simp only [Nat.add_sub_cancel] at hu
      by_contra hc
      exact h' (.inl ⟨u, hu, not_le.1 hc⟩)
    · simp only [Nat.add_sub_cancel] at hr
      by_contra hc
      exact h' (.inr ⟨r, hr, not_le.1 hc⟩)

/-- Steady problems: if the iteration converged then the last pass was a steady one, its norms are at most
0.001 (1e-6 for a Jacobian) where they are numbers, and success is returned. -/
theorem converged {neq : ℕ} (h4 : ifunc ≠ 4) (hneq : neq ≠ 0) (h : (run ifunc neq ts o).notConv = false) :
    (run ifunc neq ts o).time = false ∧ 0 < (run ifunc neq ts o).iter ∧
    (∀ u, (o ((run ifunc neq ts o).iter - 1)).upd = some u → u ≤ if ifunc = 3 then 1e-6 else 1e-3) ∧
    (∀ r, (o ((run ifunc neq ts o).iter - 1)).res = some r → r ≤ if ifunc = 3 then 1e-6 else 1e-3) ∧
    ret (run ifunc neq ts o) = 1 := by
  have hi : Good ifunc o (run ifunc neq ts o) :=
    loop_inv (I := Good ifunc o) (fun s hn _ => step_good h4 s hn) 1000 _ (by simp [Good, startSt, hneq])
  obtain ⟨g1, g2, g3, g4, g5⟩ := hi h
  have he : extra ifunc = if ifunc = 3 then 1e-6 else 1e-3 := by
    unfold extra
    split_ifs <;> norm_num
  have he1 : extra ifunc ≤ 1e-3 := by
    rw [he]
    split_ifs <;> norm_num
  refine ⟨g1, g2, fun u hu => he ▸ g4 u hu, fun r hr => he ▸ g5 r hr, ?_⟩
  refine (ret_spec _).2.resolve_right fun hc => ?_
  obtain ⟨u, h1, h2⟩ := (ret_spec _).1.1 hc
  have := g4 u (g3 ▸ h1)
  linarith

theorem step_steady (h4 : ifunc ≠ 4) {s : LSt} (ht : s.time = false) (x : Obs) :
    (step ifunc ts x s).time = false ∧
    ((step ifunc ts x s).notConv = true ↔ gt x.upd (extra ifunc) ∨ gt x.res (extra ifunc)) := by
  classical
  unfold step
  simp only [if_neg h4, ht, Bool.false_eq_true, if_false, decide_eq_true_eq]
  trivial

theorem startSt_steady (h : ifunc = 2 ∨ ifunc = 3) (neq : ℕ) : (startSt ifunc neq).time = false := by
  rcases h with rfl | rfl <;> simp [startSt]

/-- A steady problem whose residual never becomes small returns success after 1000 passes, if only the last
update is at most as large as its weight. -/
theorem success_unconverged {neq : ℕ} (h : ifunc = 2 ∨ ifunc = 3) (hneq : neq ≠ 0)
    (ho : ∀ i, (o i).res = some 1 ∧ (o i).upd = some 0.5) :
    (run ifunc neq ts o).notConv = true ∧ (run ifunc neq ts o).iter = 1000 ∧ ret (run ifunc neq ts o) = 1 := by
  have h4 : ifunc ≠ 4 := by omega
  have he : extra ifunc < 1 := by
    unfold extra
    split_ifs <;> norm_num
  have hI : (run ifunc neq ts o).notConv = true ∧ (run ifunc neq ts o).time = false ∧
      ((run ifunc neq ts o).iter = 0 ∨ (run ifunc neq ts o).upd = some 0.5) := by
    refine loop_inv (I := fun s => s.notConv = true ∧ s.time = false ∧ (s.iter = 0 ∨ s.upd = some 0.5)) ?_ 1000 _ ?_
    · rintro s hn ⟨-, h2, -⟩
      obtain ⟨g1, g2⟩ := step_steady (ts := ts) h4 h2 (o s.iter)
      exact ⟨g2.2 (.inr ⟨1, (ho _).1, he⟩), g1, .inr (by rw [step_upd]; exact (ho _).2)⟩
    · exact ⟨by simp [startSt, hneq], startSt_steady h neq, .inl rfl⟩
  have hit := (run_iter (ts := ts) (o := o) (ifunc := ifunc) neq).2 hI.1
  refine ⟨hI.1, hit, (ret_spec _).2.resolve_right fun hc => ?_⟩
  obtain ⟨u, h1, h2⟩ := (ret_spec _).1.1 hc
  rcases hI.2.2 with h3 | h3
  · omega
  · rw [h3, Option.some.injEq] at h1
    rw [← h1] at h2
    norm_num at h2

/-- A steady problem whose first pass gives norms that are not numbers ends there with success. -/
theorem nan_success {neq : ℕ} (h : ifunc = 2 ∨ ifunc = 3) (hneq : neq ≠ 0)
    (ho : (o 0).res = none ∧ (o 0).upd = none) :
    (run ifunc neq ts o).notConv = false ∧ (run ifunc neq ts o).iter = 1 ∧ ret (run ifunc neq ts o) = 1 := by
  have h4 : ifunc ≠ 4 := by omega
  obtain ⟨g1, g2⟩ := step_steady (ts := ts) h4 (startSt_steady h neq) (o 0)
  have hn : (step ifunc ts (o 0) (startSt ifunc neq)).notConv = false := by
    rw [← Bool.not_eq_true, g2]
    rintro (⟨x, h1, -⟩ | ⟨x, h1, -⟩)
    · rw [ho.2] at h1
      exact absurd h1 (by simp)
    · rw [ho.1] at h1
      exact absurd h1 (by simp)
  have e : run ifunc neq ts o = step ifunc ts (o 0) (startSt ifunc neq) := by
    unfold run
    rw [show (1000 : ℕ) = 998 + 1 + 1 from rfl, loop, if_pos (by simp [startSt, hneq]), loop]
    rw [if_neg (by rw [show (startSt ifunc neq).iter = 0 from rfl, hn]; simp)]
    rfl
  rw [e]
  refine ⟨hn, by rw [step_iter]; rfl, (ret_spec _).2.resolve_right fun hc => ?_⟩
  obtain ⟨u, h1, -⟩ := (ret_spec _).1.1 hc
  rw [step_upd, ho.2] at h1
  exact absurd h1 (by simp)

/-! ## Integration in time -/

theorem nextInvT_pos {tmp : ℝ} {s : LSt} (h0 : 0 < tmp) (hi : s.iter = 0 ∨ 0 < s.invT) (ht : s.tReal < ts)
    (htime : s.time = true) : 0 < nextInvT 4 ts tmp (s.iter + 1) s ∧
      1 / nextInvT 4 ts tmp (s.iter + 1) s ≤ ts - s.tReal := by
  have ha : 0 < (if s.iter + 1 < 10 then tmp else if 2 * s.invT < tmp then 2 * s.invT else tmp) := by
    split_ifs with h1 h2
    · exact h0
    · rcases hi with hi | hi
      · omega
      · linarith
    · exact h0
  have hd : 0 < ts - s.tReal := by linarith
  unfold nextInvT
  simp only [htime, if_true]
  generalize (if s.iter + 1 < 10 then tmp else if 2 * s.invT < tmp then 2 * s.invT else tmp) = a at *
  split_ifs with h
  · exact ⟨by positivity, by rw [one_div_one_div]⟩
  · refine ⟨ha, ?_⟩
    by_contra hc
    exact h ⟨trivial, by linarith⟩

/-- State of an integration in time. -/
def Tr (ts : ℝ) (s : LSt) : Prop :=
  s.time = true ∧ (s.iter = 0 ∨ 0 < s.invT) ∧ 0 ≤ s.tReal ∧ s.tReal ≤ ts ∧
    (s.notConv = true → s.tReal < ts) ∧ (s.notConv = false → s.tReal = ts)

theorem step_tr {x : Obs} {s : LSt} (hx : 0 < x.tmp) (hd : 0 ≤ x.damp ∧ x.damp ≤ 1) (hn : s.notConv = true)
    (h : Tr ts s) : Tr ts (step 4 ts x s) := by
  classical
  obtain ⟨h1, h2, h3, h4, h5, h6⟩ := h
  have hlt := h5 hn
  obtain ⟨p1, p2⟩ := nextInvT_pos hx h2 hlt h1
  have hstep : x.damp / nextInvT 4 ts x.tmp (s.iter + 1) s ≤ ts - s.tReal := by
    refine le_trans ?_ p2
    exact div_le_div_of_nonneg_right hd.2 p1.le
  have hnn : 0 ≤ x.damp / nextInvT 4 ts x.tmp (s.iter + 1) s := div_nonneg hd.1 p1.le
  unfold step Tr
  simp only [if_true, h1, decide_eq_true_eq, decide_eq_false_iff_not, not_lt, true_and]
  exact ⟨.inr p1, by linarith, by linarith, fun q => q, fun q => le_antisymm (by linarith) q⟩

/-- Integration in time never passes the end; it converges exactly at the end. -/
theorem transient {neq : ℕ} (hneq : neq ≠ 0) (hts : 0 < ts)
    (ho : ∀ i, 0 < (o i).tmp ∧ 0 ≤ (o i).damp ∧ (o i).damp ≤ 1) :
    0 ≤ (run 4 neq ts o).tReal ∧ (run 4 neq ts o).tReal ≤ ts ∧
    ((run 4 neq ts o).notConv = false ↔ (run 4 neq ts o).tReal = ts) := by
  have h : Tr ts (run 4 neq ts o) :=
    loop_inv (I := Tr ts) (fun s hn hs => step_tr (ho _).1 (ho _).2 hn hs) 1000 _
      (by simp [Tr, startSt, hneq, hts, hts.le])
  obtain ⟨h1, h2, h3, h4, h5, h6⟩ := h
  refine ⟨h3, h4, h6, fun q => ?_⟩
  by_contra hc
  have := h5 (by simpa using hc)
  linarith

/-- As long as steps are damped the end is never reached: after 1000 passes the call returns, with success if
the last update is small. -/
theorem transient_damped {neq : ℕ} (hneq : neq ≠ 0) (hts : 0 < ts)
    (ho : ∀ i, 0 < (o i).tmp ∧ 0 ≤ (o i).damp ∧ (o i).damp < 1 ∧ (o i).upd = some 0.5) :
    (run 4 neq ts o).tReal < ts ∧ (run 4 neq ts o).iter = 1000 ∧ ret (run 4 neq ts o) = 1 := by
  classical
  have h : Tr ts (run 4 neq ts o) ∧ (run 4 neq ts o).notConv = true ∧
      ((run 4 neq ts o).iter = 0 ∨ (run 4 neq ts o).upd = some 0.5) := by
    refine loop_inv (I := fun s => Tr ts s ∧ s.notConv = true ∧ (s.iter = 0 ∨ s.upd = some 0.5)) ?_ 1000 _
      (by simp [Tr, startSt, hneq, hts, hts.le])
    rintro s hn ⟨hs, -, -⟩
    have hx := ho s.iter
    refine ⟨step_tr hx.1 ⟨hx.2.1, hx.2.2.1.le⟩ hn hs, ?_, .inr (by rw [step_upd]; exact hx.2.2.2)⟩
    obtain ⟨h1, h2, h3, h4, h5, h6⟩ := hs
    obtain ⟨p1, p2⟩ := nextInvT_pos hx.1 h2 (h5 hn) h1
    have : (o s.iter).damp / nextInvT 4 ts (o s.iter).tmp (s.iter + 1) s < ts - s.tReal := by
      refine lt_of_lt_of_le ?_ p2
      exact div_lt_div_of_pos_right hx.2.2.1 p1
    unfold step
    simp only [if_true, h1, decide_eq_true_eq]
    linarith
  obtain ⟨⟨-, -, -, -, h5, -⟩, hn, hu⟩ := h
  have hit := (run_iter (ts := ts) (o := o) (ifunc := 4) neq).2 hn
  refine ⟨h5 hn, hit, (ret_spec _).2.resolve_right fun hc => ?_⟩
  obtain ⟨u, h1, h2⟩ := (ret_spec _).1.1 hc
  rcases hu with h3 | h3
  · omega
  · rw [h3, Option.some.injEq] at h1
    rw [← h1] at h2
    norm_num at h2

/-- From pass ten on the inverse time step at most doubles, and without time integration it is 1e-6. -/
theorem invT_growth {tmp : ℝ} {iter : ℕ} {s : LSt} :
    (s.time = true → ifunc ≠ 4 → nextInvT ifunc ts tmp iter s = if iter < 10 then tmp else min tmp (2 * s.invT)) ∧
    (s.time = false → nextInvT ifunc ts tmp iter s = 1e-6) := by
  unfold nextInvT
  constructor
  · intro h h4
    simp only [h, if_true, h4, false_and, if_false]
    split_ifs with h1 h2
    · rfl
    · rw [min_eq_right h2.le]
    · rw [min_eq_left (not_lt.1 h2)]
  · intro h
    simp [h]

/-- An initialisation starts with time steps and leaves them when the time is over, or when the residual is
below 1e-7 and the update per time is small; it never goes back. -/
theorem initialize_switch {s : LSt} (x : Obs) (h4 : ifunc ≠ 4) (ht : s.time = true) (h0 : s.notConv = true) :
    (step ifunc ts x s).notConv = true ∧
    ((step ifunc ts x s).time = false ↔
      ts < (step ifunc ts x s).tReal ∨ ((∃ r, x.res = some r ∧ r < 1e-7) ∧
        ∃ u, x.upd = some u ∧ u * ts / (step ifunc ts x s).tReal < if ifunc = 3 then 1e-6 else 1e-3)) ∧
    (step ifunc ts x s).tReal = s.tReal + x.damp / (step ifunc ts x s).invT := by
  classical
  have he : extra ifunc = if ifunc = 3 then 1e-6 else 1e-3 := by
    unfold extra
    split_ifs <;> norm_num
  rw [← he]
  unfold step
  simp only [if_neg h4, ht, if_true]
  generalize hT : s.tReal + x.damp / nextInvT ifunc ts x.tmp (s.iter + 1) s = T
  have hlt : lt (x.upd.map fun u => u * ts / T) (extra ifunc) ↔ ∃ u, x.upd = some u ∧ u * ts / T < extra ifunc := by
    unfold lt
    constructor
    · rintro ⟨y, h1, h2⟩
      obtain ⟨u, h3, rfl⟩ := Option.map_eq_some_iff.1 h1
      exact ⟨u, h3, h2⟩
    · rintro ⟨u, h1, h2⟩
      exact ⟨_, by rw [h1]; rfl, h2⟩
  by_cases q : ts < T ∨ (lt x.res 1e-7 ∧ lt (x.upd.map fun u => u * ts / T) (extra ifunc))
  · rw [if_pos q]
    rw [hlt] at q
    exact ⟨h0, ⟨fun _ => q, fun _ => rfl⟩, hT.symm⟩
  · rw [if_neg q]
    rw [hlt] at q
    exact ⟨h0, ⟨fun h => absurd h (by simp), fun h => absurd h q⟩, hT.symm⟩

theorem time_never_returns (h4 : ifunc ≠ 4) {s : LSt} (ht : s.time = false) (n : ℕ) :
    (loop ifunc ts o n s).time = false :=
  loop_inv (I := fun s => s.time = false) (fun _ _ h => (step_steady h4 h _).1) n s ht

/-- Which calls start with time steps. -/
theorem startSt_time (neq : ℕ) : (startSt ifunc neq).time = true ↔ ifunc = 1 ∨ ifunc = 4 := by
  simp [startSt]

example : (run 2 1 1 fun _ => { tmp := 1, damp := 1, upd := some 0, res := some 0 }).notConv = false := by
  have h4 : (2 : ℕ) ≠ 4 := by norm_num
  unfold run
  rw [show (1000 : ℕ) = 998 + 1 + 1 from rfl, loop, if_pos (by simp [startSt]), loop]
  have hn : (step 2 1 { tmp := 1, damp := 1, upd := some 0, res := some 0 } (startSt 2 1)).notConv = false := by
    rw [← Bool.not_eq_true, (step_steady h4 (startSt_steady (.inl rfl) 1) _).2]
    rintro (⟨x, h1, h2⟩ | ⟨x, h1, h2⟩) <;> (simp only [Option.some.injEq] at h1; rw [← h1] at h2; norm_num [extra] at h2)
  rw [if_neg (by rw [hn]; simp)]
  exact hn

end Verif.SolveSP
