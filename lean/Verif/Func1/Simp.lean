import Verif.Func1.Model
import Mathlib.Tactic.Linarith
import Mathlib.Tactic.FieldSimp
import Mathlib.Tactic.Ring
import Mathlib.Tactic.NormNum
import Mathlib.Tactic.SplitIfs

/-!
# Simplification preserves values (C19)
-/

namespace Verif.Func1

/-! ## Powers -/

theorem powE_pos {c t : ℝ} (h : 0 < t) : powE c t = some (t ^ c) := by
  unfold powE; rw [if_pos h]

theorem powE_zero (c : ℝ) : powE c 0 = if 0 < c then some 0 else if c = 0 then some 1 else none := by
  unfold powE; rw [if_neg (lt_irrefl 0), if_pos rfl]

theorem powE_neg_int {t : ℝ} (h : t < 0) (n : ℤ) : powE n t = some (t ^ n) := by
  unfold powE
  have hex : ∃ m : ℤ, (n : ℝ) = m := ⟨n, rfl⟩
  rw [if_neg (not_lt.mpr h.le), if_neg h.ne, dif_pos hex]
  have := hex.choose_spec
  have h2 : hex.choose = n := by exact_mod_cast this.symm
  rw [h2]

theorem powE_neg {c t v : ℝ} (h : t < 0) (hv : powE c t = some v) :
    ∃ n : ℤ, c = n ∧ v = t ^ n := by
  by_cases hex : ∃ n : ℤ, c = n
  · obtain ⟨n, rfl⟩ := hex
    rw [powE_neg_int h, Option.some.injEq] at hv
    exact ⟨n, rfl, hv.symm⟩
  · unfold powE at hv
    rw [if_neg (not_lt.mpr h.le), if_neg h.ne, dif_neg hex] at hv
    cases hv

theorem powE_zero_some {c v : ℝ} (hv : powE c 0 = some v) : (0 < c ∧ v = 0) ∨ (c = 0 ∧ v = 1) := by
  rw [powE_zero] at hv
  split_ifs at hv with h1 h2
  · left; exact ⟨h1, (Option.some.inj hv).symm⟩
  · right; exact ⟨h2, (Option.some.inj hv).symm⟩

theorem powE_one (t : ℝ) : powE 1 t = some t := by
  rcases lt_trichotomy t 0 with h | h | h
  · have := powE_neg_int h 1
    simpa using this
  · subst h; rw [powE_zero, if_pos one_pos]
  · rw [powE_pos h, Real.rpow_one]

theorem powE_exp_zero (t : ℝ) : powE 0 t = some 1 := by
  rcases lt_trichotomy t 0 with h | h | h
  · have := powE_neg_int h 0
    simpa using this
  · subst h; rw [powE_zero, if_neg (lt_irrefl 0), if_pos rfl]
  · rw [powE_pos h, Real.rpow_zero]

theorem powE_add {c d t a b : ℝ} (ha : powE c t = some a) (hb : powE d t = some b) :
    powE (c + d) t = some (a * b) := by
  rcases lt_trichotomy t 0 with h | h | h
  · obtain ⟨m, rfl, rfl⟩ := powE_neg h ha
    obtain ⟨n, rfl, rfl⟩ := powE_neg h hb
    rw [← zpow_add₀ h.ne, ← Int.cast_add]
    exact powE_neg_int h _
  · subst h
    rcases powE_zero_some ha with ⟨h1, rfl⟩ | ⟨rfl, rfl⟩ <;>
      rcases powE_zero_some hb with ⟨h2, rfl⟩ | ⟨rfl, rfl⟩
    · rw [powE_zero, if_pos (by linarith), mul_zero]
    · rw [powE_zero, if_pos (by linarith), zero_mul]
    · rw [powE_zero, if_pos (by linarith), mul_zero]
    · rw [add_zero, mul_one]; exact powE_exp_zero 0
  · rw [powE_pos h, Option.some.injEq] at ha hb
    subst ha hb
    rw [powE_pos h, Real.rpow_add h]

theorem powE_sub {c d t a b : ℝ} (ha : powE c t = some a) (hb : powE d t = some b) (hb0 : b ≠ 0) :
    powE (c - d) t = some (a / b) := by
  rcases lt_trichotomy t 0 with h | h | h
  · obtain ⟨m, rfl, rfl⟩ := powE_neg h ha
    obtain ⟨n, rfl, rfl⟩ := powE_neg h hb
    rw [← zpow_sub₀ h.ne, ← Int.cast_sub]
    exact powE_neg_int h _
  · subst h
    rcases powE_zero_some hb with ⟨_, rfl⟩ | ⟨rfl, rfl⟩
    · exact absurd rfl hb0
    · rw [sub_zero, div_one]; exact ha
  · rw [powE_pos h, Option.some.injEq] at ha hb
    subst ha hb
    rw [powE_pos h, Real.rpow_sub h]

/-- A power of a power is the power with the product of the exponents unless the argument is
negative and the outer exponent is not an integer. -/
theorem powE_comp {c d t u v : ℝ} (hc : 0 ≤ t ∨ ∃ n : ℤ, c = n) (hu : powE d t = some u)
    (hv : powE c u = some v) : powE (c * d) t = some v := by
  rcases lt_trichotomy t 0 with h | h | h
  · rcases hc with hc | ⟨m, rfl⟩
    · exact absurd hc (not_le.mpr h)
    · obtain ⟨n, rfl, rfl⟩ := powE_neg h hu
      have hne : t ^ n ≠ 0 := zpow_ne_zero n h.ne
      have : v = (t ^ n) ^ m := by
        rcases lt_or_gt_of_ne hne with h1 | h1
        · rw [powE_neg_int h1, Option.some.injEq] at hv
          exact hv.symm
        · rw [powE_pos h1, Option.some.injEq, Real.rpow_intCast] at hv
          exact hv.symm
      rw [this, ← zpow_mul, mul_comm n m, ← Int.cast_mul]
      exact powE_neg_int h _
  · subst h
    rcases powE_zero_some hu with ⟨h1, rfl⟩ | ⟨rfl, rfl⟩
    · rcases powE_zero_some hv with ⟨h2, rfl⟩ | ⟨rfl, rfl⟩
      · rw [powE_zero, if_pos (mul_pos h2 h1)]
      · rw [zero_mul]; exact powE_exp_zero 0
    · rw [powE_pos one_pos, Option.some.injEq, Real.one_rpow] at hv
      rw [mul_zero, ← hv]; exact powE_exp_zero 0
  · rw [powE_pos h, Option.some.injEq] at hu
    subst hu
    rw [powE_pos (Real.rpow_pos_of_pos h d), Option.some.injEq] at hv
    rw [powE_pos h, mul_comm, Real.rpow_mul h.le, hv]

/-! ## Evaluation of the raw nodes -/

theorem lift2_some {op : ℝ → ℝ → ℝ} {x y : Option ℝ} {v : ℝ} :
    lift2 op x y = some v ↔ ∃ a b, x = some a ∧ y = some b ∧ op a b = v := by
  cases x <;> cases y <;> simp [lift2]

theorem divE_some {x y : Option ℝ} {v : ℝ} :
    divE x y = some v ↔ ∃ a b, x = some a ∧ y = some b ∧ b ≠ 0 ∧ a / b = v := by
  cases x <;> cases y <;> simp [divE]

theorem lift1_some {op : ℝ → Option ℝ} {x : Option ℝ} {v : ℝ} :
    lift1 op x = some v ↔ ∃ a, x = some a ∧ op a = some v := by
  cases x <;> simp [lift1]

theorem eval_sum {f g : F} {t v : ℝ} : eval (.sum f g) t = some v ↔
    ∃ a b, eval f t = some a ∧ eval g t = some b ∧ a + b = v := by
  rw [eval]; exact lift2_some

theorem eval_diff {f g : F} {t v : ℝ} : eval (.diff f g) t = some v ↔
    ∃ a b, eval f t = some a ∧ eval g t = some b ∧ a - b = v := by
  rw [eval]; exact lift2_some

theorem eval_prod {f g : F} {t v : ℝ} : eval (.prod f g) t = some v ↔
    ∃ a b, eval f t = some a ∧ eval g t = some b ∧ a * b = v := by
  rw [eval]; exact lift2_some

theorem eval_ratio {f g : F} {t v : ℝ} : eval (.ratio f g) t = some v ↔
    ∃ a b, eval f t = some a ∧ eval g t = some b ∧ b ≠ 0 ∧ a / b = v := by
  rw [eval]; exact divE_some

theorem eval_comp {f g : F} {t v : ℝ} : eval (.comp f g) t = some v ↔
    ∃ a, eval g t = some a ∧ eval f a = some v := by
  rw [eval]; exact lift1_some

theorem eval_times {f : F} {c t v : ℝ} : eval (.times f c) t = some v ↔
    ∃ a, eval f t = some a ∧ a * c = v := by
  rw [eval]; simp

theorem eval_plus {f : F} {c t v : ℝ} : eval (.plus f c) t = some v ↔
    ∃ a, eval f t = some a ∧ a + c = v := by
  rw [eval]; simp

theorem const?_some {f : F} {c : ℝ} (h : f.const? = some c) : f = .const c := by
  cases f <;> simp [F.const?] at h
  subst h; rfl

theorem pow?_some {f : F} {c : ℝ} (h : f.pow? = some c) : f = .pow c := by
  cases f <;> simp [F.pow?] at h
  subst h; rfl

theorem exp?_some {f : F} {c : ℝ} (h : f.exp? = some c) : f = .exp c := by
  cases f <;> simp [F.exp?] at h
  subst h; rfl

theorem times?_some {f g : F} {c : ℝ} (h : f.times? = some (g, c)) : f = .times g c := by
  cases f <;> simp [F.times?] at h
  obtain ⟨rfl, rfl⟩ := h; rfl

/-- Functors reported as identical are equal trees. -/
theorem ident_eq : ∀ f g : F, ident f g → f = g := by
  intro f
  induction f with
  | sin c => intro g h; cases g <;> simp [ident] at h ⊢; exact h
  | cos c => intro g h; cases g <;> simp [ident] at h ⊢; exact h
  | exp c => intro g h; cases g <;> simp [ident] at h ⊢; exact h
  | log c => intro g h; cases g <;> simp [ident] at h ⊢; exact h
  | pow c => intro g h; cases g <;> simp [ident] at h ⊢; exact h
  | const c => intro g h; cases g <;> simp [ident] at h ⊢; exact h
  | tab b => intro g h; simp [ident] at h
  | ext b => intro g h; simp [ident] at h
  | bad b => intro g h; simp [ident] at h
  | sum a b iha ihb =>
    intro g h; cases g <;> simp [ident] at h ⊢; exact ⟨iha _ h.1, ihb _ h.2⟩
  | diff a b iha ihb =>
    intro g h; cases g <;> simp [ident] at h ⊢; exact ⟨iha _ h.1, ihb _ h.2⟩
  | prod a b iha ihb =>
    intro g h; cases g <;> simp [ident] at h ⊢; exact ⟨iha _ h.1, ihb _ h.2⟩
  | ratio a b iha ihb =>
    intro g h; cases g <;> simp [ident] at h ⊢; exact ⟨iha _ h.1, ihb _ h.2⟩
  | comp a b iha ihb =>
    intro g h; cases g <;> simp [ident] at h ⊢; exact ⟨iha _ h.1, ihb _ h.2⟩
  | times a c iha => intro g h; cases g <;> simp [ident] at h ⊢; exact ⟨iha _ h.2, h.1⟩
  | plus a c iha => intro g h; cases g <;> simp [ident] at h ⊢; exact ⟨iha _ h.2, h.1⟩
  | periodic a c iha => intro g h; cases g <;> simp [ident] at h ⊢; exact ⟨iha _ h.2, h.1⟩

example : ident (.sum (.sin 2) (.pow 3)) (.sum (.sin 2) (.pow 3)) := by simp [ident]

/-! ## The simplifying constructors -/

/-- Scaling by a constant. -/
theorem newTimes_value {f : F} {c t v : ℝ} (h : eval (.times f c) t = some v) :
    eval (newTimes f c) t = some v := by
  obtain ⟨a, ha, rfl⟩ := eval_times.mp h
  unfold newTimes
  by_cases h0 : c = 0
  · rw [if_pos h0, h0, mul_zero, eval]
  · rw [if_neg h0]
    by_cases h1 : c = 1
    · rw [if_pos h1, h1, mul_one, ha]
    · rw [if_neg h1]
      cases f with
      | times g d =>
        obtain ⟨b, hb, rfl⟩ := eval_times.mp ha
        exact eval_times.mpr ⟨b, hb, by ring⟩
      | _ => exact eval_times.mpr ⟨a, ha, rfl⟩

example : eval (.times (.times (.const 2) 3) 4) 0 = some 24 := by
  simp [eval]; norm_num

/-- Adding a constant. -/
theorem newPlus_value {f : F} {c t v : ℝ} (h : eval (.plus f c) t = some v) :
    eval (newPlus f c) t = some v := by
  obtain ⟨a, ha, rfl⟩ := eval_plus.mp h
  unfold newPlus
  by_cases h0 : c = 0
  · rw [if_pos h0, h0, add_zero, ha]
  · rw [if_neg h0]
    cases f with
    | const d =>
      rw [eval, Option.some.injEq] at ha
      subst ha
      exact rfl
    | plus g d =>
      obtain ⟨b, hb, rfl⟩ := eval_plus.mp ha
      exact eval_plus.mpr ⟨b, hb, by ring⟩
    | _ => exact eval_plus.mpr ⟨a, ha, rfl⟩

example : eval (.plus (.const 2) 4) 0 = some 6 := by
  simp [eval]; norm_num

/-- What `isProportional` reports: the second functor is the first one times `c`, wherever both
have values. -/
theorem proportional_value {f g : F} {c t a b : ℝ} (h : proportional f g = some (some c))
    (ha : eval f t = some a) (hb : eval g t = some b) : b = a * c := by
  unfold proportional at h
  rcases hf : f.times? with _ | ⟨f', cf⟩ <;> rcases hg : g.times? with _ | ⟨g', cg⟩ <;>
    rw [hf, hg] at h <;> simp only at h
  · split_ifs at h with h1
    · have := ident_eq _ _ h1
      subst this
      simp only [Option.some.injEq] at h
      rw [ha, Option.some.injEq] at hb
      rw [← h, mul_one, hb]
  · split_ifs at h with h1
    · have := ident_eq _ _ h1
      subst this
      simp only [Option.some.injEq] at h
      rw [times?_some hg] at hb
      obtain ⟨x, hx, rfl⟩ := eval_times.mp hb
      rw [ha, Option.some.injEq] at hx
      rw [hx, h]
  · split_ifs at h with h1
    · have := ident_eq _ _ h1
      subst this
      rw [times?_some hf] at ha
      obtain ⟨x, hx, rfl⟩ := eval_times.mp ha
      rw [hb, Option.some.injEq] at hx
      subst hx
      simp only [Option.some.injEq, quot] at h
      split_ifs at h with h2
      rw [Option.some.injEq] at h
      subst h
      field_simp
  · split_ifs at h with h1
    · have := ident_eq _ _ h1
      subst this
      rw [times?_some hf] at ha
      rw [times?_some hg] at hb
      obtain ⟨x, hx, rfl⟩ := eval_times.mp ha
      obtain ⟨y, hy, rfl⟩ := eval_times.mp hb
      rw [hx, Option.some.injEq] at hy
      subst hy
      simp only [Option.some.injEq, quot] at h
      split_ifs at h with h2
      rw [Option.some.injEq] at h
      subst h
      field_simp

/-- The constant is finite unless the first functor is a multiple with the factor zero. -/
theorem proportional_finite {f g : F} (hz : ∀ h, f ≠ .times h 0) :
    proportional f g ≠ some none := by
  unfold proportional
  rcases hf : f.times? with _ | ⟨f', cf⟩ <;> rcases hg : g.times? with _ | ⟨g', cg⟩ <;>
    simp only
  · split_ifs <;> simp
  · split_ifs <;> simp
  · have h0 : cf ≠ 0 := by
      intro h; subst h; exact hz f' (times?_some hf)
    split_ifs <;> simp [quot, h0]
  · have h0 : cf ≠ 0 := by
      intro h; subst h; exact hz f' (times?_some hf)
    split_ifs <;> simp [quot, h0]

/-- Sums. -/
theorem newSum_value {f g : F} {t v : ℝ} (hz : ∀ h, f ≠ .times h 0)
    (h : eval (.sum f g) t = some v) : eval (newSum f g) t = some v := by
  obtain ⟨a, b, ha, hb, rfl⟩ := eval_sum.mp h
  unfold newSum
  by_cases h1 : ident f g
  · rw [if_pos h1]
    have := ident_eq _ _ h1
    subst this
    rw [ha, Option.some.injEq] at hb
    subst hb
    exact newTimes_value (eval_times.mpr ⟨a, ha, by ring⟩)
  rw [if_neg h1]
  by_cases h2 : f.const? = some 0
  · rw [if_pos h2]
    rw [const?_some h2, eval, Option.some.injEq] at ha
    rw [← ha, zero_add, hb]
  rw [if_neg h2]
  by_cases h3 : g.const? = some 0
  · rw [if_pos h3]
    rw [const?_some h3, eval, Option.some.injEq] at hb
    rw [← hb, add_zero, ha]
  rw [if_neg h3]
  rcases hg : g.const? with _ | c
  · simp only
    rcases hf : f.const? with _ | c
    · simp only
      rcases hp : proportional f g with _ | _ | c
      · exact h
      · exact absurd hp (proportional_finite hz)
      · simp only
        have hc := proportional_value hp ha hb
        by_cases hm : c = -1
        · rw [if_pos hm, eval, hc, hm]; congr 1; ring
        · rw [if_neg hm, hc]
          exact newTimes_value (eval_times.mpr ⟨a, ha, by ring⟩)
    · simp only
      rw [const?_some hf, eval, Option.some.injEq] at ha
      subst ha
      exact newPlus_value (eval_plus.mpr ⟨b, hb, by ring⟩)
  · simp only
    rw [const?_some hg, eval, Option.some.injEq] at hb
    subst hb
    exact newPlus_value (eval_plus.mpr ⟨a, ha, rfl⟩)

example : (∀ h, F.times (.sin 1) 2 ≠ .times h 0) ∧
    eval (.sum (.times (.const 1) 2) (.const 1)) 0 = some 3 := by
  refine ⟨fun h hc => ?_, ?_⟩
  · injection hc with _ h2; norm_num at h2
  · simp [eval, lift2]; norm_num

/-- Differences. -/
theorem newDiff_value {f g : F} {t v : ℝ} (hz : ∀ h, f ≠ .times h 0)
    (h : eval (.diff f g) t = some v) : eval (newDiff f g) t = some v := by
  obtain ⟨a, b, ha, hb, rfl⟩ := eval_diff.mp h
  unfold newDiff
  by_cases h3 : g.const? = some 0
  · rw [if_pos h3]
    rw [const?_some h3, eval, Option.some.injEq] at hb
    rw [← hb, sub_zero, ha]
  rw [if_neg h3]
  by_cases h2 : f.const? = some 0
  · rw [if_pos h2]
    rw [const?_some h2, eval, Option.some.injEq] at ha
    rw [← ha]
    exact newTimes_value (eval_times.mpr ⟨b, hb, by ring⟩)
  rw [if_neg h2]
  by_cases h1 : ident f g
  · rw [if_pos h1]
    have := ident_eq _ _ h1
    subst this
    rw [ha, Option.some.injEq] at hb
    rw [eval, hb, sub_self]
  rw [if_neg h1]
  rcases hg : g.const? with _ | c
  · simp only
    rcases hp : proportional f g with _ | _ | c
    · exact h
    · exact absurd hp (proportional_finite hz)
    · simp only
      have hc := proportional_value hp ha hb
      by_cases hm : c = 1
      · rw [if_pos hm, eval, hc, hm]; congr 1; ring
      · rw [if_neg hm, hc]
        exact newTimes_value (eval_times.mpr ⟨a, ha, by ring⟩)
  · simp only
    rw [const?_some hg, eval, Option.some.injEq] at hb
    subst hb
    exact newPlus_value (eval_plus.mpr ⟨a, ha, by ring⟩)

example : eval (.diff (.sin 1) (.times (.sin 1) 3)) 0 = some 0 := by
  simp [eval, lift2]

theorem prodBase_value {f g p : F} {t v : ℝ} (hp : prodBase f g = some p)
    (h : eval (.prod f g) t = some v) : eval p t = some v := by
  obtain ⟨a, b, ha, hb, rfl⟩ := eval_prod.mp h
  unfold prodBase at hp
  by_cases h1 : f.const? = some 1
  · rw [if_pos h1, Option.some.injEq] at hp
    rw [const?_some h1, eval, Option.some.injEq] at ha
    rw [← hp, ← ha, one_mul, hb]
  rw [if_neg h1] at hp
  by_cases h2 : g.const? = some 1
  · rw [if_pos h2, Option.some.injEq] at hp
    rw [const?_some h2, eval, Option.some.injEq] at hb
    rw [← hp, ← hb, mul_one, ha]
  rw [if_neg h2] at hp
  by_cases h3 : f.const? = some 0 ∨ g.const? = some 0
  · rw [if_pos h3, Option.some.injEq] at hp
    rw [← hp, eval]
    rcases h3 with h3 | h3
    · rw [const?_some h3, eval, Option.some.injEq] at ha
      rw [← ha, zero_mul]
    · rw [const?_some h3, eval, Option.some.injEq] at hb
      rw [← hb, mul_zero]
  rw [if_neg h3] at hp
  rcases hf : f.const? with _ | c <;> rcases hg : g.const? with _ | d <;>
    rw [hf, hg] at hp <;> simp only at hp
  · rcases hfp : f.pow? with _ | c <;> rcases hgp : g.pow? with _ | d
    all_goals rw [hfp, hgp] at hp; simp only at hp
    rotate_right
    · rw [pow?_some hfp, eval] at ha
      rw [pow?_some hgp, eval] at hb
      rw [Option.some.injEq] at hp
      subst hp
      rw [eval]
      exact powE_add ha hb
    all_goals
      rcases hfe : f.exp? with _ | c' <;> rcases hge : g.exp? with _ | d' <;>
        rw [hfe, hge] at hp <;> simp only [reduceCtorEq, Option.some.injEq] at hp
      rw [exp?_some hfe, eval, Option.some.injEq] at ha
      rw [exp?_some hge, eval, Option.some.injEq] at hb
      subst hp ha hb
      rw [eval, ← Real.exp_add, add_mul]
  · rw [const?_some hg, eval, Option.some.injEq] at hb
    rw [Option.some.injEq] at hp
    subst hp hb
    exact newTimes_value (eval_times.mpr ⟨a, ha, rfl⟩)
  · rw [const?_some hf, eval, Option.some.injEq] at ha
    rw [Option.some.injEq] at hp
    subst hp ha
    exact newTimes_value (eval_times.mpr ⟨b, hb, mul_comm _ _⟩)
  · rw [const?_some hf, eval, Option.some.injEq] at ha
    rw [const?_some hg, eval, Option.some.injEq] at hb
    rw [Option.some.injEq] at hp
    subst hp ha hb
    rw [eval]

theorem prodScale_value {p : F} {c t x : ℝ} (h : eval p t = some x) :
    eval (prodScale p c) t = some (x * c) := by
  unfold prodScale
  by_cases h1 : c = 1
  · rw [if_neg (not_not.mpr h1), h1, mul_one, h]
  · rw [if_pos h1]
    exact newTimes_value (eval_times.mpr ⟨x, h, rfl⟩)

/-- Products. -/
theorem newProd_value {f g : F} {t v : ℝ} (h : eval (.prod f g) t = some v) :
    eval (newProd f g) t = some v := by
  induction hn : f.height + g.height using Nat.strong_induction_on generalizing f g v with
  | _ n ih =>
    subst hn
    unfold newProd
    rcases hb : prodBase f g with _ | p
    · simp only
      obtain ⟨a, b, ha, hb', rfl⟩ := eval_prod.mp h
      split
      · obtain ⟨x, hx, rfl⟩ := eval_times.mp ha
        obtain ⟨y, hy, rfl⟩ := eval_times.mp hb'
        have := ih _ (by simp only [F.height]; omega) (eval_prod.mpr ⟨x, y, hx, hy, rfl⟩) rfl
        rw [prodScale_value this]; congr 1; ring
      · obtain ⟨x, hx, rfl⟩ := eval_times.mp ha
        have := ih _ (by simp only [F.height]; omega) (eval_prod.mpr ⟨x, b, hx, hb', rfl⟩) rfl
        rw [prodScale_value this]; congr 1; ring
      · obtain ⟨y, hy, rfl⟩ := eval_times.mp hb'
        have := ih _ (by simp only [F.height]; omega) (eval_prod.mpr ⟨a, y, ha, hy, rfl⟩) rfl
        rw [prodScale_value this]; congr 1; ring
      · exact h
    · exact prodBase_value hb h

example : eval (.prod (.pow (-1)) (.times (.pow (-2)) 3)) (-1) = some (-3) := by
  have h1 := powE_neg_int (t := -1) (by norm_num) (-1)
  have h2 := powE_neg_int (t := -1) (by norm_num) (-2)
  refine eval_prod.mpr ⟨-1, 3, ?_, eval_times.mpr ⟨1, ?_, by norm_num⟩, by norm_num⟩
  · rw [eval]; rw [show (-1 : ℝ) = ((-1 : ℤ) : ℝ) by norm_num] at h1 ⊢; rw [h1]; norm_num
  · rw [eval]; rw [show (-2 : ℝ) = ((-2 : ℤ) : ℝ) by norm_num]; rw [h2]; norm_num

/-- Ratios: where the ratio has a value, the constructor does not throw and the result has the
same value. -/
theorem newRatio_value {f g : F} {t v : ℝ} (h : eval (.ratio f g) t = some v) :
    ∃ q, newRatio f g = .ok q ∧ eval q t = some v := by
  obtain ⟨a, b, ha, hb, hb0, rfl⟩ := eval_ratio.mp h
  unfold newRatio
  by_cases h1 : g.const? = some 1
  · rw [if_pos h1]
    rw [const?_some h1, eval, Option.some.injEq] at hb
    exact ⟨f, rfl, by rw [← hb, div_one, ha]⟩
  rw [if_neg h1]
  by_cases h2 : f.const? = some 0
  · rw [if_pos h2]
    rw [const?_some h2, eval, Option.some.injEq] at ha
    exact ⟨_, rfl, by rw [eval, ← ha, zero_div]⟩
  rw [if_neg h2]
  by_cases h3 : g.const? = some 0
  · rw [const?_some h3, eval, Option.some.injEq] at hb
    exact absurd hb.symm hb0
  rw [if_neg h3]
  by_cases h4 : ident f g
  · rw [if_pos h4]
    have := ident_eq _ _ h4
    subst this
    rw [ha, Option.some.injEq] at hb
    subst hb
    exact ⟨_, rfl, by rw [eval, div_self hb0]⟩
  rw [if_neg h4]
  rcases hg : g.const? with _ | c
  · simp only
    rcases hfp : f.pow? with _ | c <;> rcases hgp : g.pow? with _ | d
    all_goals simp only
    all_goals try
      rcases hfe : f.exp? with _ | c' <;> rcases hge : g.exp? with _ | d' <;> simp only
    all_goals try exact ⟨_, rfl, h⟩
    · rw [exp?_some hfe, eval, Option.some.injEq] at ha
      rw [exp?_some hge, eval, Option.some.injEq] at hb
      subst ha hb
      exact ⟨_, rfl, by rw [eval, ← Real.exp_sub, sub_mul]⟩
    · rw [pow?_some hgp] at hge; cases hge
    · rw [pow?_some hfp] at hfe; cases hfe
    · rw [pow?_some hfp, eval] at ha
      rw [pow?_some hgp, eval] at hb
      exact ⟨_, rfl, powE_sub ha hb hb0⟩
  · simp only
    rw [const?_some hg, eval, Option.some.injEq] at hb
    subst hb
    exact ⟨_, rfl, newTimes_value (eval_times.mpr ⟨a, ha, by ring⟩)⟩

example : eval (.ratio (.const 1) (.const 2)) 0 = some (1 / 2) := by simp [eval, divE]

/-- Compositions, except a power of a power with a non-integer outer exponent at a negative
argument. -/
theorem newComp_value_partial {f g : F} {t v : ℝ}
    (hs : 0 ≤ t ∨ ∀ c d, f = .pow c → g = .pow d → ∃ n : ℤ, c = n)
    (h : eval (.comp f g) t = some v) : eval (newComp f g) t = some v := by
  obtain ⟨a, ha, hv⟩ := eval_comp.mp h
  unfold newComp
  by_cases h1 : f.const? = some 0
  · rw [if_pos h1]
    rw [const?_some h1, eval] at hv
    rw [eval, hv]
  rw [if_neg h1]
  rcases hf : f.const? with _ | c
  · simp only
    by_cases h2 : f.pow? = some 1
    · rw [if_pos h2]
      rw [pow?_some h2, eval, powE_one] at hv
      rw [ha, hv]
    rw [if_neg h2]
    by_cases h3 : f.pow? = some 0
    · rw [if_pos h3]
      rw [pow?_some h3, eval, powE_exp_zero] at hv
      rw [eval, hv]
    rw [if_neg h3]
    rcases hfp : f.pow? with _ | c <;> rcases hgp : g.pow? with _ | d <;> simp only
    · exact h
    · exact h
    · exact h
    · have e1 := pow?_some hfp
      have e2 := pow?_some hgp
      subst e1 e2
      rw [eval] at ha hv ⊢
      refine powE_comp ?_ ha hv
      rcases hs with hs | hs
      · exact Or.inl hs
      · exact Or.inr (hs c d rfl rfl)
  · simp only
    rw [const?_some hf, eval] at hv
    rw [eval, hv]

example : eval (.comp (.pow (1 / 2)) (.pow 2)) 1 = some 1 := by
  simp [eval, lift1, powE]

/-- The exception is real: the composition of the square root with the square at -1 is 1, the
simplified functor returns -1. -/
theorem newComp_wrong : eval (.comp (.pow (1 / 2)) (.pow 2)) (-1) = some 1 ∧
    eval (newComp (.pow (1 / 2)) (.pow 2)) (-1) = some (-1) := by
  have h2 := powE_neg_int (t := -1) (by norm_num) 2
  constructor
  · refine eval_comp.mpr ⟨1, ?_, ?_⟩
    · rw [eval]
      have : (2 : ℝ) = ((2 : ℤ) : ℝ) := by norm_num
      rw [this, h2]; norm_num
    · rw [eval, powE_pos one_pos, Real.one_rpow]
  · have : newComp (.pow (1 / 2)) (.pow 2) = .pow 1 := by
      unfold newComp
      rw [if_neg (by simp [F.const?])]
      norm_num [F.const?, F.pow?]
    rw [this, eval, powE_one]

/-- A directly constructed multiple with the factor zero: `0*sin + sin` has values everywhere, the
simplified sum nowhere. -/
theorem newSum_wrong : eval (.sum (.times (.sin 1) 0) (.sin 1)) 0 = some 0 ∧
    eval (newSum (.times (.sin 1) 0) (.sin 1)) 0 = none := by
  constructor
  · simp [eval, lift2]
  · simp [newSum, ident, F.const?, proportional, F.times?, quot, eval]

/-- Likewise for differences. -/
theorem newDiff_wrong : eval (.diff (.times (.sin 1) 0) (.sin 1)) 0 = some 0 ∧
    eval (newDiff (.times (.sin 1) 0) (.sin 1)) 0 = none := by
  constructor
  · simp [eval, lift2]
  · simp [newDiff, ident, F.const?, proportional, F.times?, quot, eval]

/-! ## Trees without zero factors -/

/-- No `TimesConstant1` with the factor zero (or NaN) anywhere in the tree. -/
def F.Nice : F → Prop
  | .sum f g | .diff f g | .prod f g | .ratio f g | .comp f g => f.Nice ∧ g.Nice
  | .times f c => f.Nice ∧ c ≠ 0
  | .plus f _ | .periodic f _ => f.Nice
  | .bad _ => False
  | _ => True

theorem nice_root {f : F} (h : f.Nice) : ∀ g, f ≠ .times g 0 := by
  rintro g rfl
  exact h.2 rfl

theorem newTimes_nice {f : F} {c : ℝ} (h : f.Nice) : (newTimes f c).Nice := by
  unfold newTimes
  split_ifs with h0 h1
  · trivial
  · exact h
  · cases f with
    | times g d => exact ⟨h.1, mul_ne_zero h.2 h0⟩
    | _ => exact ⟨h, h0⟩

theorem newPlus_nice {f : F} {c : ℝ} (h : f.Nice) : (newPlus f c).Nice := by
  unfold newPlus
  split_ifs with h0
  · exact h
  · cases f with
    | const d => trivial
    | plus g d => exact h
    | _ => exact h

theorem newSum_nice {f g : F} (hf : f.Nice) (hg : g.Nice) : (newSum f g).Nice := by
  unfold newSum
  split_ifs with h1 h2 h3
  · exact newTimes_nice hf
  · exact hg
  · exact hf
  · rcases g.const? with _ | c
    · simp only
      rcases f.const? with _ | c
      · simp only
        rcases hp : proportional f g with _ | _ | c
        · exact ⟨hf, hg⟩
        · exact absurd hp (proportional_finite (nice_root hf))
        · simp only
          split_ifs
          · trivial
          · exact newTimes_nice hf
      · exact newPlus_nice hg
    · exact newPlus_nice hf

theorem newDiff_nice {f g : F} (hf : f.Nice) (hg : g.Nice) : (newDiff f g).Nice := by
  unfold newDiff
  split_ifs with h1 h2 h3
  · exact hf
  · exact newTimes_nice hg
  · trivial
  · rcases g.const? with _ | c
    · simp only
      rcases hp : proportional f g with _ | _ | c
      · exact ⟨hf, hg⟩
      · exact absurd hp (proportional_finite (nice_root hf))
      · simp only
        split_ifs
        · trivial
        · exact newTimes_nice hf
    · exact newPlus_nice hf

theorem prodBase_nice {f g p : F} (hf : f.Nice) (hg : g.Nice) (hp : prodBase f g = some p) :
    p.Nice := by
  unfold prodBase at hp
  split_ifs at hp with h1 h2 h3
  · cases hp; exact hg
  · cases hp; exact hf
  · cases hp; trivial
  · split at hp
    · cases hp; trivial
    · cases hp; exact newTimes_nice hg
    · cases hp; exact newTimes_nice hf
    · split at hp
      · cases hp; trivial
      · split at hp
        · cases hp; trivial
        · cases hp

theorem newProd_nice {f g : F} (hf : f.Nice) (hg : g.Nice) : (newProd f g).Nice := by
  induction hn : f.height + g.height using Nat.strong_induction_on generalizing f g with
  | _ n ih =>
    subst hn
    unfold newProd
    have hs : ∀ (p : F) (c : ℝ), p.Nice → (prodScale p c).Nice := by
      intro p c hp
      unfold prodScale
      split_ifs
      · exact newTimes_nice hp
      · exact hp
    rcases hb : prodBase f g with _ | p
    · simp only
      split
      · exact hs _ _ (ih _ (by simp only [F.height]; omega) hf.1 hg.1 rfl)
      · exact hs _ _ (ih _ (by simp only [F.height]; omega) hf.1 hg rfl)
      · exact hs _ _ (ih _ (by simp only [F.height]; omega) hf hg.1 rfl)
      · exact ⟨hf, hg⟩
    · exact prodBase_nice hf hg hb

theorem newRatio_nice {f g q : F} (hf : f.Nice) (hg : g.Nice) (hq : newRatio f g = .ok q) :
    q.Nice := by
  unfold newRatio at hq
  split_ifs at hq with h1 h2 h3 h4
  · cases hq; exact hf
  · cases hq; trivial
  · cases hq; trivial
  · split at hq
    · cases hq; exact newTimes_nice hf
    · split at hq
      · cases hq; trivial
      · split at hq
        · cases hq; trivial
        · cases hq; exact ⟨hf, hg⟩

theorem newComp_nice {f g : F} (hf : f.Nice) (hg : g.Nice) : (newComp f g).Nice := by
  unfold newComp
  by_cases h1 : f.const? = some 0
  · rw [if_pos h1]; trivial
  · rw [if_neg h1]
    split
    · trivial
    · by_cases h2 : f.pow? = some 1
      · rw [if_pos h2]; exact hg
      · rw [if_neg h2]
        by_cases h3 : f.pow? = some 0
        · rw [if_pos h3]; trivial
        · rw [if_neg h3]
          split
          · trivial
          · exact ⟨hf, hg⟩

/-! ## Whole trees -/

/-- Rebuild a tree bottom-up with the simplifying constructors, as the operators of the Python
interface and `derivative` do. -/
noncomputable def build : F → Outcome F
  | .sum f g => do
      let a ← build f
      let b ← build g
      return newSum a b
  | .diff f g => do
      let a ← build f
      let b ← build g
      return newDiff a b
  | .prod f g => do
      let a ← build f
      let b ← build g
      return newProd a b
  | .ratio f g => do
      let a ← build f
      let b ← build g
      newRatio a b
  | .comp f g => do
      let a ← build f
      let b ← build g
      return newComp a b
  | .times f c => do
      let a ← build f
      return newTimes a c
  | .plus f c => do
      let a ← build f
      return newPlus a c
  | .bad _ => .throw
  | .periodic f c => do
      let a ← build f
      return .periodic a c
  | f => .ok f

/-- Every composition in the tree is evaluated at a non-negative argument or does not become a
power of a power with a non-integer outer exponent. -/
def CompOk : F → ℝ → Prop
  | .sum f g, t | .diff f g, t | .prod f g, t | .ratio f g, t => CompOk f t ∧ CompOk g t
  | .comp f g, t => CompOk g t ∧ (∀ u, eval g t = some u → CompOk f u) ∧
      (0 ≤ t ∨ ∀ c d, build f = .ok (.pow c) → build g = .ok (.pow d) → ∃ n : ℤ, c = n)
  | .times f _, t | .plus f _, t => CompOk f t
  | .periodic f c, t => CompOk f (t - trunc (t / c) * c)
  | _, _ => True

theorem build_nice : ∀ {f q : F}, build f = .ok q → q.Nice := by
  intro f
  induction f with
  | sum f g ihf ihg =>
    intro q h
    simp only [build] at h
    rcases hf : build f with a | _ | _ <;> rw [hf] at h <;> simp only [Outcome.bind_ok, Outcome.bind_throw, Outcome.bind_ub, reduceCtorEq] at h
    rcases hg : build g with b | _ | _ <;> rw [hg] at h <;> simp only [Outcome.bind_ok, Outcome.bind_throw, Outcome.bind_ub, reduceCtorEq, Outcome.pure_eq, Outcome.ok.injEq] at h
    subst h
    exact newSum_nice (ihf hf) (ihg hg)
  | diff f g ihf ihg =>
    intro q h
    simp only [build] at h
    rcases hf : build f with a | _ | _ <;> rw [hf] at h <;> simp only [Outcome.bind_ok, Outcome.bind_throw, Outcome.bind_ub, reduceCtorEq] at h
    rcases hg : build g with b | _ | _ <;> rw [hg] at h <;> simp only [Outcome.bind_ok, Outcome.bind_throw, Outcome.bind_ub, reduceCtorEq, Outcome.pure_eq, Outcome.ok.injEq] at h
    subst h
    exact newDiff_nice (ihf hf) (ihg hg)
  | prod f g ihf ihg =>
    intro q h
    simp only [build] at h
    rcases hf : build f with a | _ | _ <;> rw [hf] at h <;> simp only [Outcome.bind_ok, Outcome.bind_throw, Outcome.bind_ub, reduceCtorEq] at h
    rcases hg : build g with b | _ | _ <;> rw [hg] at h <;> simp only [Outcome.bind_ok, Outcome.bind_throw, Outcome.bind_ub, reduceCtorEq, Outcome.pure_eq, Outcome.ok.injEq] at h
    subst h
    exact newProd_nice (ihf hf) (ihg hg)
  | ratio f g ihf ihg =>
    intro q h
    simp only [build] at h
    rcases hf : build f with a | _ | _ <;> rw [hf] at h <;> simp only [Outcome.bind_ok, Outcome.bind_throw, Outcome.bind_ub, reduceCtorEq] at h
    rcases hg : build g with b | _ | _ <;> rw [hg] at h <;> simp only [Outcome.bind_ok, Outcome.bind_throw, Outcome.bind_ub, reduceCtorEq] at h
    exact newRatio_nice (ihf hf) (ihg hg) h
  | comp f g ihf ihg =>
    intro q h
    simp only [build] at h
    rcases hf : build f with a | _ | _ <;> rw [hf] at h <;> simp only [Outcome.bind_ok, Outcome.bind_throw, Outcome.bind_ub, reduceCtorEq] at h
    rcases hg : build g with b | _ | _ <;> rw [hg] at h <;> simp only [Outcome.bind_ok, Outcome.bind_throw, Outcome.bind_ub, reduceCtorEq, Outcome.pure_eq, Outcome.ok.injEq] at h
    subst h
    exact newComp_nice (ihf hf) (ihg hg)
  | times f c ihf =>
    intro q h
    simp only [build] at h
    rcases hf : build f with a | _ | _ <;> rw [hf] at h <;> simp only [Outcome.bind_ok, Outcome.bind_throw, Outcome.bind_ub, reduceCtorEq, Outcome.pure_eq, Outcome.ok.injEq] at h
    subst h
    exact newTimes_nice (ihf hf)
  | plus f c ihf =>
    intro q h
    simp only [build] at h
    rcases hf : build f with a | _ | _ <;> rw [hf] at h <;> simp only [Outcome.bind_ok, Outcome.bind_throw, Outcome.bind_ub, reduceCtorEq, Outcome.pure_eq, Outcome.ok.injEq] at h
    subst h
    exact newPlus_nice (ihf hf)
  | periodic f c ihf =>
    intro q h
    simp only [build] at h
    rcases hf : build f with a | _ | _ <;> rw [hf] at h <;> simp only [Outcome.bind_ok, Outcome.bind_throw, Outcome.bind_ub, reduceCtorEq, Outcome.pure_eq, Outcome.ok.injEq] at h
    subst h
    exact (show a.Nice from ihf hf)
  | bad f _ => intro q h; simp only [build] at h; cases h
  | _ => intro q h; simp only [build, Outcome.ok.injEq] at h; subst h; trivial

/-- Rebuilding a whole tree with the simplifying constructors never throws and keeps the value,
wherever the unsimplified tree has a value. -/
theorem build_value_partial : ∀ {f : F} {t v : ℝ}, CompOk f t → eval f t = some v →
    ∃ q, build f = .ok q ∧ eval q t = some v := by
  intro f
  induction f with
  | sum f g ihf ihg =>
    intro t v hc h
    obtain ⟨a, b, ha, hb, rfl⟩ := eval_sum.mp h
    obtain ⟨p, hp, hp'⟩ := ihf hc.1 ha
    obtain ⟨q, hq, hq'⟩ := ihg hc.2 hb
    exact ⟨_, by simp [build, hp, hq],
      newSum_value (nice_root (build_nice hp)) (eval_sum.mpr ⟨a, b, hp', hq', rfl⟩)⟩
  | diff f g ihf ihg =>
    intro t v hc h
    obtain ⟨a, b, ha, hb, rfl⟩ := eval_diff.mp h
    obtain ⟨p, hp, hp'⟩ := ihf hc.1 ha
    obtain ⟨q, hq, hq'⟩ := ihg hc.2 hb
    exact ⟨_, by simp [build, hp, hq],
      newDiff_value (nice_root (build_nice hp)) (eval_diff.mpr ⟨a, b, hp', hq', rfl⟩)⟩
  | prod f g ihf ihg =>
    intro t v hc h
    obtain ⟨a, b, ha, hb, rfl⟩ := eval_prod.mp h
    obtain ⟨p, hp, hp'⟩ := ihf hc.1 ha
    obtain ⟨q, hq, hq'⟩ := ihg hc.2 hb
    exact ⟨_, by simp [build, hp, hq], newProd_value (eval_prod.mpr ⟨a, b, hp', hq', rfl⟩)⟩
  | ratio f g ihf ihg =>
    intro t v hc h
    obtain ⟨a, b, ha, hb, hb0, rfl⟩ := eval_ratio.mp h
    obtain ⟨p, hp, hp'⟩ := ihf hc.1 ha
    obtain ⟨q, hq, hq'⟩ := ihg hc.2 hb
    obtain ⟨r, hr, hr'⟩ := newRatio_value (eval_ratio.mpr ⟨a, b, hp', hq', hb0, rfl⟩)
    exact ⟨r, by simp [build, hp, hq, hr], hr'⟩
  | comp f g ihf ihg =>
    intro t v hc h
    obtain ⟨u, hu, hv⟩ := eval_comp.mp h
    obtain ⟨q, hq, hq'⟩ := ihg hc.1 hu
    obtain ⟨p, hp, hp'⟩ := ihf (hc.2.1 u hu) hv
    refine ⟨_, by simp [build, hp, hq],
      newComp_value_partial (f := p) (g := q) ?_ (eval_comp.mpr ⟨u, hq', hp'⟩)⟩
    rcases hc.2.2 with h0 | h0
    · exact Or.inl h0
    · refine Or.inr (fun c d h1 h2 => h0 c d ?_ ?_)
      · rw [hp, h1]
      · rw [hq, h2]
  | times f c ihf =>
    intro t v hc h
    obtain ⟨a, ha, rfl⟩ := eval_times.mp h
    obtain ⟨p, hp, hp'⟩ := ihf hc ha
    exact ⟨_, by simp [build, hp], newTimes_value (eval_times.mpr ⟨a, hp', rfl⟩)⟩
  | plus f c ihf =>
    intro t v hc h
    obtain ⟨a, ha, rfl⟩ := eval_plus.mp h
    obtain ⟨p, hp, hp'⟩ := ihf hc ha
    exact ⟨_, by simp [build, hp], newPlus_value (eval_plus.mpr ⟨a, hp', rfl⟩)⟩
  | periodic f c ihf =>
    intro t v hc h
    rw [eval] at h
    by_cases h0 : c = 0
    · rw [if_pos h0] at h; cases h
    · rw [if_neg h0] at h
      obtain ⟨p, hp, hp'⟩ := ihf hc h
      exact ⟨.periodic p c, by simp [build, hp], by rw [eval, if_neg h0]; exact hp'⟩
  | bad f _ => intro t v _ h; simp [eval] at h
  | _ => intro t v _ h; exact ⟨_, rfl, h⟩

example : CompOk (.sum (.times (.sin 1) 0) (.comp (.exp 1) (.sin 1))) (-1) ∧
    ∃ v, eval (.sum (.times (.sin 1) 0) (.comp (.exp 1) (.sin 1))) (-1) = some v := by
  refine ⟨⟨trivial, trivial, fun _ _ => trivial, Or.inr ?_⟩, ?_⟩
  · intro c d h _; simp [build] at h
  · simp [eval, lift2, lift1]

/-! ## Periodic functors -/

/-- For non-negative arguments the periodic functor evaluates its operand inside one period and
repeats it. -/
theorem periodic_nonneg_partial {f : F} {c t : ℝ} (hc : 0 < c) (ht : 0 ≤ t) :
    (∃ s, 0 ≤ s ∧ s < c ∧ (∃ k : ℕ, t = s + k * c) ∧ eval (.periodic f c) t = eval f s) ∧
      eval (.periodic f c) (t + c) = eval (.periodic f c) t := by
  have h1 : 0 ≤ t / c := div_nonneg ht hc.le
  have e : ∀ x, 0 ≤ x → eval (.periodic f c) x = eval f (x - ⌊x / c⌋ * c) := by
    intro x hx
    rw [eval, if_neg hc.ne', trunc, if_pos (div_nonneg hx hc.le)]
  constructor
  · refine ⟨t - ⌊t / c⌋ * c, ?_, ?_, ⟨⌊t / c⌋.toNat, ?_⟩, e t ht⟩
    · have := Int.floor_le (t / c)
      rw [le_div_iff₀ hc] at this
      linarith
    · have := Int.lt_floor_add_one (t / c)
      rw [div_lt_iff₀ hc] at this
      linarith
    · have h2 : (⌊t / c⌋.toNat : ℤ) = ⌊t / c⌋ := Int.toNat_of_nonneg (Int.floor_nonneg.mpr h1)
      have h3 : ((⌊t / c⌋.toNat : ℕ) : ℝ) = ((⌊t / c⌋ : ℤ) : ℝ) := by
        exact_mod_cast congrArg (Int.cast : ℤ → ℝ) h2
      rw [h3]; ring
  · rw [e t ht, e (t + c) (by linarith)]
    have : (t + c) / c = t / c + 1 := by field_simp
    rw [this, Int.floor_add_one]
    congr 1
    push_cast
    ring

example : eval (.periodic (.pow 1) 2) 3 = eval (.periodic (.pow 1) 2) 1 := by
  have h := (periodic_nonneg_partial (f := .pow 1) (c := 2) (t := 1) (by norm_num)
    (by norm_num)).2
  norm_num at h ⊢
  exact h

/-- For negative arguments it is not periodic: with `f(t) = t` and period 2 the value is -1 at -1
and 1 at 1. -/
theorem periodic_wrong : eval (.periodic (.pow 1) 2) (-1) = some (-1) ∧
    eval (.periodic (.pow 1) 2) (-1 + 2) = some 1 := by
  have t1 : trunc (-1 / 2) = 0 := by
    unfold trunc
    rw [if_neg (by norm_num)]
    rw [Int.ceil_eq_iff]; norm_num
  have t2 : trunc ((-1 + 2) / 2) = 0 := by
    unfold trunc
    rw [if_pos (by norm_num)]
    rw [Int.floor_eq_iff]; norm_num
  constructor
  · rw [eval, if_neg (by norm_num), t1, eval, powE_one]; norm_num
  · rw [eval, if_neg (by norm_num), t2, eval, powE_one]; norm_num

end Verif.Func1
