import Verif.Fluid.Tables
import Mathlib.Tactic.Linarith
import Mathlib.Tactic.NormNum
import Mathlib.Tactic.FieldSimp

/-!
# C68: theorems on the coefficient tables
-/

namespace Verif.Fluid.Tables

open Verif

theorem idx_inj {kk i j p q : ℕ} (hi : i < kk) (hp : p < kk) : i + kk * j = p + kk * q ↔ i = p ∧ j = q := by
  constructor
  · intro h
    have h1 : (i + kk * j) % kk = (p + kk * q) % kk := by rw [h]
    rw [Nat.add_mul_mod_self_left, Nat.add_mul_mod_self_left, Nat.mod_eq_of_lt hi, Nat.mod_eq_of_lt hp] at h1
    refine ⟨h1, ?_⟩
    subst h1
    have : kk * j = kk * q := by omega
    exact Nat.eq_of_mul_eq_mul_left (by omega) this
  · rintro ⟨rfl, rfl⟩; rfl

/-- Entry `(i, j)`, both rows. -/
def RKTab.at (t : RKTab) (i j : ℕ) : Option ℝ × Option ℝ := (t.a0 (i + t.kk * j), t.a1 (i + t.kk * j))

theorem rkMix_kk (k : ℕ) (a0 a1 : ℝ) (t : RKTab) (j : ℕ) :
    (rkMix k a0 a1 t j).kk = t.kk ∧ (rkMix k a0 a1 t j).b = t.b ∧ (rkMix k a0 a1 t j).tp = t.tp := by
  rw [rkMix]; split_ifs <;> exact ⟨rfl, rfl, rfl⟩

theorem rkMix_other {k : ℕ} {a0 a1 : ℝ} {t : RKTab} {j p q : ℕ} (hk : k < t.kk) (hj : j < t.kk)
    (hp : p < t.kk) (h : ¬ (p = j ∧ q = k) ∧ ¬ (p = k ∧ q = j)) : (rkMix k a0 a1 t j).at p q = t.at p q := by
  have e : ∀ f : ℕ → Option ℝ, ∀ x, Function.update (Function.update f (j + t.kk * k) x) (k + t.kk * j) x (p + t.kk * q) =
      f (p + t.kk * q) := fun f x => by
    rw [Function.update_of_ne, Function.update_of_ne]
    · rw [Ne, idx_inj hp hj]; exact h.1
    · rw [Ne, idx_inj hp hk]; exact h.2
  rw [rkMix]
  split_ifs
  · rfl
  · rfl
  · simp only [RKTab.at, e]
  · rfl

theorem rkMix_new {k : ℕ} {a0 a1 : ℝ} {t : RKTab} {j : ℕ} (hk : k < t.kk) (hj : j < t.kk) (jk : j ≠ k)
    (sym : t.at j k = t.at k j) :
    let e := if t.a0 (j + t.kk * j) ≠ none ∧ t.a0 (j + t.kk * k) = none then
      (msqrt (t.a0 (j + t.kk * j)) a0, msqrt (t.a1 (j + t.kk * j)) a1) else t.at j k
    (rkMix k a0 a1 t j).at j k = e ∧ (rkMix k a0 a1 t j).at k j = e := by
  have ne : j + t.kk * k ≠ k + t.kk * j := by rw [Ne, idx_inj hj hk]; tauto
  dsimp only
  rw [rkMix, if_neg jk.symm]
  by_cases h1 : t.a0 (j + t.kk * j) = none
  · rw [if_pos h1, if_neg (by tauto)]; exact ⟨rfl, sym.symm⟩
  · rw [if_neg h1]
    by_cases h2 : t.a0 (j + t.kk * k) = none
    · rw [if_pos h2, if_pos ⟨h1, h2⟩]
      simp [RKTab.at, Function.update_self, Function.update_of_ne ne]
    · rw [if_neg h2, if_neg (by tauto)]; exact ⟨rfl, sym.symm⟩

/-- The loop of `setSpeciesCoeffs`. -/
theorem rkMix_fold {k : ℕ} {a0 a1 : ℝ} {t : RKTab} (hk : k < t.kk) (sym : ∀ j < t.kk, t.at j k = t.at k j) :
    ∀ n ≤ t.kk, let t' := (List.range n).foldl (rkMix k a0 a1) t
      t'.kk = t.kk ∧ t'.b = t.b ∧ t'.tp = t.tp ∧
      (∀ p < t.kk, ∀ q < t.kk, p ≠ k → q ≠ k → t'.at p q = t.at p q) ∧ t'.at k k = t.at k k ∧
      ∀ j < t.kk, j ≠ k →
        let e := if j < n ∧ t.a0 (j + t.kk * j) ≠ none ∧ t.a0 (j + t.kk * k) = none then
          (msqrt (t.a0 (j + t.kk * j)) a0, msqrt (t.a1 (j + t.kk * j)) a1) else t.at j k
        t'.at j k = e ∧ t'.at k j = e := by
  intro n
  induction n with
  | zero =>
    intro _
    refine ⟨rfl, rfl, rfl, fun _ _ _ _ _ _ => rfl, rfl, fun j hj _ => ?_⟩
    simp only [Nat.not_lt_zero, false_and, if_false]
    exact ⟨rfl, (sym j hj).symm⟩
  | succ n ih =>
    intro hn
    obtain ⟨e1, e2, e3, e4, e5, e6⟩ := ih (by omega)
    simp only [List.range_succ, List.foldl_append, List.foldl_cons, List.foldl_nil]
    generalize ht' : (List.range n).foldl (rkMix k a0 a1) t = t' at *
    obtain ⟨k1, k2, k3⟩ := rkMix_kk k a0 a1 t' n
    have hk' : k < t'.kk := by rw [e1]; exact hk
    have hn' : n < t'.kk := by rw [e1]; omega
    refine ⟨k1.trans e1, k2.trans e2, k3.trans e3, ?_, ?_, ?_⟩
    · intro p hp q hq pk qk
      rw [rkMix_other hk' hn' (by rw [e1]; exact hp) ⟨by tauto, by tauto⟩]
      exact e4 p hp q hq pk qk
    · by_cases nk : n = k
      · subst nk
        rw [rkMix, if_pos rfl]; exact e5
      · rw [rkMix_other hk' hn' hk' ⟨by tauto, by tauto⟩]; exact e5
    · intro j hj jk
      have hj' : j < t'.kk := by rw [e1]; exact hj
      obtain ⟨f1, f2⟩ := e6 j hj jk
      by_cases jn : j = n
      · subst jn
        simp only [lt_self_iff_false, false_and, if_false] at f1 f2
        obtain ⟨g1, g2⟩ := rkMix_new (a0 := a0) (a1 := a1) hk' hj' jk (f1.trans f2.symm)
        have d : t'.at j j = t.at j j := e4 j hj j hj jk jk
        simp only [RKTab.at, Prod.mk.injEq] at d f1
        rw [e1] at d f1 g1 g2
        rw [d.1, d.2, f1.1] at g1 g2
        simp only [Nat.lt_succ_self, true_and]
        rw [g1, g2]
        have fa : t'.at j k = t.at j k := by simp only [RKTab.at, e1, f1.1, f1.2]
        rw [fa]
        exact ⟨rfl, rfl⟩
      · rw [rkMix_other hk' hn' hj' ⟨by tauto, by tauto⟩, rkMix_other hk' hn' hk' ⟨by tauto, by tauto⟩]
        have : (j < n + 1) ↔ j < n := by omega
        simp only [this]
        exact ⟨f1, f2⟩

/-! Specification. Lists of calls have the latest call first. -/

/-- The coefficients given for species `m`. -/
def lastSp : List Op → ℕ → Option (ℝ × ℝ × ℝ)
  | [], _ => none
  | .sp k a0 a1 b :: r, m => if k = m then some (a0, a1, b) else lastSp r m
  | .bin _ _ _ _ :: r, m => lastSp r m

/-- The coefficients given for the pair `p`, `q`. -/
def lastBin : List Op → ℕ → ℕ → Option (ℝ × ℝ)
  | [], _, _ => none
  | .sp _ _ _ _ :: r, p, q => lastBin r p q
  | .bin i j a0 a1 :: r, p, q => if i = p ∧ j = q ∨ i = q ∧ j = p then some (a0, a1) else lastBin r p q

/-- Every species is given once, and the pairs are pairs of different species. -/
def Once (kk : ℕ) : List Op → Prop
  | [] => True
  | .sp k _ _ _ :: r => k < kk ∧ lastSp r k = none ∧ Once kk r
  | .bin i j _ _ :: r => i < kk ∧ j < kk ∧ i ≠ j ∧ Once kk r

/-- Geometric mean, NaN for different signs. -/
noncomputable def gmean (x y : ℝ) : Option ℝ := if 0 ≤ x * y then some (Real.sqrt (x * y)) else none

/-- The entry expected for a pair: what was given, or the geometric means. -/
noncomputable def want (l : List Op) (i j : ℕ) : Option ℝ × Option ℝ :=
  match lastBin l i j with
  | some (x, y) => (some x, some y)
  | none =>
    match lastSp l i, lastSp l j with
    | some (x, y, _), some (x', y', _) => (gmean x x', gmean y y')
    | _, _ => (none, none)

theorem gmean_comm (x y : ℝ) : gmean x y = gmean y x := by rw [gmean, gmean, mul_comm]

theorem lastBin_comm (l : List Op) (i j : ℕ) : lastBin l i j = lastBin l j i := by
  induction l with
  | nil => rfl
  | cons o r ih =>
    cases o with
    | sp k a0 a1 b => exact ih
    | bin p q a0 a1 =>
      simp only [lastBin, ih]
      have : (p = i ∧ q = j ∨ p = j ∧ q = i) ↔ (p = j ∧ q = i ∨ p = i ∧ q = j) := or_comm
      simp only [this]

theorem want_comm (l : List Op) (i j : ℕ) : want l i j = want l j i := by
  simp only [want, lastBin_comm l i j]
  rcases lastBin l j i with _ | ⟨x, y⟩
  · rcases lastSp l i with _ | ⟨x, y, z⟩ <;> rcases lastSp l j with _ | ⟨x', y', z'⟩ <;> try rfl
    simp only [gmean_comm x x', gmean_comm y y']
  · rfl

/-- The phase with `kk` species and no coefficients. -/
def fresh (kk : ℕ) : RKTab := { kk := kk, a0 := fun _ => none, a1 := fun _ => none, b := fun _ => none, tp := false }

/-- What the tables contain after the calls `l`. -/
structure Inv (kk : ℕ) (t : RKTab) (l : List Op) : Prop where
  size : t.kk = kk
  diag : ∀ k < kk, match lastSp l k with
    | none => t.at k k = (none, none) ∧ t.b k = none
    | some (x, y, z) => t.at k k = (some x, some y) ∧ t.b k = some z
  off : ∀ i < kk, ∀ j < kk, i ≠ j → t.at i j = want l i j

theorem inv_fresh (kk : ℕ) : Inv kk (fresh kk) [] := by
  refine ⟨rfl, fun k _ => ?_, fun i _ j _ _ => rfl⟩
  simp only [lastSp]
  exact ⟨rfl, rfl⟩

theorem inv_bin {kk : ℕ} {t : RKTab} {l : List Op} (h : Inv kk t l) {i j : ℕ} (hi : i < kk) (hj : j < kk) (ij : i ≠ j)
    (a0 a1 : ℝ) : Inv kk (rkBin t i j a0 a1) (.bin i j a0 a1 :: l) := by
  obtain ⟨rfl, hd, ho⟩ := h
  have e : ∀ p < t.kk, ∀ q < t.kk, (rkBin t i j a0 a1).at p q =
      if i = p ∧ j = q ∨ i = q ∧ j = p then (some a0, some a1) else t.at p q := by
    intro p hp q hq
    simp only [rkBin, RKTab.at]
    by_cases c1 : p = i ∧ q = j
    · obtain ⟨rfl, rfl⟩ := c1
      simp
    · have n1 : p + t.kk * q ≠ i + t.kk * j := by rw [Ne, idx_inj hp hi]; exact c1
      rw [Function.update_of_ne n1, Function.update_of_ne n1]
      by_cases c2 : p = j ∧ q = i
      · obtain ⟨rfl, rfl⟩ := c2
        simp
      · have n2 : p + t.kk * q ≠ j + t.kk * i := by rw [Ne, idx_inj hp hj]; exact c2
        rw [Function.update_of_ne n2, Function.update_of_ne n2, if_neg]
        rintro (⟨rfl, rfl⟩ | ⟨rfl, rfl⟩)
        · exact c1 ⟨rfl, rfl⟩
        · exact c2 ⟨rfl, rfl⟩
  refine ⟨rfl, ?_, ?_⟩
  · intro k hk
    have d := hd k hk
    simp only [lastSp]
    have n : ¬ (i = k ∧ j = k ∨ i = k ∧ j = k) := by rintro (⟨rfl, rfl⟩ | ⟨rfl, rfl⟩) <;> exact ij rfl
    rw [e k hk k hk, if_neg n]
    exact d
  · intro p hp q hq pq
    rw [e p hp q hq]
    by_cases c : i = p ∧ j = q ∨ i = q ∧ j = p
    · rw [if_pos c]; simp only [want, lastBin, if_pos c]
    · rw [if_neg c, ho p hp q hq pq]; simp only [want, lastBin, if_neg c, lastSp]

theorem inv_sp {kk : ℕ} {t : RKTab} {l : List Op} (h : Inv kk t l) {k : ℕ} (hk : k < kk) (once : lastSp l k = none)
    (a0 a1 b : ℝ) : Inv kk (rkSet t k a0 a1 b) (.sp k a0 a1 b :: l) := by
  obtain ⟨rfl, hd, ho⟩ := h
  set t1 : RKTab := { t with
    tp := if a1 ≠ 0 then true else t.tp
    a0 := Function.update t.a0 (k + t.kk * k) (some a0)
    a1 := Function.update t.a1 (k + t.kk * k) (some a1) } with ht1
  have at1 : ∀ p < t.kk, ∀ q, t1.at p q = if p = k ∧ q = k then (some a0, some a1) else t.at p q := by
    intro p hp q
    simp only [ht1, RKTab.at]
    by_cases c : p = k ∧ q = k
    · obtain ⟨rfl, rfl⟩ := c
      simp
    · have n : p + t.kk * q ≠ k + t.kk * k := by rw [Ne, idx_inj hp hk]; exact c
      rw [Function.update_of_ne n, Function.update_of_ne n, if_neg c]
  have sym : ∀ j < t1.kk, t1.at j k = t1.at k j := by
    intro j hj
    by_cases c : j = k
    · rw [c]
    · rw [at1 j hj k, at1 k hk j, if_neg (by tauto), if_neg (by tauto), ho j hj k hk c, ho k hk j hj (Ne.symm c), want_comm]
  obtain ⟨f1, f2, f3, f4, f5, f6⟩ := rkMix_fold (a0 := a0) (a1 := a1) (t := t1) hk sym t1.kk le_rfl
  have kk1 : t1.kk = t.kk := rfl
  have res : ∀ p q, (rkSet t k a0 a1 b).at p q = ((List.range t1.kk).foldl (rkMix k a0 a1) t1).at p q := fun p q => rfl
  have resb : (rkSet t k a0 a1 b).b = Function.update ((List.range t1.kk).foldl (rkMix k a0 a1) t1).b k (some b) := rfl
  have reskk : (rkSet t k a0 a1 b).kk = ((List.range t1.kk).foldl (rkMix k a0 a1) t1).kk := rfl
  generalize (List.range t1.kk).foldl (rkMix k a0 a1) t1 = t' at *
  refine ⟨reskk.trans f1, ?_, ?_⟩
  · intro m hm
    by_cases c : k = m
    · subst c
      simp only [lastSp, if_true]
      rw [res, f5, at1 k hk k, if_pos ⟨rfl, rfl⟩, resb, Function.update_self]
      exact ⟨rfl, rfl⟩
    · have cm : m ≠ k := fun e => c e.symm
      simp only [lastSp, if_neg c]
      rw [res, f4 m hm m hm cm cm, at1 m hm m, if_neg (by tauto), resb, Function.update_of_ne cm, f2]
      exact hd m hm
  · have main : ∀ j < t.kk, j ≠ k → t'.at j k = want (.sp k a0 a1 b :: l) j k ∧
        t'.at k j = want (.sp k a0 a1 b :: l) j k := by
      intro j hj jk
      obtain ⟨g1, g2⟩ := f6 j hj jk
      have key : (if j < t1.kk ∧ t1.a0 (j + t1.kk * j) ≠ none ∧ t1.a0 (j + t1.kk * k) = none then
          (msqrt (t1.a0 (j + t1.kk * j)) a0, msqrt (t1.a1 (j + t1.kk * j)) a1) else t1.at j k) =
          want (.sp k a0 a1 b :: l) j k := by
        have d1 : t1.at j j = t.at j j := by rw [at1 j hj j, if_neg (by tauto)]
        have d2 : t1.at j k = want l j k := by rw [at1 j hj k, if_neg (by tauto), ho j hj k hk jk]
        have dj := hd j hj
        rw [← d1] at dj
        simp only [RKTab.at] at d2 dj ⊢
        have kj : ¬ k = j := fun e => jk e.symm
        simp only [want, lastBin, lastSp, once, if_true, if_neg kj] at d2 ⊢
        rcases lb : lastBin l j k with _ | ⟨x, y⟩
        · rw [lb] at d2
          rcases ls : lastSp l j with _ | ⟨x, y, z⟩
          · rw [ls] at dj d2
            simp only [Prod.mk.injEq] at d2 dj
            rw [dj.1.1, d2.1, d2.2]
            simp
          · rw [ls] at dj d2
            simp only [Prod.mk.injEq] at d2 dj
            rw [dj.1.1, dj.1.2, d2.1, if_pos ⟨hj, by simp, rfl⟩]
            rfl
        · rw [lb] at d2
          simp only [Prod.mk.injEq] at d2
          rw [d2.1, d2.2, if_neg (by simp)]
      rw [key] at g1 g2
      exact ⟨g1, g2⟩
    intro i hi j hj ij
    rw [res]
    by_cases ci : i = k
    · subst ci
      rw [want_comm]; exact (main j hj (Ne.symm ij)).2
    · by_cases cj : j = k
      · subst cj
        exact (main i hi ij).1
      · rw [f4 i hi j hj ci cj, at1 i hi j, if_neg (by tauto), ho i hi j hj ij]
        simp only [want, lastBin, lastSp, if_neg (fun e : k = i => ci e.symm), if_neg (fun e : k = j => cj e.symm)]

theorem inv_all {kk : ℕ} : ∀ l : List Op, Once kk l → Inv kk (l.foldr (fun o t => rkOp t o) (fresh kk)) l
  | [], _ => inv_fresh kk
  | .sp _ _ _ _ :: l, h => inv_sp (inv_all l h.2.2) h.1 h.2.1 _ _ _
  | .bin _ _ _ _ :: l, h => inv_bin (inv_all l h.2.2.2) h.1 h.2.1 h.2.2.1 _ _

/-- After any sequence of calls in which every species is given once, the tables contain the coefficients given, and the
geometric means for the pairs that were not given, whatever the order of the calls. -/
theorem rk_tables {kk : ℕ} (ops : List Op) (h : Once kk ops.reverse) :
    let t := ops.foldl rkOp (fresh kk)
    (∀ k < kk, ∀ x y z, lastSp ops.reverse k = some (x, y, z) →
      t.a0 (k * kk + k) = some x ∧ t.a1 (k * kk + k) = some y ∧ t.b k = some z) ∧
    ∀ i < kk, ∀ j < kk, i ≠ j →
      (t.a0 (i * kk + j), t.a1 (i * kk + j)) = want ops.reverse i j := by
  have e : ops.foldl rkOp (fresh kk) = ops.reverse.foldr (fun o t => rkOp t o) (fresh kk) := by
    rw [List.foldr_reverse]
  intro t
  have hI := inv_all ops.reverse h
  rw [← e] at hI
  obtain ⟨hk, hd, ho⟩ := hI
  refine ⟨fun k lk x y z hs => ?_, fun i hi j hj ij => ?_⟩
  · have := hd k lk
    rw [hs] at this
    simp only [RKTab.at, hk, Prod.mk.injEq] at this
    rw [Nat.mul_comm, Nat.add_comm]
    exact ⟨this.1.1, this.1.2, this.2⟩
  · have := ho j hj i hi (Ne.symm ij)
    rw [want_comm]
    rw [← this]
    simp only [RKTab.at, hk, t]
    rw [Nat.mul_comm, Nat.add_comm]

/-- The tables are symmetric. -/
theorem rk_tables_symmetric {kk : ℕ} (ops : List Op) (h : Once kk ops.reverse) {i j : ℕ} (hi : i < kk) (hj : j < kk) :
    let t := ops.foldl rkOp (fresh kk)
    t.a0 (i * kk + j) = t.a0 (j * kk + i) ∧ t.a1 (i * kk + j) = t.a1 (j * kk + i) := by
  intro t
  by_cases c : i = j
  · rw [c]; exact ⟨rfl, rfl⟩
  · have h1 := (rk_tables ops h).2 i hi j hj c
    have h2 := (rk_tables ops h).2 j hj i hi (Ne.symm c)
    rw [want_comm, ← h2] at h1
    exact Prod.mk.injEq _ _ _ _ ▸ h1

/-- The flag for temperature dependence. -/
theorem rk_flag (t : RKTab) (ops : List Op) :
    (ops.foldl rkOp t).tp = true ↔ t.tp = true ∨ (∃ k x y z, Op.sp k x y z ∈ ops ∧ y ≠ 0) ∨
      ∃ i j x y, Op.bin i j x y ∈ ops ∧ y ≠ 0 := by
  have fold : ∀ (k : ℕ) (a0 a1 : ℝ) (l : List ℕ) (t : RKTab), (l.foldl (rkMix k a0 a1) t).tp = t.tp := by
    intro k a0 a1 l
    induction l with
    | nil => intro t; rfl
    | cons x l ih => intro t; rw [List.foldl_cons, ih, (rkMix_kk k a0 a1 t x).2.2]
  induction ops generalizing t with
  | nil => simp
  | cons o l ih =>
    rw [List.foldl_cons]
    refine (ih _).trans ?_
    cases o with
    | sp k x y z =>
      have : (rkOp t (.sp k x y z)).tp = if y ≠ 0 then true else t.tp := by
        simp only [rkOp, rkSet, fold]
      rw [this]
      by_cases c : y = 0
      · rw [if_neg (by simpa using c)]
        constructor
        · rintro (h | ⟨k', x', y', z', m, n⟩ | ⟨i, j, x', y', m, n⟩)
          · exact Or.inl h
          · exact Or.inr (Or.inl ⟨k', x', y', z', List.mem_cons_of_mem _ m, n⟩)
          · exact Or.inr (Or.inr ⟨i, j, x', y', List.mem_cons_of_mem _ m, n⟩)
        · rintro (h | ⟨k', x', y', z', m, n⟩ | ⟨i, j, x', y', m, n⟩)
          · exact Or.inl h
          · rcases List.mem_cons.1 m with m | m
            · injection m with _ _ m _
              exact absurd (m.trans c) n
            · exact Or.inr (Or.inl ⟨k', x', y', z', m, n⟩)
          · rcases List.mem_cons.1 m with m | m
            · cases m
            · exact Or.inr (Or.inr ⟨i, j, x', y', m, n⟩)
      · rw [if_pos c]
        exact ⟨fun _ => Or.inr (Or.inl ⟨k, x, y, z, List.mem_cons_self, c⟩), fun _ => Or.inl rfl⟩
    | bin i j x y =>
      have : (rkOp t (.bin i j x y)).tp = if y ≠ 0 then true else t.tp := rfl
      rw [this]
      by_cases c : y = 0
      · rw [if_neg (by simpa using c)]
        constructor
        · rintro (h | ⟨k', x', y', z', m, n⟩ | ⟨i', j', x', y', m, n⟩)
          · exact Or.inl h
          · exact Or.inr (Or.inl ⟨k', x', y', z', List.mem_cons_of_mem _ m, n⟩)
          · exact Or.inr (Or.inr ⟨i', j', x', y', List.mem_cons_of_mem _ m, n⟩)
        · rintro (h | ⟨k', x', y', z', m, n⟩ | ⟨i', j', x', y', m, n⟩)
          · exact Or.inl h
          · rcases List.mem_cons.1 m with m | m
            · cases m
            · exact Or.inr (Or.inl ⟨k', x', y', z', m, n⟩)
          · rcases List.mem_cons.1 m with m | m
            · injection m with _ _ _ m
              exact absurd (m.trans c) n
            · exact Or.inr (Or.inr ⟨i', j', x', y', m, n⟩)
      · rw [if_pos c]
        exact ⟨fun _ => Or.inr (Or.inr ⟨i, j, x, y, List.mem_cons_self, c⟩), fun _ => Or.inl rfl⟩

/-- Two pure species and a pair: the tables do not depend on whether the pair is given before, between or after. -/
example : Once 2 [Op.sp 1 4 0 1, Op.bin 0 1 5 0, Op.sp 0 1 0 1] := by
  simp [Once, lastSp]

/-- In full for two species, one pair, in the three orders. -/
theorem rk_orders (x y z x' y' z' u v : ℝ) :
    ∀ ops ∈ [[Op.bin 0 1 u v, Op.sp 0 x y z, Op.sp 1 x' y' z'], [Op.sp 0 x y z, Op.bin 1 0 u v, Op.sp 1 x' y' z'],
      [Op.sp 1 x' y' z', Op.sp 0 x y z, Op.bin 0 1 u v]],
      let t := ops.foldl rkOp (fresh 2)
      t.a0 0 = some x ∧ t.a0 1 = some u ∧ t.a0 2 = some u ∧ t.a0 3 = some x' ∧
      t.a1 0 = some y ∧ t.a1 1 = some v ∧ t.a1 2 = some v ∧ t.a1 3 = some y' ∧ t.b 0 = some z ∧ t.b 1 = some z' := by
  intro ops hops
  have key : ∀ ops : List Op, Once 2 ops.reverse → lastSp ops.reverse 0 = some (x, y, z) →
      lastSp ops.reverse 1 = some (x', y', z') → lastBin ops.reverse 0 1 = some (u, v) →
      let t := ops.foldl rkOp (fresh 2)
      t.a0 0 = some x ∧ t.a0 1 = some u ∧ t.a0 2 = some u ∧ t.a0 3 = some x' ∧
      t.a1 0 = some y ∧ t.a1 1 = some v ∧ t.a1 2 = some v ∧ t.a1 3 = some y' ∧ t.b 0 = some z ∧ t.b 1 = some z' := by
    intro ops h h0 h1 hb
    obtain ⟨d, o⟩ := rk_tables ops h
    have d0 := d 0 (by omega) x y z h0
    have d1 := d 1 (by omega) x' y' z' h1
    have o1 := o 0 (by omega) 1 (by omega) (by omega)
    have o2 := o 1 (by omega) 0 (by omega) (by omega)
    rw [want_comm] at o2
    simp only [want, hb, Prod.mk.injEq] at o1 o2
    exact ⟨d0.1, o1.1, o2.1, d1.1, d0.2.1, o1.2, o2.2, d1.2.1, d0.2.2, d1.2.2⟩
  simp only [List.mem_cons, List.not_mem_nil, or_false] at hops
  rcases hops with rfl | rfl | rfl <;> apply key <;> simp [Once, lastSp, lastBin]

/-- Without a pair: the geometric mean. -/
theorem rk_mixing (x y z x' y' z' : ℝ) (hx : 0 ≤ x * x') (hy : 0 ≤ y * y') :
    let t := [Op.sp 0 x y z, Op.sp 1 x' y' z'].foldl rkOp (fresh 2)
    t.a0 1 = some (Real.sqrt (x * x')) ∧ t.a0 2 = some (Real.sqrt (x * x')) ∧
      t.a1 1 = some (Real.sqrt (y * y')) ∧ t.a1 2 = some (Real.sqrt (y * y')) := by
  have h : Once 2 [Op.sp 0 x y z, Op.sp 1 x' y' z'].reverse := by simp [Once, lastSp]
  have o1 := (rk_tables _ h).2 0 (by omega) 1 (by omega) (by omega)
  have o2 := (rk_tables _ h).2 1 (by omega) 0 (by omega) (by omega)
  rw [want_comm] at o2
  simp [want, lastBin, lastSp, gmean, hx, hy] at o1 o2
  exact ⟨o1.1, o2.1, o1.2, o2.2⟩

/-- Two species with the same negative `a1`: the entry of the pair has the opposite sign, so the mixture of two identical
species differs from the pure species. -/
theorem rk_mixing_not_identical :
    let t := [Op.sp 0 1 (-1) 1, Op.sp 1 1 (-1) 1].foldl rkOp (fresh 2)
    t.a1 0 = some (-1) ∧ t.a1 3 = some (-1) ∧ t.a1 1 = some 1 := by
  have h : Once 2 [Op.sp 0 1 (-1) 1, Op.sp 1 1 (-1) 1].reverse := by simp [Once, lastSp]
  have d := (rk_tables _ h).1
  have o := rk_mixing 1 (-1) 1 1 (-1) 1 (by norm_num) (by norm_num)
  refine ⟨(d 0 (by omega) 1 (-1) 1 (by simp [lastSp])).2.1, (d 1 (by omega) 1 (-1) 1 (by simp [lastSp])).2.1, ?_⟩
  rw [o.2.2.1]; norm_num

/-- Opposite signs of `a1` give NaN, without an error. -/
theorem rk_mixing_nan :
    let t := [Op.sp 0 1 (-1) 1, Op.sp 1 1 1 1].foldl rkOp (fresh 2)
    t.a0 1 = some 1 ∧ t.a1 1 = none := by
  have h : Once 2 [Op.sp 0 1 (-1) 1, Op.sp 1 1 1 1].reverse := by simp [Once, lastSp]
  have o := (rk_tables _ h).2 0 (by omega) 1 (by omega) (by omega)
  norm_num [want, lastBin, lastSp, gmean] at o
  exact o

/-- Giving a species a second time leaves the entries of its pairs at their old values. -/
theorem rk_stale {k : ℕ} {a0 a1 b : ℝ} {t : RKTab} (hk : k < t.kk) {j : ℕ} (hj : j < t.kk) (jk : j ≠ k)
    (sym : ∀ j < t.kk, t.at j k = t.at k j) (set : t.a0 (j + t.kk * k) ≠ none) :
    (rkSet t k a0 a1 b).a0 (j + t.kk * k) = t.a0 (j + t.kk * k) ∧ (rkSet t k a0 a1 b).a0 (k + t.kk * j) = t.a0 (j + t.kk * k) := by
  set t1 : RKTab := { t with
    tp := if a1 ≠ 0 then true else t.tp
    a0 := Function.update t.a0 (k + t.kk * k) (some a0)
    a1 := Function.update t.a1 (k + t.kk * k) (some a1) } with ht1
  have o : ∀ p < t.kk, ∀ q, ¬ (p = k ∧ q = k) → t1.a0 (p + t.kk * q) = t.a0 (p + t.kk * q) ∧
      t1.a1 (p + t.kk * q) = t.a1 (p + t.kk * q) := by
    intro p hp q c
    have n : p + t.kk * q ≠ k + t.kk * k := by rw [Ne, idx_inj hp hk]; exact c
    simp only [ht1, Function.update_of_ne n, and_self]
  have sym1 : ∀ j < t1.kk, t1.at j k = t1.at k j := by
    intro i hi
    by_cases c : i = k
    · rw [c]
    · have := sym i hi
      simp only [RKTab.at] at this ⊢
      have e : t1.kk = t.kk := rfl
      rw [e, (o i hi k (by tauto)).1, (o i hi k (by tauto)).2, (o k hk i (by tauto)).1, (o k hk i (by tauto)).2, this]
  obtain ⟨f1, -, -, -, -, f6⟩ := rkMix_fold (a0 := a0) (a1 := a1) (t := t1) hk sym1 t1.kk le_rfl
  obtain ⟨g1, g2⟩ := f6 j hj jk
  have e : t1.kk = t.kk := rfl
  have s1 := (o j hj k (by tauto)).1
  rw [e, if_neg (by rw [s1]; tauto)] at g1 g2
  simp only [RKTab.at, e, Prod.mk.injEq] at g1 g2
  rw [e] at f1
  rw [f1, s1] at g1 g2
  exact ⟨g1.1, g2.1⟩

/-- For example `a = 1` and `4`, then `4` replaced by `9`: the pair stays at 2, not 3. -/
theorem rk_stale_witness :
    let t := [Op.sp 0 1 0 1, Op.sp 1 4 0 1, Op.sp 1 9 0 1].foldl rkOp (fresh 2)
    t.a0 1 = some 2 ∧ t.a0 2 = some 2 := by
  have m := rk_mixing 1 0 1 4 0 1 (by norm_num) (by norm_num)
  have s4 : Real.sqrt (1 * 4) = 2 := by
    rw [show (1 * 4 : ℝ) = 2 ^ 2 by norm_num]; exact Real.sqrt_sq (by norm_num)
  rw [s4] at m
  have h : Once 2 [Op.sp 0 1 0 1, Op.sp 1 4 0 1].reverse := by simp [Once, lastSp]
  have inv := inv_all _ h
  have e : [Op.sp 0 1 0 1, Op.sp 1 4 0 1].foldl rkOp (fresh 2) =
      [Op.sp 0 1 0 1, Op.sp 1 4 0 1].reverse.foldr (fun o t => rkOp t o) (fresh 2) := by rw [List.foldr_reverse]
  rw [← e] at inv
  have f : [Op.sp 0 1 0 1, Op.sp 1 4 0 1, Op.sp 1 9 0 1].foldl rkOp (fresh 2) =
      rkSet ([Op.sp 0 1 0 1, Op.sp 1 4 0 1].foldl rkOp (fresh 2)) 1 9 0 1 := rfl
  rw [f]
  generalize [Op.sp 0 1 0 1, Op.sp 1 4 0 1].foldl rkOp (fresh 2) = t at *
  have hk := inv.size
  have st := rk_stale (k := 1) (j := 0) (a0 := 9) (a1 := 0) (b := 1) (t := t) (by omega) (by omega) (by omega)
    (fun j hj => by
      by_cases c : j = 1
      · rw [c]
      · rw [inv.off j (by omega) 1 (by omega) c, inv.off 1 (by omega) j (by omega) (Ne.symm c), want_comm])
    (by rw [hk]; simp only [Nat.zero_add, Nat.mul_one]; rw [m.2.1]; simp)
  rw [hk] at st
  simp only [Nat.zero_add, Nat.mul_one, Nat.mul_zero, Nat.add_zero] at st
  rw [m.2.1] at st
  exact ⟨st.2, st.1⟩

/-- Adding a third species to a phase with two, whose coefficients are 1 and 4 with the pair at 2: the storage is kept, so
that entry 3, which was the second species, becomes one of the two entries of the first pair, and setting up the phase
again leaves it there. The table is not symmetric, and the pair has 4 and 2 instead of 2 and 2. -/
theorem rk_add_scrambles (t : RKTab) (hk : t.kk = 2) (h0 : t.a0 0 = some 1) (h1 : t.a0 1 = some 2)
    (h3 : t.a0 3 = some 4) (h4 : ∀ n ≥ 4, t.a0 n = none) :
    let t' := rkInit (rkAdd t) [(0, 1, 0, 1), (1, 4, 0, 1), (2, 9, 0, 1)]
    t'.a0 (0 + 3 * 1) = some 4 ∧ t'.a0 (1 + 3 * 0) = some 2 := by
  have r3 : List.range 3 = [0, 1, 2] := rfl
  have h44 := h4 4 (by omega)
  have h48 := h4 8 (by omega)
  have h46 := h4 6 (by omega)
  have h47 := h4 7 (by omega)
  simp [rkInit, rkAdd, rkSet, rkMix, hk, r3, h0, h1, h3, h44, h48, h46, h47, msqrt]

example : ∃ t : RKTab, t.kk = 2 ∧ t.a0 0 = some 1 ∧ t.a0 1 = some 2 ∧ t.a0 2 = some 2 ∧ t.a0 3 = some 4 ∧
    ∀ n ≥ 4, t.a0 n = none :=
  ⟨{ kk := 2, a0 := fun n => if n = 0 then some 1 else if n = 1 then some 2 else if n = 2 then some 2 else
      if n = 3 then some 4 else none, a1 := fun _ => none, b := fun _ => none, tp := false },
    rfl, rfl, rfl, rfl, rfl, fun n hn => by
      simp [show n ≠ 0 by omega, show n ≠ 1 by omega, show n ≠ 2 by omega, show n ≠ 3 by omega]⟩

/-- Setting the species up before any coefficient is known is the same as the calls in sequence. -/
theorem rk_init_fresh (kk : ℕ) (x y z x' y' z' : ℝ) (hk : 2 ≤ kk) :
    rkInit (fresh kk) [(0, x, y, z), (1, x', y', z')] = [Op.sp 0 x y z, Op.sp 1 x' y' z'].foldl rkOp (fresh kk) := by
  have h : Once kk [Op.sp 0 x y z] := by simp [Once, lastSp]; omega
  have inv := (inv_all [Op.sp 0 x y z] h).diag 1 (by omega)
  have sz := (inv_all [Op.sp 0 x y z] h).size
  simp only [List.foldr_cons, List.foldr_nil, rkOp] at inv sz
  simp [lastSp, RKTab.at] at inv
  simp only [rkInit, List.foldl_cons, List.foldl_nil, rkOp]
  rw [if_pos (show (fresh kk).a0 (0 + (fresh kk).kk * 0) = none from rfl), if_pos]
  simpa using inv.1.1

/-! ## Peng-Robinson -/

/-- Entry `(i, j)`. -/
def PRTab.at (t : PRTab) (i j : ℕ) : ℝ := t.a (i + t.kk * j)

theorem prMix_kk (k : ℕ) (a : ℝ) (t : PRTab) (j : ℕ) :
    (prMix k a t j).kk = t.kk ∧ (prMix k a t j).b = t.b ∧ (prMix k a t j).kap = t.kap := by
  rw [prMix]
  by_cases h : k = j
  · rw [if_pos h]; exact ⟨rfl, rfl, rfl⟩
  · rw [if_neg h]; dsimp only; split_ifs <;> exact ⟨rfl, rfl, rfl⟩

theorem prMix_other {k : ℕ} {a : ℝ} {t : PRTab} {j p q : ℕ} (hk : k < t.kk) (hj : j < t.kk)
    (hp : p < t.kk) (h : ¬ (p = j ∧ q = k) ∧ ¬ (p = k ∧ q = j)) : (prMix k a t j).at p q = t.at p q := by
  have e : ∀ f : ℕ → ℝ, ∀ x, Function.update (Function.update f (j + t.kk * k) x) (k + t.kk * j) x (p + t.kk * q) =
      f (p + t.kk * q) := fun f x => by
    rw [Function.update_of_ne, Function.update_of_ne]
    · rw [Ne, idx_inj hp hj]; exact h.1
    · rw [Ne, idx_inj hp hk]; exact h.2
  rw [prMix]
  by_cases c : k = j
  · rw [if_pos c]
  · rw [if_neg c]; dsimp only
    split_ifs
    · simp only [PRTab.at, e]
    · rfl

theorem prMix_new {k : ℕ} {a : ℝ} {t : PRTab} {j : ℕ} (hk : k < t.kk) (hj : j < t.kk) (jk : j ≠ k)
    (sym : t.at j k = t.at k j) :
    let e := if t.a (j + t.kk * k) = 0 then Real.sqrt (t.a (j + t.kk * j) * a) else t.at j k
    (prMix k a t j).at j k = e ∧ (prMix k a t j).at k j = e := by
  have ne : j + t.kk * k ≠ k + t.kk * j := by rw [Ne, idx_inj hj hk]; tauto
  dsimp only
  rw [prMix, if_neg jk.symm]
  dsimp only
  by_cases h2 : t.a (j + t.kk * k) = 0
  · rw [if_pos h2, if_pos h2]
    simp [PRTab.at, Function.update_self, Function.update_of_ne ne]
  · rw [if_neg h2, if_neg h2]; exact ⟨rfl, sym.symm⟩

/-- The loop of `setSpeciesCoeffs`. -/
theorem prMix_fold {k : ℕ} {a : ℝ} {t : PRTab} (hk : k < t.kk) (sym : ∀ j < t.kk, t.at j k = t.at k j) :
    ∀ n ≤ t.kk, let t' := (List.range n).foldl (prMix k a) t
      t'.kk = t.kk ∧ t'.b = t.b ∧ t'.kap = t.kap ∧
      (∀ p < t.kk, ∀ q < t.kk, p ≠ k → q ≠ k → t'.at p q = t.at p q) ∧ t'.at k k = t.at k k ∧
      ∀ j < t.kk, j ≠ k →
        let e := if j < n ∧ t.a (j + t.kk * k) = 0 then Real.sqrt (t.a (j + t.kk * j) * a) else t.at j k
        t'.at j k = e ∧ t'.at k j = e := by
  intro n
  induction n with
  | zero =>
    intro _
    refine ⟨rfl, rfl, rfl, fun _ _ _ _ _ _ => rfl, rfl, fun j hj _ => ?_⟩
    simp only [Nat.not_lt_zero, false_and, if_false]
    exact ⟨rfl, (sym j hj).symm⟩
  | succ n ih =>
    intro hn
    obtain ⟨e1, e2, e3, e4, e5, e6⟩ := ih (by omega)
    simp only [List.range_succ, List.foldl_append, List.foldl_cons, List.foldl_nil]
    generalize ht' : (List.range n).foldl (prMix k a) t = t' at *
    obtain ⟨k1, k2, k3⟩ := prMix_kk k a t' n
    have hk' : k < t'.kk := by rw [e1]; exact hk
    have hn' : n < t'.kk := by rw [e1]; omega
    refine ⟨k1.trans e1, k2.trans e2, k3.trans e3, ?_, ?_, ?_⟩
    · intro p hp q hq pk qk
      rw [prMix_other hk' hn' (by rw [e1]; exact hp) ⟨by tauto, by tauto⟩]
      exact e4 p hp q hq pk qk
    · by_cases nk : n = k
      · subst nk
        rw [prMix, if_pos rfl]; exact e5
      · rw [prMix_other hk' hn' hk' ⟨by tauto, by tauto⟩]; exact e5
    · intro j hj jk
      have hj' : j < t'.kk := by rw [e1]; exact hj
      obtain ⟨f1, f2⟩ := e6 j hj jk
      by_cases jn : j = n
      · subst jn
        simp only [lt_self_iff_false, false_and, if_false] at f1 f2
        obtain ⟨g1, g2⟩ := prMix_new (a := a) hk' hj' jk (f1.trans f2.symm)
        have d : t'.at j j = t.at j j := e4 j hj j hj jk jk
        have fa := f1
        simp only [PRTab.at] at d f1
        rw [e1] at d f1 g1 g2
        rw [d, f1, fa] at g1 g2
        simp only [Nat.lt_succ_self, true_and]
        exact ⟨g1, g2⟩
      · rw [prMix_other hk' hn' hj' ⟨by tauto, by tauto⟩, prMix_other hk' hn' hk' ⟨by tauto, by tauto⟩]
        have : (j < n + 1) ↔ j < n := by omega
        simp only [this]
        exact ⟨f1, f2⟩

/-- The coefficients given for species `m`; lists of calls have the latest call first. -/
def lastP : List POp → ℕ → Option (ℝ × ℝ × ℝ)
  | [], _ => none
  | .sp k a b w :: r, m => if k = m then some (a, b, w) else lastP r m
  | .bin _ _ _ :: r, m => lastP r m

/-- The coefficient given for the pair `p`, `q`. -/
def lastPBin : List POp → ℕ → ℕ → Option ℝ
  | [], _, _ => none
  | .sp _ _ _ _ :: r, p, q => lastPBin r p q
  | .bin i j a0 :: r, p, q => if i = p ∧ j = q ∨ i = q ∧ j = p then some a0 else lastPBin r p q

/-- Every species is given once, the pairs are pairs of different species, and their coefficients are not zero. -/
def POnce (kk : ℕ) : List POp → Prop
  | [] => True
  | .sp k _ _ _ :: r => k < kk ∧ lastP r k = none ∧ POnce kk r
  | .bin i j a0 :: r => i < kk ∧ j < kk ∧ i ≠ j ∧ a0 ≠ 0 ∧ POnce kk r

/-- The entry expected for a pair. -/
noncomputable def wantP (l : List POp) (i j : ℕ) : ℝ :=
  match lastPBin l i j with
  | some x => x
  | none =>
    match lastP l i, lastP l j with
    | some (x, _, _), some (x', _, _) => Real.sqrt (x * x')
    | _, _ => 0

theorem lastPBin_comm (l : List POp) (i j : ℕ) : lastPBin l i j = lastPBin l j i := by
  induction l with
  | nil => rfl
  | cons o r ih =>
    cases o with
    | sp k a b w => exact ih
    | bin p q a0 =>
      simp only [lastPBin, ih]
      have : (p = i ∧ q = j ∨ p = j ∧ q = i) ↔ (p = j ∧ q = i ∨ p = i ∧ q = j) := or_comm
      simp only [this]

theorem wantP_comm (l : List POp) (i j : ℕ) : wantP l i j = wantP l j i := by
  simp only [wantP, lastPBin_comm l i j]
  rcases lastPBin l j i with _ | x
  · rcases lastP l i with _ | ⟨x, y, z⟩ <;> rcases lastP l j with _ | ⟨x', y', z'⟩ <;> try rfl
    simp only [mul_comm x x']
  · rfl

theorem lastPBin_ne {kk : ℕ} : ∀ {l : List POp}, POnce kk l → ∀ {i j : ℕ} {x : ℝ}, lastPBin l i j = some x → x ≠ 0
  | [], _, _, _, _, h => by simp [lastPBin] at h
  | .sp _ _ _ _ :: l, o, _, _, _, h => lastPBin_ne (l := l) o.2.2 h
  | .bin p q a0 :: l, o, i, j, x, h => by
    simp only [lastPBin] at h
    by_cases c : p = i ∧ q = j ∨ p = j ∧ q = i
    · rw [if_pos c] at h
      injection h with h
      rw [← h]; exact o.2.2.2.1
    · rw [if_neg c] at h
      exact lastPBin_ne o.2.2.2.2 h

/-- The phase with `kk` species and no coefficients. -/
def freshP (kk : ℕ) : PRTab := { kk := kk, a := fun _ => 0, b := fun _ => 0, kap := fun _ => 0 }

/-- What the tables contain after the calls `l`. -/
structure InvP (kk : ℕ) (t : PRTab) (l : List POp) : Prop where
  size : t.kk = kk
  diag : ∀ k < kk, match lastP l k with
    | none => t.at k k = 0
    | some (x, y, w) => t.at k k = x ∧ t.b k = y ∧ t.kap k = kappa w
  off : ∀ i < kk, ∀ j < kk, i ≠ j → t.at i j = wantP l i j

theorem invP_bin {kk : ℕ} {t : PRTab} {l : List POp} (h : InvP kk t l) {i j : ℕ} (hi : i < kk) (hj : j < kk) (ij : i ≠ j)
    (a0 : ℝ) : InvP kk (prBin t i j a0) (.bin i j a0 :: l) := by
  obtain ⟨rfl, hd, ho⟩ := h
  have e : ∀ p < t.kk, ∀ q < t.kk, (prBin t i j a0).at p q =
      if i = p ∧ j = q ∨ i = q ∧ j = p then a0 else t.at p q := by
    intro p hp q hq
    simp only [prBin, PRTab.at]
    by_cases c1 : p = i ∧ q = j
    · obtain ⟨rfl, rfl⟩ := c1
      simp
    · have n1 : p + t.kk * q ≠ i + t.kk * j := by rw [Ne, idx_inj hp hi]; exact c1
      rw [Function.update_of_ne n1]
      by_cases c2 : p = j ∧ q = i
      · obtain ⟨rfl, rfl⟩ := c2
        simp
      · have n2 : p + t.kk * q ≠ j + t.kk * i := by rw [Ne, idx_inj hp hj]; exact c2
        rw [Function.update_of_ne n2, if_neg]
        rintro (⟨rfl, rfl⟩ | ⟨rfl, rfl⟩)
        · exact c1 ⟨rfl, rfl⟩
        · exact c2 ⟨rfl, rfl⟩
  refine ⟨rfl, ?_, ?_⟩
  · intro k hk
    have d := hd k hk
    simp only [lastP]
    have n : ¬ (i = k ∧ j = k ∨ i = k ∧ j = k) := by rintro (⟨rfl, rfl⟩ | ⟨rfl, rfl⟩) <;> exact ij rfl
    rw [e k hk k hk, if_neg n]
    exact d
  · intro p hp q hq pq
    rw [e p hp q hq]
    by_cases c : i = p ∧ j = q ∨ i = q ∧ j = p
    · rw [if_pos c]; simp only [wantP, lastPBin, if_pos c]
    · rw [if_neg c, ho p hp q hq pq]; simp only [wantP, lastPBin, if_neg c, lastP]

theorem invP_sp {kk : ℕ} {t : PRTab} {l : List POp} (hl : POnce kk l) (h : InvP kk t l) {k : ℕ} (hk : k < kk)
    (once : lastP l k = none) (a b w : ℝ) : InvP kk (prSet t k a b w) (.sp k a b w :: l) := by
  obtain ⟨rfl, hd, ho⟩ := h
  set t1 : PRTab := { t with
    kap := Function.update t.kap k (kappa w), a := Function.update t.a (k + t.kk * k) a } with ht1
  have at1 : ∀ p < t.kk, ∀ q, t1.at p q = if p = k ∧ q = k then a else t.at p q := by
    intro p hp q
    simp only [ht1, PRTab.at]
    by_cases c : p = k ∧ q = k
    · obtain ⟨rfl, rfl⟩ := c
      simp
    · have n : p + t.kk * q ≠ k + t.kk * k := by rw [Ne, idx_inj hp hk]; exact c
      rw [Function.update_of_ne n, if_neg c]
  have sym : ∀ j < t1.kk, t1.at j k = t1.at k j := by
    intro j hj
    by_cases c : j = k
    · rw [c]
    · rw [at1 j hj k, at1 k hk j, if_neg (by tauto), if_neg (by tauto), ho j hj k hk c, ho k hk j hj (Ne.symm c), wantP_comm]
  obtain ⟨f1, f2, f3, f4, f5, f6⟩ := prMix_fold (a := a) (t := t1) hk sym t1.kk le_rfl
  have res : ∀ p q, (prSet t k a b w).at p q = ((List.range t1.kk).foldl (prMix k a) t1).at p q := fun p q => rfl
  have resb : (prSet t k a b w).b = Function.update ((List.range t1.kk).foldl (prMix k a) t1).b k b := rfl
  have resk : (prSet t k a b w).kap = ((List.range t1.kk).foldl (prMix k a) t1).kap := rfl
  have reskk : (prSet t k a b w).kk = ((List.range t1.kk).foldl (prMix k a) t1).kk := rfl
  generalize (List.range t1.kk).foldl (prMix k a) t1 = t' at *
  refine ⟨reskk.trans f1, ?_, ?_⟩
  · intro m hm
    by_cases c : k = m
    · subst c
      simp only [lastP, if_true]
      rw [res, f5, at1 k hk k, if_pos ⟨rfl, rfl⟩, resb, Function.update_self, resk, f3]
      refine ⟨rfl, rfl, ?_⟩
      simp only [ht1, Function.update_self]
    · have cm : m ≠ k := fun e => c e.symm
      simp only [lastP, if_neg c]
      rw [res, f4 m hm m hm cm cm, at1 m hm m, if_neg (by tauto), resb, Function.update_of_ne cm, f2, resk, f3]
      have := hd m hm
      simp only [ht1, Function.update_of_ne cm]
      exact this
  · have main : ∀ j < t.kk, j ≠ k → t'.at j k = wantP (.sp k a b w :: l) j k ∧
        t'.at k j = wantP (.sp k a b w :: l) j k := by
      intro j hj jk
      obtain ⟨g1, g2⟩ := f6 j hj jk
      have key : (if j < t1.kk ∧ t1.a (j + t1.kk * k) = 0 then
          Real.sqrt (t1.a (j + t1.kk * j) * a) else t1.at j k) = wantP (.sp k a b w :: l) j k := by
        have d1 : t1.at j j = t.at j j := by rw [at1 j hj j, if_neg (by tauto)]
        have d2 : t1.at j k = wantP l j k := by rw [at1 j hj k, if_neg (by tauto), ho j hj k hk jk]
        have dj := hd j hj
        rw [← d1] at dj
        simp only [PRTab.at] at d2 dj ⊢
        have kj : ¬ k = j := fun e => jk e.symm
        simp only [wantP, lastPBin, lastP, once, if_true, if_neg kj] at d2 ⊢
        rcases lb : lastPBin l j k with _ | x
        · rw [lb] at d2
          rcases ls : lastP l j with _ | ⟨x, y, z⟩
          · rw [ls] at dj d2
            dsimp only at d2 dj
            rw [dj, d2]
            simp
          · rw [ls] at dj d2
            dsimp only at d2 dj
            rw [dj.1, d2, if_pos ⟨hj, rfl⟩]
        · rw [lb] at d2
          dsimp only at d2
          rw [d2, if_neg]
          exact fun c => lastPBin_ne hl lb c.2
      rw [key] at g1 g2
      exact ⟨g1, g2⟩
    intro i hi j hj ij
    rw [res]
    by_cases ci : i = k
    · subst ci
      rw [wantP_comm]; exact (main j hj (Ne.symm ij)).2
    · by_cases cj : j = k
      · subst cj
        exact (main i hi ij).1
      · rw [f4 i hi j hj ci cj, at1 i hi j, if_neg (by tauto), ho i hi j hj ij]
        simp only [wantP, lastPBin, lastP, if_neg (fun e : k = i => ci e.symm), if_neg (fun e : k = j => cj e.symm)]

theorem invP_all {kk : ℕ} : ∀ l : List POp, POnce kk l → InvP kk (l.foldr (fun o t => prOp t o) (freshP kk)) l
  | [], _ => ⟨rfl, fun _ _ => rfl, fun _ _ _ _ _ => rfl⟩
  | .sp _ _ _ _ :: l, h => invP_sp h.2.2 (invP_all l h.2.2) h.1 h.2.1 _ _ _
  | .bin _ _ _ :: l, h => invP_bin (invP_all l h.2.2.2.2) h.1 h.2.1 h.2.2.1 _

/-- After any sequence of calls in which every species is given once and no pair is given a zero, the tables contain the
coefficients given, and the geometric means for the pairs that were not given, whatever the order of the calls. -/
theorem pr_tables {kk : ℕ} (ops : List POp) (h : POnce kk ops.reverse) :
    let t := ops.foldl prOp (freshP kk)
    (∀ k < kk, ∀ x y w, lastP ops.reverse k = some (x, y, w) →
      t.a (k * kk + k) = x ∧ t.b k = y ∧
      t.kap k = if w ≤ 0.491 then 0.37464 + 1.54226 * w - 0.26992 * w ^ 2
        else 0.374642 + 1.487503 * w - 0.164423 * w ^ 2 + 0.016666 * w ^ 3) ∧
    ∀ i < kk, ∀ j < kk, i ≠ j → t.a (i * kk + j) = wantP ops.reverse i j := by
  have e : ops.foldl prOp (freshP kk) = ops.reverse.foldr (fun o t => prOp t o) (freshP kk) := by
    rw [List.foldr_reverse]
  intro t
  have hI := invP_all ops.reverse h
  rw [← e] at hI
  obtain ⟨hk, hd, ho⟩ := hI
  refine ⟨fun k lk x y w hs => ?_, fun i hi j hj ij => ?_⟩
  · have := hd k lk
    rw [hs] at this
    simp only [PRTab.at, hk] at this
    rw [Nat.mul_comm, Nat.add_comm]
    refine ⟨this.1, this.2.1, this.2.2.trans ?_⟩
    simp only [kappa]
    split_ifs <;> ring
  · have := ho j hj i hi (Ne.symm ij)
    rw [wantP_comm]
    rw [← this]
    simp only [PRTab.at, hk, t]
    rw [Nat.mul_comm, Nat.add_comm]

/-- The table is symmetric. -/
theorem pr_tables_symmetric {kk : ℕ} (ops : List POp) (h : POnce kk ops.reverse) {i j : ℕ} (hi : i < kk) (hj : j < kk) :
    let t := ops.foldl prOp (freshP kk)
    t.a (i * kk + j) = t.a (j * kk + i) := by
  intro t
  by_cases c : i = j
  · rw [c]
  · have h1 := (pr_tables ops h).2 i hi j hj c
    have h2 := (pr_tables ops h).2 j hj i hi (Ne.symm c)
    rw [wantP_comm, ← h2] at h1
    exact h1

example : POnce 2 [POp.sp 1 4 1 0, POp.bin 0 1 5, POp.sp 0 1 1 0] := by
  simp [POnce, lastP]

/-- Without a pair: the geometric mean. -/
theorem pr_mixing (x y z x' y' z' : ℝ) :
    let t := [POp.sp 0 x y z, POp.sp 1 x' y' z'].foldl prOp (freshP 2)
    t.a 0 = x ∧ t.a 1 = Real.sqrt (x * x') ∧ t.a 2 = Real.sqrt (x * x') ∧ t.a 3 = x' := by
  have h : POnce 2 [POp.sp 0 x y z, POp.sp 1 x' y' z'].reverse := by simp [POnce, lastP]
  have d0 := (pr_tables _ h).1 0 (by omega) x y z (by simp [lastP])
  have d1 := (pr_tables _ h).1 1 (by omega) x' y' z' (by simp [lastP])
  have o1 := (pr_tables _ h).2 0 (by omega) 1 (by omega) (by omega)
  have o2 := (pr_tables _ h).2 1 (by omega) 0 (by omega) (by omega)
  rw [wantP_comm] at o2
  have w : wantP [POp.sp 0 x y z, POp.sp 1 x' y' z'].reverse 0 1 = Real.sqrt (x * x') := by
    simp [wantP, lastPBin, lastP]
  rw [w] at o1 o2
  exact ⟨d0.1, o1, o2, d1.1⟩

/-- A pair for which zero was given is overwritten when one of its species is given afterwards, and is kept when it is given
last: the tables depend on the order of the calls. -/
theorem pr_zero_pair :
    let s0 := POp.sp 0 1 1 0
    let s1 := POp.sp 1 4 1 0
    ([s0, POp.bin 0 1 0, s1].foldl prOp (freshP 2)).a 1 = 2 ∧ ([s0, s1, POp.bin 0 1 0].foldl prOp (freshP 2)).a 1 = 0 := by
  have r2 : List.range 2 = [0, 1] := rfl
  have s4 : Real.sqrt 4 = 2 := by
    rw [show (4 : ℝ) = 2 ^ 2 by norm_num]; exact Real.sqrt_sq (by norm_num)
  constructor
  · simp [prOp, prSet, prBin, prMix, freshP, r2, Function.update, s4]
  · simp [prOp, prSet, prBin, prMix, freshP, r2, Function.update]

/-- Giving a species a second time leaves the entries of its pairs at their old values. -/
theorem pr_stale :
    let t := [POp.sp 0 1 1 0, POp.sp 1 4 1 0, POp.sp 1 9 1 0].foldl prOp (freshP 2)
    t.a 3 = 9 ∧ t.a 1 = 2 ∧ t.a 2 = 2 := by
  have r2 : List.range 2 = [0, 1] := rfl
  have s4 : Real.sqrt 4 = 2 := by
    rw [show (4 : ℝ) = 2 ^ 2 by norm_num]; exact Real.sqrt_sq (by norm_num)
  simp [prOp, prSet, prMix, freshP, r2, Function.update, s4]

/-- Adding a third species, as for Redlich-Kwong. -/
theorem pr_add_scrambles (t : PRTab) (hk : t.kk = 2) (h0 : t.a 0 = 1) (h1 : t.a 1 = 2)
    (h3 : t.a 3 = 4) (h4 : ∀ n ≥ 4, t.a n = 0) :
    let t' := prInit (prAdd t) [(0, 1, 1, 0), (1, 4, 1, 0), (2, 9, 1, 0)]
    t'.a (0 + 3 * 1) = 4 ∧ t'.a (1 + 3 * 0) = 2 := by
  have r3 : List.range 3 = [0, 1, 2] := rfl
  have h44 := h4 4 (by omega)
  have h48 := h4 8 (by omega)
  have h46 := h4 6 (by omega)
  have h45 := h4 5 (by omega)
  simp [prInit, prAdd, prSet, prMix, hk, r3, h0, h1, h3, h44, h48, h46, h45, Function.update]

example : ∃ t : PRTab, t.kk = 2 ∧ t.a 0 = 1 ∧ t.a 1 = 2 ∧ t.a 2 = 2 ∧ t.a 3 = 4 ∧ ∀ n ≥ 4, t.a n = 0 :=
  ⟨{ kk := 2, a := fun n => if n = 0 then 1 else if n = 1 then 2 else if n = 2 then 2 else
      if n = 3 then 4 else 0, b := fun _ => 0, kap := fun _ => 0 },
    rfl, by norm_num, by norm_num, by norm_num, by norm_num, fun n hn => by
      simp [show n ≠ 0 by omega, show n ≠ 1 by omega, show n ≠ 2 by omega, show n ≠ 3 by omega]⟩

/-- Setting a phase without species up as species are added one by one: the tables are those of the fresh phase. -/
theorem add_fresh (kk : ℕ) : rkAdd^[kk] rkEmpty = fresh kk ∧ prAdd^[kk] prEmpty = freshP kk := by
  induction kk with
  | zero => exact ⟨rfl, rfl⟩
  | succ n ih => rw [Function.iterate_succ_apply', Function.iterate_succ_apply', ih.1, ih.2]; exact ⟨rfl, rfl⟩

/-! ## Critical temperature -/

theorem critLoop_none (c aT a0 : ℝ) : ∀ n d, (critLoop c aT a0 n none d).1 = none
  | 0, _ => rfl
  | n + 1, _ => by rw [critLoop]; exact critLoop_none c aT a0 n none

theorem critLoop_none2 (c aT a0 : ℝ) : ∀ n, (critLoop c aT a0 n none none).2 = none
  | 0 => rfl
  | n + 1 => by rw [critLoop]; exact critLoop_none2 c aT a0 n

/-- At a fixed point the result is a critical temperature: the defining equation holds. -/
theorem crit_fixed {c aT a0 tc : ℝ} (h : 1.5 * c * Real.sqrt tc - aT ≠ 0)
    (fp : tc + -(c * tc * Real.sqrt tc - aT * tc - a0) / (1.5 * c * Real.sqrt tc - aT) = tc) :
    c * tc * Real.sqrt tc = a0 + aT * tc := by
  have : -(c * tc * Real.sqrt tc - aT * tc - a0) / (1.5 * c * Real.sqrt tc - aT) = 0 := by linarith
  rcases div_eq_zero_iff.1 this with h' | h'
  · linarith
  · exact absurd h' h

/-- One more step is a Newton step for that equation. -/
theorem crit_step {c aT a0 tc : ℝ} {d : Option ℝ} (n : ℕ) (ht : 0 ≤ tc) (h : 1.5 * c * Real.sqrt tc - aT ≠ 0) :
    critLoop c aT a0 (n + 1) (some tc) d =
      critLoop c aT a0 n (some (tc - (c * tc * Real.sqrt tc - aT * tc - a0) / (1.5 * c * Real.sqrt tc - aT)))
        (some (-(c * tc * Real.sqrt tc - aT * tc - a0) / (1.5 * c * Real.sqrt tc - aT))) := by
  rw [critLoop]
  rw [if_neg (by push Not; exact ⟨ht, h⟩)]
  dsimp only
  rw [show tc + -(c * tc * Real.sqrt tc - aT * tc - a0) / (1.5 * c * Real.sqrt tc - aT) =
    tc - (c * tc * Real.sqrt tc - aT * tc - a0) / (1.5 * c * Real.sqrt tc - aT) by ring]

/-- Without temperature dependence the starting value is kept. -/
theorem crit_constant {c a0 : ℝ} (hc : 0 < c) (ha : 0 < a0) : critTemp c 0 a0 = .ok (some ((a0 / c) ^ (2 / 3 : ℝ))) := by
  set tc := (a0 / c) ^ (2 / 3 : ℝ) with htc
  have hq : 0 < a0 / c := div_pos ha hc
  have h0 : 0 < tc := Real.rpow_pos_of_pos hq _
  have hs : tc * Real.sqrt tc = a0 / c := by
    rw [Real.sqrt_eq_rpow, htc, ← Real.rpow_mul hq.le, ← Real.rpow_add hq]
    norm_num
  have f0 : c * tc * Real.sqrt tc - 0 * tc - a0 = 0 := by
    rw [mul_assoc, hs]; field_simp; ring
  have key : ∀ n d, critLoop c 0 a0 (n + 1) (some tc) d = (some tc, some 0) := by
    intro n
    induction n with
    | zero =>
      intro d
      rw [crit_step 0 h0.le (by have := Real.sqrt_pos.2 h0; have := mul_pos hc this; nlinarith), f0]
      simp [critLoop]
    | succ n ih =>
      intro d
      rw [crit_step (n + 1) h0.le (by have := Real.sqrt_pos.2 h0; have := mul_pos hc this; nlinarith), f0]
      simp only [zero_div, sub_zero, neg_zero]
      exact ih _
  rw [critTemp, ← htc, key 9]
  norm_num

/-- NaN is returned without an error: with `c = 1`, `a0 = 1`, `aT = 2` the first step leads to -3, whose square root is
NaN. -/
theorem crit_nan : critTemp 1 2 1 = .ok none := by
  have r : critLoop 1 2 1 10 (some ((1 / 1 : ℝ) ^ (2 / 3 : ℝ))) none = (none, none) := by
    rw [div_one, Real.one_rpow, crit_step 9 (by norm_num) (by norm_num)]
    norm_num
    rw [critLoop, if_pos (Or.inl (by norm_num))]
    exact Prod.ext (critLoop_none _ _ _ _ _) (critLoop_none2 _ _ _ _)
  rw [critTemp, r]

/-- An error is raised only for a last step above 0.1; a last step below -0.1 is accepted. -/
theorem crit_throw_iff (c aT a0 : ℝ) :
    critTemp c aT a0 = .throw ↔ ∃ d, (critLoop c aT a0 10 (some ((a0 / c) ^ (2 / 3 : ℝ))) none).2 = some d ∧ 0.1 < d := by
  rw [critTemp]
  rcases (critLoop c aT a0 10 (some ((a0 / c) ^ (2 / 3 : ℝ))) none).2 with _ | d
  · simp
  · dsimp only
    by_cases h : d > 0.1
    · rw [if_pos h]; exact ⟨fun _ => ⟨d, rfl, h⟩, fun _ => rfl⟩
    · rw [if_neg h]
      constructor
      · intro e; cases e
      · rintro ⟨d', e, h'⟩
        injection e with e
        exact absurd (e ▸ h') h

end Verif.Fluid.Tables
