import Verif.Basic
import Mathlib.Data.Real.Basic
import Mathlib.Algebra.BigOperators.Intervals
import Mathlib.Analysis.SpecialFunctions.Integrals.Basic
import Mathlib.Tactic.Ring
import Mathlib.Tactic.Linarith
import Mathlib.Tactic.FieldSimp

/-!
# C32: interpolation and quadrature helpers (src/numerics/funcs.cpp)

Doubles are reals.  Vectors are lists; reading outside is `ub`.  An Eigen `tail(n-1)` of an
empty array is `ub`.
-/

namespace Verif.Funcs

open Verif

/-- `std::lower_bound` on a sorted range: the number of leading elements `< x`. -/
noncomputable def lowerBound (x : ℝ) : List ℝ → ℕ
  | [] => 0
  | y :: ys => if y < x then lowerBound x ys + 1 else 0

/-- funcs.cpp:13-27.  `xpts.back()` is element `size-1`. -/
noncomputable def linearInterp (x : ℝ) (xpts fpts : List ℝ) : Outcome ℝ :=
  Outcome.vecGet xpts 0 >>= fun x0 =>
  if x ≤ x0 then Outcome.vecGet fpts 0
  else Outcome.vecGet xpts (xpts.length - 1) >>= fun xl =>
    if x ≥ xl then (if fpts = [] then .ub else Outcome.vecGet fpts (fpts.length - 1))
    else
      let loc := lowerBound x xpts
      if loc = 0 then .ub else
      let i := loc - 1
      Outcome.vecGet fpts i >>= fun fi => Outcome.vecGet fpts (i + 1) >>= fun fi1 =>
      Outcome.vecGet xpts i >>= fun xi => Outcome.vecGet xpts (i + 1) >>= fun xi1 =>
      .ok (fi + (x - xi) * (fi1 - fi) / (xi1 - xi))

/-- Differences `x.tail(n-1) - x.head(n-1)`. -/
def diffs : List ℝ → List ℝ
  | a :: b :: r => (b - a) :: diffs (b :: r)
  | _ => []

/-- Sums `f.tail(n-1) + f.head(n-1)`. -/
def sums : List ℝ → List ℝ
  | a :: b :: r => (b + a) :: sums (b :: r)
  | _ => []

/-- Eigen `dot` of equally long vectors. -/
def dot (a b : List ℝ) : ℝ := (List.zipWith (· * ·) a b).sum

/-- funcs.cpp:29-46 -/
noncomputable def trapezoidal (f x : List ℝ) : Outcome ℝ :=
  if f.length ≠ x.length then .throw
  else if f = [] then .ub
  else if ∃ d ∈ diffs x, d ≤ 0 then .throw
  else .ok (dot (sums f) (diffs x) / 2)

/-- Body of the loop of `basicSimpson` (funcs.cpp:74-82): one panel. -/
noncomputable def panel (h0 h1 f0 f1 f2 : ℝ) : ℝ :=
  let hph := h1 + h0
  let hdh := h1 / h0
  let hmh := h1 * h0
  (hph / 6) * ((2 - hdh) * f0 + (hph ^ 2 / hmh) * f1 + (2 - 1 / hdh) * f2)

/-- Loop of `basicSimpson` (funcs.cpp:73-83) over `i = 1, 3, …`, two points per step, with `h[i-1]`, `h[i]`. -/
noncomputable def simpsonLoop : List ℝ → List ℝ → ℝ → ℝ
  | f0 :: f1 :: f2 :: fs, x0 :: x1 :: x2 :: xs, sum =>
    simpsonLoop (f2 :: fs) (x2 :: xs) (sum + panel (x1 - x0) (x2 - x1) f0 f1 f2)
  | _, _, sum => sum

/-- funcs.cpp:59-85; both vectors have the same length at every call site. -/
noncomputable def basicSimpson (f x : List ℝ) : Outcome ℝ :=
  if f.length < 2 then .throw
  else if f.length % 2 = 0 then .throw
  else .ok (simpsonLoop f x 0)

/-- funcs.cpp:87-110 -/
noncomputable def simpson (f x : List ℝ) : Outcome ℝ :=
  if x = [] then .ub
  else if ∃ d ∈ diffs x, d ≤ 0 then .throw
  else if f.length ≠ x.length then .throw
  else if f.length % 2 = 1 then basicSimpson f x
  else if f.length = 2 then
    Outcome.vecGet (diffs x) 0 >>= fun h0 => Outcome.vecGet f 0 >>= fun f0 => Outcome.vecGet f 1 >>= fun f1 =>
    .ok (1 / 2 * h0 * (f1 + f0))
  else
    let N := f.length - 1
    basicSimpson (f.take N) (x.take N) >>= fun headSimps =>
    Outcome.vecGet (diffs x) (N - 1) >>= fun h => Outcome.vecGet f N >>= fun fN =>
    Outcome.vecGet f (N - 1) >>= fun fN1 =>
    .ok (headSimps + 1 / 2 * h * (fN + fN1))

/-- funcs.cpp:112-125 -/
noncomputable def numericalQuadrature (method : String) (f x : List ℝ) : Outcome ℝ :=
  if method = "simpson" then simpson f x
  else if method = "trapezoidal" then trapezoidal f x
  else .throw

/-! ## linearInterp -/

theorem lowerBound_spec (x : ℝ) (xs : List ℝ) (i : ℕ) (hs : xs.Pairwise (· ≤ ·))
    (h1 : ∃ a, xs[i]? = some a ∧ a < x) (h2 : ∃ b, xs[i + 1]? = some b ∧ x ≤ b) :
    lowerBound x xs = i + 1 := by
  induction xs generalizing i with
  | nil => simp at h1
  | cons y ys ih =>
    rw [List.pairwise_cons] at hs
    cases i with
    | zero =>
      obtain ⟨a, ha, hax⟩ := h1
      obtain ⟨b, hb, hxb⟩ := h2
      simp at ha hb; subst ha
      simp only [lowerBound, if_pos hax]
      cases ys with
      | nil => simp at hb
      | cons z zs => simp at hb; subst hb; simp [lowerBound, not_lt.2 hxb]
    | succ i =>
      obtain ⟨a, ha, hax⟩ := h1
      have hy : y < x := lt_of_le_of_lt (hs.1 a (by
        simp only [List.getElem?_cons_succ] at ha; exact List.mem_of_getElem? ha)) hax
      simp only [lowerBound, if_pos hy]
      rw [ih i hs.2 ⟨a, by simpa using ha, hax⟩ (by simpa using h2)]

/-- Left of the first node the first value is returned. -/
theorem interp_left (x x0 f0 : ℝ) (xs fs : List ℝ) (h : x ≤ x0) :
    linearInterp x (x0 :: xs) (f0 :: fs) = .ok f0 := by
  simp [linearInterp, Outcome.vecGet, h]

/-- Right of the last node the last value is returned (at least two different nodes, or `x` beyond the only one). -/
theorem interp_right (x : ℝ) (xs fs : List ℝ) (x0 xl fl : ℝ) (h0 : xs[0]? = some x0)
    (hl : xs[xs.length - 1]? = some xl) (hf : fs[fs.length - 1]? = some fl)
    (hx0 : x0 < x) (h : xl ≤ x) :
    linearInterp x xs fs = .ok fl := by
  have hne : fs ≠ [] := by rintro rfl; simp at hf
  simp [linearInterp, Outcome.vecGet, h0, hl, hf, not_le.2 hx0, h, hne]

theorem sorted_mono (xs : List ℝ) (hs : xs.Pairwise (· ≤ ·)) (p q : ℕ) (u v : ℝ) (hpq : p ≤ q)
    (hp : xs[p]? = some u) (hq : xs[q]? = some v) : u ≤ v := by
  obtain ⟨hp1, hp2⟩ := List.getElem?_eq_some_iff.1 hp
  obtain ⟨hq1, hq2⟩ := List.getElem?_eq_some_iff.1 hq
  rcases Nat.eq_or_lt_of_le hpq with rfl | hlt
  · rw [hp] at hq; exact le_of_eq (Option.some.inj hq)
  · rw [← hp2, ← hq2]; exact List.pairwise_iff_getElem.1 hs p q hp1 hq1 hlt

theorem interp_core (x : ℝ) (xs fs : List ℝ) (i : ℕ) (a b fa fb xl : ℝ)
    (hs : xs.Pairwise (· ≤ ·))
    (ha : xs[i]? = some a) (hb : xs[i + 1]? = some b) (hfa : fs[i]? = some fa)
    (hfb : fs[i + 1]? = some fb) (hax : a < x) (hxb : x ≤ b)
    (hl : xs[xs.length - 1]? = some xl) (hxl : x < xl) :
    linearInterp x xs fs = .ok (fa + (fb - fa) * ((x - a) / (b - a))) := by
  have hi1 : i + 1 < xs.length := (List.getElem?_eq_some_iff.1 hb).1
  obtain ⟨x0, h0⟩ : ∃ x0, xs[0]? = some x0 := ⟨xs[0], List.getElem?_eq_getElem (by omega)⟩
  have hx0 : x0 < x := lt_of_le_of_lt (sorted_mono xs hs 0 i x0 a (by omega) h0 ha) hax
  have hlb := lowerBound_spec x xs i hs ⟨a, ha, hax⟩ ⟨b, hb, hxb⟩
  simp only [linearInterp, Outcome.vecGet, h0, hl, Outcome.bind_ok, not_le.2 hx0, if_false,
    ge_iff_le, not_le.2 hxl, hlb, Nat.add_sub_cancel, hfa, hfb, ha, hb, Nat.succ_ne_zero]
  congr 1
  ring

/-- Inside, with `x_i < x < x_{i+1}` on a sorted grid (repeated nodes allowed), the value lies on the
straight line through the two neighbouring points. -/
theorem interp_inside (x : ℝ) (xs fs : List ℝ) (i : ℕ) (a b fa fb : ℝ)
    (hs : xs.Pairwise (· ≤ ·))
    (ha : xs[i]? = some a) (hb : xs[i + 1]? = some b) (hfa : fs[i]? = some fa)
    (hfb : fs[i + 1]? = some fb) (hax : a < x) (hxb : x < b) :
    linearInterp x xs fs = .ok (fa + (fb - fa) * ((x - a) / (b - a))) := by
  have hi1 : i + 1 < xs.length := (List.getElem?_eq_some_iff.1 hb).1
  obtain ⟨xl, hl⟩ : ∃ xl, xs[xs.length - 1]? = some xl :=
    ⟨xs[xs.length - 1], List.getElem?_eq_getElem (by omega)⟩
  exact interp_core x xs fs i a b fa fb xl hs ha hb hfa hfb hax hxb.le hl
    (lt_of_lt_of_le hxb (sorted_mono xs hs (i + 1) (xs.length - 1) b xl (by omega) hb hl))

example : linearInterp 3 [0, 2, 4] [1, 5, 6] = .ok (5 + (6 - 5) * ((3 - 2) / (4 - 2))) :=
  interp_inside 3 [0, 2, 4] [1, 5, 6] 1 2 4 5 6 (by simp; norm_num) rfl rfl rfl rfl (by norm_num) (by norm_num)

/-- At a node of a strictly increasing grid the tabulated value is returned. -/
theorem interp_node (xs fs : List ℝ) (i : ℕ) (a fa : ℝ) (hs : xs.Pairwise (· < ·))
    (hlen : fs.length = xs.length) (ha : xs[i]? = some a) (hfa : fs[i]? = some fa) :
    linearInterp a xs fs = .ok fa := by
  have hs' : xs.Pairwise (· ≤ ·) := hs.imp le_of_lt
  have hi : i < xs.length := (List.getElem?_eq_some_iff.1 ha).1
  have strict : ∀ (p q : ℕ) (u v : ℝ), p < q → xs[p]? = some u → xs[q]? = some v → u < v := by
    intro p q u v hpq hp hq
    obtain ⟨hp1, hp2⟩ := List.getElem?_eq_some_iff.1 hp
    obtain ⟨hq1, hq2⟩ := List.getElem?_eq_some_iff.1 hq
    rw [← hp2, ← hq2]; exact List.pairwise_iff_getElem.1 hs p q hp1 hq1 hpq
  cases i with
  | zero =>
    cases xs with
    | nil => simp at ha
    | cons x0 xs =>
      cases fs with
      | nil => simp at hfa
      | cons f0 fs =>
        simp at ha hfa; subst ha; subst hfa
        exact interp_left _ _ _ _ _ le_rfl
  | succ i =>
    obtain ⟨x0, h0⟩ : ∃ x0, xs[0]? = some x0 := ⟨xs[0], List.getElem?_eq_getElem (by omega)⟩
    obtain ⟨xl, hl⟩ : ∃ xl, xs[xs.length - 1]? = some xl :=
      ⟨xs[xs.length - 1], List.getElem?_eq_getElem (by omega)⟩
    by_cases hlast : i + 1 = xs.length - 1
    · rw [← hlast, ha] at hl
      obtain rfl := Option.some.inj hl
      refine interp_right a xs fs x0 a fa h0 (by rw [← hlast, ha]) (by rw [hlen, ← hlast, hfa])
        (strict 0 (i + 1) _ _ (by omega) h0 ha) le_rfl
    · obtain ⟨p, hp⟩ : ∃ p, xs[i]? = some p := ⟨xs[i], List.getElem?_eq_getElem (by omega)⟩
      obtain ⟨fp, hfp⟩ : ∃ fp, fs[i]? = some fp := ⟨fs[i], List.getElem?_eq_getElem (by omega)⟩
      have hpa := strict i (i + 1) p a (by omega) hp ha
      rw [interp_core a xs fs i p a fp fa xl hs' hp ha hfp hfa hpa le_rfl hl
        (strict (i + 1) _ a xl (by omega) ha hl), div_self (by linarith)]
      congr 1; ring

example : linearInterp 2 [0, 2, 4] [1, 5, 6] = .ok 5 :=
  interp_node [0, 2, 4] [1, 5, 6] 1 2 5 (by simp; norm_num) rfl rfl rfl

/-- On any sorted nonempty grid, `linearInterp` is defined everywhere and never leaves the range of the tabulated
values: it is between two of them. -/
theorem interp_between (x : ℝ) (xs fs : List ℝ) (hs : xs.Pairwise (· ≤ ·)) (hne : xs ≠ [])
    (hlen : fs.length = xs.length) :
    ∃ v, linearInterp x xs fs = .ok v ∧ ∃ f ∈ fs, ∃ g ∈ fs, f ≤ v ∧ v ≤ g := by
  have hpos : 0 < xs.length := List.length_pos_iff.2 hne
  obtain ⟨x0, h0⟩ : ∃ x0, xs[0]? = some x0 := ⟨xs[0], List.getElem?_eq_getElem (by omega)⟩
  obtain ⟨f0, hf0⟩ : ∃ f0, fs[0]? = some f0 := ⟨fs[0], List.getElem?_eq_getElem (by omega)⟩
  obtain ⟨xl, hl⟩ : ∃ xl, xs[xs.length - 1]? = some xl :=
    ⟨xs[xs.length - 1], List.getElem?_eq_getElem (by omega)⟩
  obtain ⟨fl, hfl⟩ : ∃ fl, fs[fs.length - 1]? = some fl :=
    ⟨fs[fs.length - 1], List.getElem?_eq_getElem (by omega)⟩
  by_cases hx0 : x ≤ x0
  · refine ⟨f0, by simp [linearInterp, Outcome.vecGet, h0, hx0, hf0], f0, List.mem_of_getElem? hf0, f0,
      List.mem_of_getElem? hf0, le_rfl, le_rfl⟩
  by_cases hxl : xl ≤ x
  · exact ⟨fl, interp_right x xs fs x0 xl fl h0 hl hfl (not_le.1 hx0) hxl, fl,
      List.mem_of_getElem? hfl, fl, List.mem_of_getElem? hfl, le_rfl, le_rfl⟩
  -- find the interval
  have hex : ∃ (i : ℕ) (a b : ℝ), xs[i]? = some a ∧ xs[i + 1]? = some b ∧ a < x ∧ x ≤ b := by
    have gen : ∀ (n : ℕ) (b : ℝ), xs[n]? = some b → x ≤ b →
        ∃ (i : ℕ) (a b : ℝ), xs[i]? = some a ∧ xs[i + 1]? = some b ∧ a < x ∧ x ≤ b := by
      intro n
      induction n with
      | zero =>
        intro b hb hxb
        rw [h0] at hb; obtain rfl := Option.some.inj hb
        exact absurd hxb hx0
      | succ n ih =>
        intro b hb hxb
        have hn : n + 1 < xs.length := (List.getElem?_eq_some_iff.1 hb).1
        obtain ⟨a, ha⟩ : ∃ a, xs[n]? = some a := ⟨xs[n], List.getElem?_eq_getElem (by omega)⟩
        by_cases hxa : x ≤ a
        · exact ih a ha hxa
        · exact ⟨n, a, b, ha, hb, not_le.1 hxa, hxb⟩
    exact gen _ xl hl (not_le.1 hxl).le
  obtain ⟨i, a, b, ha, hb, hax, hxb⟩ := hex
  have hi1 : i + 1 < xs.length := (List.getElem?_eq_some_iff.1 hb).1
  obtain ⟨fa, hfa⟩ : ∃ fa, fs[i]? = some fa := ⟨fs[i], List.getElem?_eq_getElem (by omega)⟩
  obtain ⟨fb, hfb⟩ : ∃ fb, fs[i + 1]? = some fb := ⟨fs[i + 1], List.getElem?_eq_getElem (by omega)⟩
  refine ⟨_, interp_core x xs fs i a b fa fb xl hs ha hb hfa hfb hax hxb hl (not_le.1 hxl), ?_⟩
  have hma := List.mem_of_getElem? hfa
  have hmb := List.mem_of_getElem? hfb
  have ht0 : 0 ≤ (x - a) / (b - a) := div_nonneg (by linarith) (by linarith)
  have ht1 : (x - a) / (b - a) ≤ 1 := by rw [div_le_one (by linarith)]; linarith
  rcases le_total fa fb with h | h
  · exact ⟨fa, hma, fb, hmb, by nlinarith, by nlinarith⟩
  · exact ⟨fb, hmb, fa, hma, by nlinarith, by nlinarith⟩

/-! ## Quadrature -/

theorem diffs_pos_iff (x : List ℝ) : (∃ d ∈ diffs x, d ≤ 0) ↔ ¬ x.Pairwise (· < ·) := by
  have key : (∀ d ∈ diffs x, 0 < d) ↔ x.Pairwise (· < ·) := by
    rw [← List.isChain_iff_pairwise]
    induction x with
    | nil => simp [diffs]
    | cons a r ih =>
      cases r with
      | nil => simp [diffs]
      | cons b r =>
        simp only [diffs, List.mem_cons, forall_eq_or_imp, sub_pos, List.isChain_cons_cons]
        rw [ih]
  rw [← key]; push Not; rfl

/-- The error cases of `trapezoidal`: lengths differ or the grid is not strictly increasing. -/
theorem trapezoidal_throws_iff (f x : List ℝ) (hf : f ≠ []) :
    trapezoidal f x = .throw ↔ f.length ≠ x.length ∨ ¬ x.Pairwise (· < ·) := by
  simp only [trapezoidal, hf, if_false, ← diffs_pos_iff]
  split_ifs with h1 h2 <;> simp_all

/-- The straight line through two points. -/
noncomputable def line (x0 f0 x1 f1 t : ℝ) : ℝ := f0 + (f1 - f0) * ((t - x0) / (x1 - x0))

theorem integral_line (x0 f0 x1 f1 : ℝ) (h : x0 < x1) :
    ∫ t in x0..x1, line x0 f0 x1 f1 t = (f1 + f0) * (x1 - x0) / 2 := by
  have hne : x1 - x0 ≠ 0 := by linarith
  have : ∀ t, line x0 f0 x1 f1 t = (f0 - (f1 - f0) * x0 / (x1 - x0)) + ((f1 - f0) / (x1 - x0)) * t := by
    intro t; simp only [line]; field_simp; ring
  simp only [this]
  rw [intervalIntegral.integral_add (by simp) (by apply Continuous.intervalIntegrable; fun_prop),
    intervalIntegral.integral_const, intervalIntegral.integral_const_mul, integral_id]
  simp only [smul_eq_mul]
  field_simp
  ring

theorem diffs_length (x : List ℝ) : (diffs x).length = x.length - 1 := by
  induction x with
  | nil => rfl
  | cons a r ih =>
    cases r with
    | nil => rfl
    | cons b r => simp only [diffs, List.length_cons, ih]; omega

theorem dot_eq_sum (f x : List ℝ) (hlen : f.length = x.length) :
    dot (sums f) (diffs x) =
      ∑ i ∈ Finset.range (x.length - 1), (f.getD (i + 1) 0 + f.getD i 0) * (x.getD (i + 1) 0 - x.getD i 0) := by
  induction x generalizing f with
  | nil => obtain rfl := List.length_eq_zero_iff.1 hlen; simp [dot, sums, diffs]
  | cons a r ih =>
    cases r with
    | nil => simp [dot, diffs]
    | cons b r =>
      match f, hlen with
      | f0 :: f1 :: fs, hlen =>
        have := ih (f1 :: fs) (by simpa using hlen)
        simp only [List.length_cons, Nat.add_sub_cancel] at this ⊢
        rw [Finset.sum_range_succ']
        simp only [dot, sums, diffs, List.zipWith_cons_cons, List.sum_cons] at this ⊢
        rw [this, add_comm]
        simp

theorem getD_strict (x : List ℝ) (hs : x.Pairwise (· < ·)) (i j : ℕ) (hij : i < j) (hj : j < x.length) :
    x.getD i 0 < x.getD j 0 := by
  have := List.pairwise_iff_getElem.1 hs i j (by omega) hj hij
  rw [List.getD_eq_getElem?_getD, List.getD_eq_getElem?_getD, List.getElem?_eq_getElem (by omega : i < x.length),
    List.getElem?_eq_getElem hj]
  exact this

/-- `linearInterp` as a function on the line. -/
noncomputable def interpFn (xs fs : List ℝ) (t : ℝ) : ℝ :=
  match linearInterp t xs fs with
  | .ok v => v
  | _ => 0

theorem interpFn_segment (xs fs : List ℝ) (hs : xs.Pairwise (· < ·)) (hlen : fs.length = xs.length)
    (i : ℕ) (hi : i + 1 < xs.length) (t : ℝ) (h1 : xs.getD i 0 ≤ t) (h2 : t ≤ xs.getD (i + 1) 0) :
    interpFn xs fs t = line (xs.getD i 0) (fs.getD i 0) (xs.getD (i + 1) 0) (fs.getD (i + 1) 0) t := by
  have ex : ∀ k, k < xs.length → xs[k]? = some (xs.getD k 0) := fun k hk => by
    rw [List.getD_eq_getElem?_getD, List.getElem?_eq_getElem hk]; rfl
  have ef : ∀ k, k < fs.length → fs[k]? = some (fs.getD k 0) := fun k hk => by
    rw [List.getD_eq_getElem?_getD, List.getElem?_eq_getElem hk]; rfl
  have hab : xs.getD i 0 < xs.getD (i + 1) 0 := getD_strict _ hs i (i + 1) (by omega) hi
  have hv : linearInterp t xs fs = .ok (line (xs.getD i 0) (fs.getD i 0) (xs.getD (i + 1) 0) (fs.getD (i + 1) 0) t) := by
    rcases eq_or_lt_of_le h1 with h1 | h1
    · subst h1
      rw [interp_node xs fs i _ _ hs hlen (ex i (by omega)) (ef i (by omega))]
      simp [line]
    · rcases eq_or_lt_of_le h2 with h2 | h2
      · subst h2
        rw [interp_node xs fs (i + 1) _ _ hs hlen (ex _ (by omega)) (ef _ (by omega))]
        simp only [line]; rw [div_self (by linarith)]; congr 1; ring
      · exact interp_inside t xs fs i _ _ _ _ (hs.imp le_of_lt) (ex _ (by omega)) (ex _ (by omega))
          (ef _ (by omega)) (ef _ (by omega)) h1 h2
  simp [interpFn, hv]

/-- `trapezoidal` is the integral of the piecewise linear function through the data (the one
`linearInterp` evaluates), for every strictly increasing grid. -/
theorem trapezoidal_is_integral (f x : List ℝ) (hne : x ≠ []) (hlen : f.length = x.length)
    (hs : x.Pairwise (· < ·)) :
    trapezoidal f x = .ok (∫ t in (x.getD 0 0)..(x.getD (x.length - 1) 0), interpFn x f t) := by
  have hf : f ≠ [] := by rintro rfl; exact hne (List.length_eq_zero_iff.1 hlen.symm)
  have hnd : ¬ ∃ d ∈ diffs x, d ≤ 0 := by rw [diffs_pos_iff]; simpa using hs
  simp only [trapezoidal, hlen, ne_eq, not_true, if_false, hf, hnd, dot_eq_sum f x hlen]
  congr 1
  have hseg : ∀ i, i + 1 < x.length → ∀ t ∈ Set.uIcc (x.getD i 0) (x.getD (i + 1) 0),
      interpFn x f t = line (x.getD i 0) (f.getD i 0) (x.getD (i + 1) 0) (f.getD (i + 1) 0) t := by
    intro i hi t ht
    have hab : x.getD i 0 < x.getD (i + 1) 0 := getD_strict _ hs i (i + 1) (by omega) hi
    rw [Set.uIcc_of_le hab.le] at ht
    exact interpFn_segment x f hs hlen i hi t ht.1 ht.2
  rw [← intervalIntegral.sum_integral_adjacent_intervals (a := fun i => x.getD i 0) (n := x.length - 1)]
  · rw [Finset.sum_div]
    apply Finset.sum_congr rfl
    intro i hi
    rw [Finset.mem_range] at hi
    have hi' : i + 1 < x.length := by omega
    have hab : x.getD i 0 < x.getD (i + 1) 0 := getD_strict _ hs i (i + 1) (by omega) hi'
    rw [intervalIntegral.integral_congr (hseg i hi'), integral_line _ _ _ _ hab]
  · intro k hk
    have hc : Continuous (line (x.getD k 0) (f.getD k 0) (x.getD (k + 1) 0) (f.getD (k + 1) 0)) := by
      unfold line; fun_prop
    refine (hc.intervalIntegrable _ _).congr_ae ?_
    rw [Filter.EventuallyEq, MeasureTheory.ae_restrict_iff' measurableSet_uIoc]
    exact Filter.Eventually.of_forall fun t ht => (hseg k (by omega) t (Set.uIoc_subset_uIcc ht)).symm

example : trapezoidal [1, 3] [0, 2] = .ok 4 := by
  have : diffs [0, 2] = [2] := by simp [diffs]
  simp [trapezoidal, diffs, sums, dot]; norm_num

/-! ### Simpson -/

/-- A quadratic polynomial. -/
def quad (p0 p1 p2 t : ℝ) : ℝ := p0 + p1 * t + p2 * t ^ 2

theorem integral_quad (p0 p1 p2 a b : ℝ) :
    ∫ t in a..b, quad p0 p1 p2 t = p0 * (b - a) + p1 * (b ^ 2 - a ^ 2) / 2 + p2 * (b ^ 3 - a ^ 3) / 3 := by
  simp only [quad]
  rw [intervalIntegral.integral_add (by apply Continuous.intervalIntegrable; fun_prop)
    (by apply Continuous.intervalIntegrable; fun_prop),
    intervalIntegral.integral_add (by simp) (by apply Continuous.intervalIntegrable; fun_prop),
    intervalIntegral.integral_const, intervalIntegral.integral_const_mul, integral_id,
    intervalIntegral.integral_const_mul, integral_pow]
  simp only [smul_eq_mul]
  push_cast
  ring

/-- One panel is the integral of any quadratic through its three points. -/
theorem panel_integral (p0 p1 p2 x0 x1 x2 : ℝ) (h0 : x0 < x1) (h1 : x1 < x2) :
    panel (x1 - x0) (x2 - x1) (quad p0 p1 p2 x0) (quad p0 p1 p2 x1) (quad p0 p1 p2 x2) =
      ∫ t in x0..x2, quad p0 p1 p2 t := by
  have e0 : x1 - x0 ≠ 0 := by linarith
  have e1 : x2 - x1 ≠ 0 := by linarith
  rw [integral_quad]
  simp only [panel, quad]
  field_simp
  ring

theorem simpsonLoop_sum (q0 q1 q2 : ℕ → ℝ) (n : ℕ) (f x : List ℝ) (s : ℝ) (hn : x.length = 2 * n + 1)
    (hlen : f.length = x.length) (hs : x.Pairwise (· < ·))
    (hq : ∀ k j, k < n → j ≤ 2 →
      f.getD (2 * k + j) 0 = quad (q0 k) (q1 k) (q2 k) (x.getD (2 * k + j) 0)) :
    simpsonLoop f x s = s + ∑ k ∈ Finset.range n,
      ∫ t in (x.getD (2 * k) 0)..(x.getD (2 * k + 2) 0), quad (q0 k) (q1 k) (q2 k) t := by
  induction n generalizing f x s q0 q1 q2 with
  | zero =>
    match x, f, hn, hlen with
    | [x0], [f0], _, _ => simp [simpsonLoop]
  | succ n ih =>
    match x, f, hn, hlen with
    | x0 :: x1 :: x2 :: xs, f0 :: f1 :: f2 :: fs, hn, hlen =>
      simp only [simpsonLoop]
      have hs2 : (x2 :: xs).Pairwise (· < ·) := by
        rw [List.pairwise_cons, List.pairwise_cons] at hs; exact hs.2.2
      rw [ih (fun k => q0 (k + 1)) (fun k => q1 (k + 1)) (fun k => q2 (k + 1)) (f2 :: fs) (x2 :: xs) _
        (by simp at hn ⊢; omega) (by simpa using hlen) hs2]
      · have h01 : x0 < x1 := getD_strict _ hs 0 1 (by omega) (by simp)
        have h12 : x1 < x2 := getD_strict _ hs 1 2 (by omega) (by simp)
        have e0 := hq 0 0 (by omega) (by omega)
        have e1 := hq 0 1 (by omega) (by omega)
        have e2 := hq 0 2 (by omega) (by omega)
        simp at e0 e1 e2
        rw [Finset.sum_range_succ', e0, e1, e2, panel_integral _ _ _ _ _ _ h01 h12]
        simp [mul_add]
        ring
      · intro k j hk hj
        have := hq (k + 1) j (by omega) hj
        rw [show 2 * (k + 1) + j = (2 * k + j) + 2 by ring] at this
        simpa using this

/-- Simpson's rule on an odd number of points (at least three) is, panel by panel, the integral of the quadratic through
the three points of the panel, for arbitrary spacing. -/
theorem simpson_odd (q0 q1 q2 : ℕ → ℝ) (n : ℕ) (f x : List ℝ) (hn : x.length = 2 * n + 3)
    (hlen : f.length = x.length) (hs : x.Pairwise (· < ·))
    (hq : ∀ k j, k < n + 1 → j ≤ 2 →
      f.getD (2 * k + j) 0 = quad (q0 k) (q1 k) (q2 k) (x.getD (2 * k + j) 0)) :
    simpson f x = .ok (∑ k ∈ Finset.range (n + 1),
      ∫ t in (x.getD (2 * k) 0)..(x.getD (2 * k + 2) 0), quad (q0 k) (q1 k) (q2 k) t) := by
  have hne : x ≠ [] := by rintro rfl; simp at hn
  have hnd : ¬ ∃ d ∈ diffs x, d ≤ 0 := by rw [diffs_pos_iff]; simpa using hs
  have := simpsonLoop_sum q0 q1 q2 (n + 1) f x 0 (by omega) hlen hs hq
  rw [zero_add] at this
  rw [simpson, if_neg hne, if_neg hnd, if_neg (by simpa using hlen), if_pos (by omega), basicSimpson,
    if_neg (by omega), if_neg (by omega), this]

/-- Simpson's rule is exact for every quadratic on every strictly increasing grid with an odd number (≥ 3) of points. -/
theorem simpson_exact_quadratic (p0 p1 p2 : ℝ) (n : ℕ) (x : List ℝ) (hn : x.length = 2 * n + 3)
    (hs : x.Pairwise (· < ·)) :
    simpson (x.map (quad p0 p1 p2)) x =
      .ok (∫ t in (x.getD 0 0)..(x.getD (x.length - 1) 0), quad p0 p1 p2 t) := by
  rw [simpson_odd (fun _ => p0) (fun _ => p1) (fun _ => p2) n _ x hn (by simp) hs]
  · congr 1
    have := intervalIntegral.sum_integral_adjacent_intervals (μ := MeasureTheory.volume)
      (f := quad p0 p1 p2) (a := fun k => x.getD (2 * k) 0) (n := n + 1)
      (fun k _ => by apply Continuous.intervalIntegrable; unfold quad; fun_prop)
    rw [hn, show 2 * n + 3 - 1 = 2 * (n + 1) by omega]
    exact this
  · intro k j hk hj
    rw [List.getD_eq_getElem?_getD, List.getD_eq_getElem?_getD, List.getElem?_map,
      List.getElem?_eq_getElem (by omega)]
    rfl

example : ([0, 1, 3, 4, 8] : List ℝ).length = 2 * 1 + 3 ∧ ([0, 1, 3, 4, 8] : List ℝ).Pairwise (· < ·) := by
  constructor
  · rfl
  · simp; norm_num

/-- On an even number (≥ 4) of points the last interval is integrated with the trapezoidal rule
and the others as above. -/
theorem simpson_even (f x : List ℝ) (n : ℕ) (fl xl : ℝ) (hn : x.length = 2 * n + 3)
    (hlen : f.length = x.length) (hs : (x ++ [xl]).Pairwise (· < ·)) :
    ∃ v, simpson f x = .ok v ∧ simpson (f ++ [fl]) (x ++ [xl]) =
      .ok (v + ∫ t in (x.getD (x.length - 1) 0)..xl,
        line (x.getD (x.length - 1) 0) (f.getD (x.length - 1) 0) xl fl t) := by
  have hsx : x.Pairwise (· < ·) := (List.pairwise_append.1 hs).1
  have hne : x ≠ [] := by rintro rfl; simp at hn
  have hnd : ¬ ∃ d ∈ diffs x, d ≤ 0 := by rw [diffs_pos_iff]; simpa using hsx
  have hne' : x ++ [xl] ≠ [] := by simp
  have hnd' : ¬ ∃ d ∈ diffs (x ++ [xl]), d ≤ 0 := by rw [diffs_pos_iff]; simpa using hs
  have hlt : x.getD (x.length - 1) 0 < xl := by
    have h := getD_strict _ hs (x.length - 1) x.length (by omega) (by simp)
    rw [List.getD_eq_getElem?_getD, List.getElem?_append_left (by omega)] at h
    simpa [List.getD_eq_getElem?_getD] using h
  refine ⟨simpsonLoop f x 0, ?_, ?_⟩
  · rw [simpson, if_neg hne, if_neg hnd, if_neg (by simpa using hlen), if_pos (by omega), basicSimpson,
      if_neg (by omega), if_neg (by omega)]
  · have hfl : (f ++ [fl]).length = 2 * n + 4 := by simp [hlen, hn]
    have hdl : Outcome.vecGet (diffs (x ++ [xl])) (2 * n + 4 - 1 - 1) = .ok (xl - x.getD (x.length - 1) 0) := by
      have key : ∀ (y : List ℝ) (b : ℝ), y ≠ [] → (diffs (y ++ [b]))[y.length - 1]? = some (b - y.getD (y.length - 1) 0) := by
        intro y b hy
        induction y with
        | nil => exact absurd rfl hy
        | cons a r ih =>
          cases r with
          | nil => simp [diffs]
          | cons c r =>
            have := ih (by simp)
            simp only [List.cons_append, diffs, List.length_cons, Nat.add_sub_cancel, List.getElem?_cons_succ,
              List.getD_cons_succ] at this ⊢
            exact this
      have h := key x xl hne
      rw [hn] at h ⊢
      rw [show 2 * n + 4 - 1 - 1 = 2 * n + 3 - 1 by omega, Outcome.vecGet, h]
    rw [simpson, if_neg hne', if_neg hnd', if_neg (by simp [hlen]), if_neg (by omega), if_neg (by omega)]
    simp only [hfl, hdl, Outcome.bind_ok]
    rw [show 2 * n + 4 - 1 = f.length by omega, List.take_left, hlen, List.take_left, basicSimpson,
      if_neg (by omega), if_neg (by omega)]
    have g1 : Outcome.vecGet (f ++ [fl]) x.length = .ok fl := by
      rw [← hlen]; simp [Outcome.vecGet]
    have g2 : Outcome.vecGet (f ++ [fl]) (x.length - 1) = .ok (f.getD (x.length - 1) 0) := by
      rw [Outcome.vecGet, List.getElem?_append_left (by omega), List.getElem?_eq_getElem (by omega),
        List.getD_eq_getElem?_getD, List.getElem?_eq_getElem (by omega)]
      rfl
    simp only [Outcome.bind_ok, g1, g2]
    rw [integral_line _ _ _ _ hlt]
    congr 1
    ring

/-- Two points: the integral of the line through them. -/
theorem simpson_two (f0 f1 x0 x1 : ℝ) (h : x0 < x1) :
    simpson [f0, f1] [x0, x1] = .ok (∫ t in x0..x1, line x0 f0 x1 f1 t) := by
  have : ¬ (x1 ≤ x0) := not_le.2 h
  rw [integral_line _ _ _ _ h]
  simp [simpson, diffs, Outcome.vecGet, this]
  ring

/-- A single point is rejected by `simpson`, accepted (area 0) by `trapezoidal`; unknown rules are rejected. -/
theorem quadrature_edges (f0 x0 : ℝ) (f x : List ℝ) (method : String) :
    simpson [f0] [x0] = .throw ∧ trapezoidal [f0] [x0] = .ok 0 ∧
    (method ≠ "simpson" → method ≠ "trapezoidal" → numericalQuadrature method f x = .throw) ∧
    numericalQuadrature "simpson" f x = simpson f x ∧
    numericalQuadrature "trapezoidal" f x = trapezoidal f x := by
  refine ⟨by simp [simpson, diffs, basicSimpson], by simp [trapezoidal, diffs, sums, dot], ?_, ?_, ?_⟩
  · intro h1 h2; simp [numericalQuadrature, h1, h2]
  · simp [numericalQuadrature]
  · simp [numericalQuadrature]

/-- The error cases of `simpson` (nonempty grid): not strictly increasing, lengths differ, a single point. -/
theorem simpson_throws_iff (f x : List ℝ) (hx : x ≠ []) :
    simpson f x = .throw ↔ ¬ x.Pairwise (· < ·) ∨ f.length ≠ x.length ∨ f.length = 1 := by
  by_cases hs : x.Pairwise (· < ·)
  swap
  · have : ∃ d ∈ diffs x, d ≤ 0 := (diffs_pos_iff x).2 hs
    simp [simpson, hx, this, hs]
  have hnd : ¬ ∃ d ∈ diffs x, d ≤ 0 := by rw [diffs_pos_iff]; simpa using hs
  by_cases hlen : f.length = x.length
  swap
  · rw [simpson, if_neg hx, if_neg hnd, if_pos hlen]; simp [hlen]
  have hpos : 0 < x.length := List.length_pos_iff.2 hx
  by_cases h1 : f.length = 1
  · rw [simpson, if_neg hx, if_neg hnd, if_neg (by simpa using hlen), if_pos (by omega), basicSimpson,
      if_pos (by omega)]
    simp [h1]
  simp only [hs, hlen, ne_eq, not_true, false_or]
  rw [← hlen]
  simp only [h1, iff_false]
  rcases Nat.mod_two_eq_zero_or_one f.length with he | ho
  · by_cases h2 : f.length = 2
    · match f, x, h2, hlen with
      | [f0, f1], [x0, x1], _, _ =>
        rw [simpson, if_neg hx, if_neg hnd, if_neg (by simp), if_neg (by simp), if_pos (by simp)]
        simp [diffs, Outcome.vecGet]
    · have hf : f ≠ [] := by rintro rfl; simp at hlen; omega
      obtain ⟨n, hn⟩ : ∃ n, f.length = 2 * n + 4 := ⟨(f.length - 4) / 2, by omega⟩
      have ef := List.dropLast_append_getLast hf
      have ex := List.dropLast_append_getLast hx
      obtain ⟨v, -, h⟩ := simpson_even f.dropLast x.dropLast n (f.getLast hf) (x.getLast hx)
        (by rw [List.length_dropLast]; omega) (by rw [List.length_dropLast, List.length_dropLast]; omega)
        (by rw [ex]; exact hs)
      rw [ef, ex] at h
      rw [h]; simp
  · rw [simpson, if_neg hx, if_neg hnd, if_neg (by simpa using hlen), if_pos ho, basicSimpson,
      if_neg (by omega), if_neg (by omega)]
    simp

end Verif.Funcs
