import Verif.Basic
import Mathlib.Tactic.Common
import Mathlib.Tactic.SplitIfs
import Mathlib.Algebra.Order.Group.Nat

/-!
# C34: `copyString` (src/base/stringUtils.cpp:203-213)

Characters are numbers, `0` is NUL.  The destination is a memory block (list) of some capacity;
a write outside of it is `ub`.  The source is a C++ string, which may itself contain NUL.
-/

namespace Verif.CopyString

open Verif

/-- Write one character. -/
def put (mem : List ℕ) (i c : ℕ) : Outcome (List ℕ) :=
  if i < mem.length then .ok (mem.set i c) else .ub

/-- `std::copy(c_src, c_src + N, dest)`: writes `src` at consecutive positions from `i`. -/
def copyFrom (mem : List ℕ) (i : ℕ) : List ℕ → Outcome (List ℕ)
  | [] => .ok mem
  | c :: cs => put mem i c >>= fun mem => copyFrom mem (i + 1) cs

/-- stringUtils.cpp:203-213.  `source.c_str()` is the source followed by one NUL. -/
def copyString (source : List ℕ) (dest : List ℕ) (length : ℕ) : Outcome (List ℕ × ℕ) :=
  let cSrc := source ++ [0]
  let N := min length (source.length + 1)
  let ret := if length ≥ source.length + 1 then 0 else source.length + 1
  copyFrom dest 0 (cSrc.take N) >>= fun dest =>
  (if length ≠ 0 then put dest (length - 1) 0 else .ok dest) >>= fun dest =>
  .ok (dest, ret)

theorem copyFrom_spec (cs mem : List ℕ) (i : ℕ) (h : i + cs.length ≤ mem.length) :
    ∃ m, copyFrom mem i cs = .ok m ∧ m.length = mem.length ∧
      ∀ k, m[k]? = if i ≤ k ∧ k < i + cs.length then cs[k - i]? else mem[k]? := by
  induction cs generalizing mem i with
  | nil =>
    refine ⟨mem, rfl, rfl, fun k => ?_⟩
    simp only [List.length_nil, add_zero]
    rw [if_neg (by omega)]
  | cons c cs ih =>
    simp only [List.length_cons] at h
    have hi : i < mem.length := by omega
    obtain ⟨m, e, hl, hk⟩ := ih (mem.set i c) (i + 1) (by rw [List.length_set]; omega)
    refine ⟨m, by simp [copyFrom, put, hi, e], by rw [hl, List.length_set], fun k => ?_⟩
    rw [hk]
    by_cases h1 : k = i
    · subst h1
      rw [if_neg (by omega), if_pos (by simp), List.getElem?_set_self hi]; simp
    · by_cases h2 : i + 1 ≤ k ∧ k < i + 1 + cs.length
      · rw [if_pos h2, if_pos (by simp; omega)]
        obtain ⟨d, rfl⟩ : ∃ d, k = i + 1 + d := ⟨k - (i + 1), by omega⟩
        rw [show i + 1 + d - i = d + 1 by omega, List.getElem?_cons_succ]
        congr 1; omega
      · rw [if_neg h2, if_neg (by simp; omega), List.getElem?_set_ne (by omega)]

/-- Exact effect: no write outside the first `length` cells, the first `min (length-1) |source|`
cells hold the source, NUL follows them, the last of the `length` cells is NUL, all cells in between and beyond
are untouched; the result is 0 exactly if everything fitted and else the size needed. -/
theorem copyString_effect (source dest : List ℕ) (length : ℕ) (hcap : length ≤ dest.length) :
    ∃ out, copyString source dest length =
        .ok (out, if source.length < length then 0 else source.length + 1) ∧
      out.length = dest.length ∧
      ∀ k, out[k]? =
        if k + 1 < length ∧ k < source.length then source[k]?
        else if k < length ∧ (k = source.length ∨ k + 1 = length) then some 0
        else dest[k]? := by
  obtain ⟨m, e, hl, hk⟩ := copyFrom_spec ((source ++ [0]).take (min length (source.length + 1))) dest 0
    (by simp; omega)
  have hlen : ((source ++ [0]).take (min length (source.length + 1))).length
      = min length (source.length + 1) := by simp
  have hsrc : ∀ k, k < source.length → (source ++ [0])[k]? = source[k]? := fun k hk' =>
    List.getElem?_append_left hk'
  have hz : (source ++ [0])[source.length]? = some 0 := by simp
  by_cases h0 : length = 0
  · subst h0
    refine ⟨m, by simp [copyString] at e ⊢; simp [e], hl, fun k => ?_⟩
    rw [hk, hlen]; simp
  · have hi : length - 1 < m.length := by omega
    refine ⟨m.set (length - 1) 0, ?_, by rw [List.length_set, hl], fun k => ?_⟩
    · simp only [copyString, e, Outcome.bind_ok, ne_eq, h0, not_false_eq_true, if_true, put, hi]
      rfl
    · by_cases h1 : k = length - 1
      · subst h1
        rw [List.getElem?_set_self hi, if_neg (by omega), if_pos (by omega)]
      · rw [List.getElem?_set_ne (by omega), hk, hlen]
        by_cases h2 : k + 1 < length ∧ k < source.length
        · rw [if_pos h2, if_pos (by omega), List.getElem?_take_of_lt (by omega)]
          simpa using hsrc k h2.2
        · rw [if_neg h2]
          by_cases h3 : k < length ∧ (k = source.length ∨ k + 1 = length)
          · obtain rfl : k = source.length := by omega
            rw [if_pos h3, if_pos (by omega), List.getElem?_take_of_lt (by omega)]
            simp
          · rw [if_neg h3, if_neg (by omega)]

example : copyString [104, 105] [7, 7, 7, 7, 7] 5 = .ok ([104, 105, 0, 7, 0], 0) := by decide
example : copyString [104, 105] [7, 7, 7] 2 = .ok ([104, 0, 7], 3) := by decide

/-- What a C caller sees in a buffer: the characters before the first NUL. -/
def cRead (mem : List ℕ) : List ℕ := mem.takeWhile (· ≠ 0)

theorem takeWhile_of (l s : List ℕ) (h : ∀ k, k < s.length → l[k]? = s[k]?)
    (hnz : ∀ c ∈ s, c ≠ 0) (hz : l[s.length]? = some 0) : l.takeWhile (· ≠ 0) = s := by
  induction s generalizing l with
  | nil =>
    cases l with
    | nil => rfl
    | cons a l => simp at hz; simp [hz]
  | cons c s ih =>
    cases l with
    | nil => simp at hz
    | cons a l =>
      have h0 := h 0 (by simp)
      simp at h0
      subst h0
      have hc : a ≠ 0 := hnz a (by simp)
      rw [List.takeWhile_cons_of_pos (by simpa using hc), ih l]
      · intro k hk; have := h (k + 1) (by simpa using hk); simpa using this
      · intro x hx; exact hnz x (by simp [hx])
      · simpa using hz

/-- A C caller reads back the longest prefix of the source that fits (sources without NUL). -/
theorem copyString_reads_prefix (source dest : List ℕ) (length : ℕ) (hcap : length ≤ dest.length)
    (hpos : 0 < length) (hnz : ∀ c ∈ source, c ≠ 0) :
    ∃ out r, copyString source dest length = .ok (out, r) ∧
      cRead out = source.take (length - 1) := by
  obtain ⟨out, e, hl, hk⟩ := copyString_effect source dest length hcap
  refine ⟨out, _, e, ?_⟩
  have hlen : (source.take (length - 1)).length = min (length - 1) source.length := by simp
  apply takeWhile_of
  · intro k h
    rw [hlen] at h
    rw [hk, if_pos (by omega), List.getElem?_take_of_lt (by omega)]
  · intro c hc; exact hnz c (List.mem_of_mem_take hc)
  · rw [hlen, hk, if_neg (by omega), if_pos (by omega)]

/-- The two-call protocol: ask with length 0, allocate what is reported, call again: the whole string comes back. -/
theorem copyString_two_calls (source dest : List ℕ) (hnz : ∀ c ∈ source, c ≠ 0) :
    ∃ n, copyString source [] 0 = .ok ([], n) ∧
      (dest.length = n → ∃ out, copyString source dest n = .ok (out, 0) ∧ cRead out = source) := by
  refine ⟨source.length + 1, ?_, ?_⟩
  · simp [copyString, copyFrom]
  · intro hd
    obtain ⟨out, r, e, hr⟩ := copyString_reads_prefix source dest (source.length + 1) (by omega) (by omega) hnz
    obtain ⟨out', e', -⟩ := copyString_effect source dest (source.length + 1) (by omega)
    rw [if_pos (by omega)] at e'
    have : (out, r) = (out', 0) := by rw [e] at e'; exact Outcome.ok.inj e'
    obtain ⟨rfl, rfl⟩ := Prod.mk.inj this
    exact ⟨out, e, by simpa using hr⟩

example : ∀ c ∈ [104, 105], c ≠ (0 : ℕ) := by decide

end Verif.CopyString
