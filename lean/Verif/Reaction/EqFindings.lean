import Verif.Reaction.EqProps
import Mathlib.Tactic.IntervalCases

/-!
# Equations which are not read back (C37)

Examples for the round trip and the reactions for which it fails.
-/

namespace Verif.Equation

open Verif.Fp

/-! ## Examples -/

theorem named_char {c : Char} (h1 : isSpace c = false) (h2 : isSepTok [c] = false) : Named [c] :=
  ⟨by simp, by intro x hx; simp at hx; subst hx; exact h1, h2⟩

theorem ok_one (shw : ℝ → Str) {n : Str} (h : Named n) : TermOk shw (n, 1) :=
  ⟨h, fun h => absurd rfl h⟩

theorem nA : Named ['A'] := named_char (by decide) (by decide)
theorem nB : Named ['B'] := named_char (by decide) (by decide)
theorem nC : Named ['C'] := named_char (by decide) (by decide)
theorem nX : Named ['X'] := named_char (by decide) (by decide)
theorem nM : Named ['M'] := named_char (by decide) (by decide)

/-- A stream which prints every number as `2`. -/
def show2 : ℝ → Str := fun _ => ['2']

theorem ok_two {n : Str} (h : Named n) : TermOk show2 (n, 2) := by
  refine ⟨h, fun _ => ⟨?_, ?_⟩⟩
  · intro c hc; simp [show2] at hc; subst hc; decide
  · have := CompString.one_digit '2' (by decide)
    simp only [show2, this]
    have h2 : '2'.toNat - '0'.toNat = 2 := by decide
    rw [h2]
    norm_num

/-- `2 A + B + M <=> C + M` -/
def exM : Src := ⟨[(['A'], 2), (['B'], 1)], [(['C'], 1)], true, some (['M'], true)⟩

theorem exM_wf : WF show2 exM where
  reac_ne := by simp [exM]
  prod_ne := by simp [exM]
  reac_ok := by
    intro x hx
    simp only [exM, List.mem_cons, List.not_mem_nil, or_false] at hx
    rcases hx with rfl | rfl
    · exact ok_two nA
    · exact ok_one _ nB
  prod_ok := by
    intro x hx
    simp only [exM, List.mem_cons, List.not_mem_nil, or_false] at hx
    subst hx; exact ok_one _ nC
  third_ok := nM
  reac_nodup := by simp [exM, keys]
  prod_nodup := by simp [exM, keys]
  reac_M := by simp [exM, keys]
  prod_M := by simp [exM, keys]

/-- An Arrhenius reaction in the gas phase, without efficiencies. -/
def gas : Cfg := ⟨"Arrhenius".toList, false, none, false⟩

theorem gas_three : gas.three = false := by decide
theorem gas_fixed : gas.fixed = false := by decide

example : equation show2 exM = "2 A + B + M <=> C + M".toList := by
  simp [equation, sideText, termText, exM, show2, thirdText, collider]

example : Same exM (setEquation gas Rxn.new (equation show2 exM)) :=
  round_trip_partial exM_wf ⟨Or.inr gas_fixed, Or.inl rfl⟩

/-- Simple reactions with unit coefficients. -/
theorem unit_wf {shw : ℝ → Str} {a b : List Str} {rev : Bool} {third : Option (Str × Bool)}
    (ha : a ≠ []) (hb : b ≠ []) (hna : ∀ n ∈ a, Named n) (hnb : ∀ n ∈ b, Named n)
    (hda : a.Nodup) (hdb : b.Nodup) (hMa : ['M'] ∉ a) (hMb : ['M'] ∉ b) (ht : ThirdOk third) :
    WF shw ⟨a.map (fun n => (n, 1)), b.map (fun n => (n, 1)), rev, third⟩ where
  reac_ne := by simpa using ha
  prod_ne := by simpa using hb
  reac_ok := by
    intro x hx
    obtain ⟨n, hn, rfl⟩ := List.mem_map.mp hx
    exact ok_one _ (hna n hn)
  prod_ok := by
    intro x hx
    obtain ⟨n, hn, rfl⟩ := List.mem_map.mp hx
    exact ok_one _ (hnb n hn)
  third_ok := ht
  reac_nodup := by simpa [keys, Function.comp_def] using hda
  prod_nodup := by simpa [keys, Function.comp_def] using hdb
  reac_M := by simpa [keys, Function.comp_def] using hMa
  prod_M := by simpa [keys, Function.comp_def] using hMb

/-- `A + B (+X) => C (+X)` -/
def exPar : Src := ⟨[(['A'], 1), (['B'], 1)], [(['C'], 1)], false, some (['X'], false)⟩

theorem mem_two {P : Str → Prop} {a b : Str} (ha : P a) (hb : P b) : ∀ n ∈ [a, b], P n := by
  intro n hn
  simp only [List.mem_cons, List.not_mem_nil, or_false] at hn
  rcases hn with rfl | rfl
  · exact ha
  · exact hb

theorem mem_one {P : Str → Prop} {a : Str} (ha : P a) : ∀ n ∈ [a], P n := by
  intro n hn
  simp only [List.mem_cons, List.not_mem_nil, or_false] at hn
  subst hn; exact ha

theorem wf_AB_C (shw : ℝ → Str) (rev : Bool) {third : Option (Str × Bool)} (ht : ThirdOk third) :
    WF shw ⟨[(['A'], 1), (['B'], 1)], [(['C'], 1)], rev, third⟩ :=
  unit_wf (a := [['A'], ['B']]) (b := [['C']]) (by simp) (by simp) (mem_two nA nB) (mem_one nC)
    (by simp) (by simp) (by simp) (by simp) ht

example (shw : ℝ → Str) : Same exPar (setEquation gas Rxn.new (equation shw exPar)) :=
  round_trip_partial (wf_AB_C shw false ⟨nX.1, nX.2.1⟩) ⟨Or.inr gas_fixed, by simp [Disj, exPar, keys]⟩

/-- `A + B + X => C + X` -/
def exMass : Src := ⟨[(['A'], 1), (['B'], 1)], [(['C'], 1)], false, some (['X'], true)⟩

theorem whole_unit (l : List Str) : Whole (l.map (fun n => (n, 1))) := by
  intro x hx
  obtain ⟨n, hn, rfl⟩ := List.mem_map.mp hx
  exact ⟨1, le_refl 1, by simp⟩

example (shw : ℝ → Str) : Same exMass (setEquation gas Rxn.new (equation shw exMass)) :=
  round_trip_partial (wf_AB_C shw false nX) ⟨Or.inr gas_fixed, Or.inr (Or.inl ⟨by simp [Disj, exMass, keys],
    by simp [exMass, keys], whole_unit [['A'], ['B']], whole_unit [['C']],
    Or.inr (Or.inl (by simp [exMass, total]; norm_num))⟩)⟩

/-- `A + X => A + B + X` with efficiency of `X` -/
def exEff : Src := ⟨[(['A'], 1)], [(['A'], 1), (['B'], 1)], false, some (['X'], true)⟩

example (shw : ℝ → Str) : Same exEff (setEquation { gas with effs := some [(['X'], 1)] } Rxn.new
    (equation shw exEff)) :=
  round_trip_partial (unit_wf (a := [['A']]) (b := [['A'], ['B']]) (by simp) (by simp)
    (mem_one nA) (mem_two nA nB) (by simp) (by simp) (by simp) (by simp) nX)
    ⟨Or.inr gas_fixed, Or.inr (Or.inr ⟨whole_unit [['A']], whole_unit [['A'], ['B']], ⟨1, rfl⟩,
      Or.inl ⟨['A'], by decide, by simp [exEff, keys], by simp [exEff, keys]⟩⟩)⟩

/-! ## Rejected equations -/

/-- Two generic third bodies are rejected. -/
theorem two_generic_rejected {cfg : Cfg} {r : Rxn} (h1 : (keys r.prod).Nodup)
    (h : (∃ v w, (['M'], v) ∈ r.reac ∧ (['M'], w) ∈ r.prod ∧ 1 < v ∧ 1 < w) ∨
      (['M'] ∈ keys r.reac ∧ ['M'] ∈ keys r.prod ∧ ['(', '+', 'M', ')'] ∈ keys r.reac ∧
        ['(', '+', 'M', ')'] ∈ keys r.prod)) : detect cfg r = .throw := by
  have hcount : ∀ {l : List (Str × ℝ × ℝ)} {x}, x ∈ l → generic x.1 = true → mult x ≤ countM l := by
    intro l x hx hg
    have hm : (if generic x.1 then mult x else 0) ∈ l.map (fun x => if generic x.1 then mult x else 0) :=
      List.mem_map.mpr ⟨x, hx, rfl⟩
    rw [if_pos hg] at hm
    exact List.single_le_sum (by simp) _ hm
  have hM : 1 < countM (commons r.reac r.prod) := by
    rcases h with ⟨v, w, k1, k2, hv, hw⟩ | ⟨k1, k2, k3, k4⟩
    · have hx := mem_commons k1 (get_of_mem h1 k2)
      have := hcount hx (by rfl : generic (['M'], v, w).1 = true)
      have h2 : mult (['M'], v, w) = 2 := by
        unfold mult
        rw [if_pos ⟨hv, hw⟩]
      omega
    · have hin : ∀ n, n ∈ keys r.reac → n ∈ keys r.prod → ∃ v w, (n, v, w) ∈ commons r.reac r.prod := by
        intro n ha hb
        obtain ⟨⟨m, v⟩, hm, he⟩ := List.mem_map.mp ha
        simp only at he
        subst he
        rcases hg : get r.prod m with _ | w
        · exact absurd hb ((get_none_iff _ _).mp hg)
        · exact ⟨v, w, mem_commons hm hg⟩
      obtain ⟨v, w, hx⟩ := hin _ k1 k2
      obtain ⟨v', w', hy⟩ := hin _ k3 k4
      obtain ⟨a, b, hl⟩ := List.append_of_mem hx
      rw [hl] at hy ⊢
      rw [show (['M'], v, w) :: b = [(['M'], v, w)] ++ b from rfl, countM_append, countM_append]
      have q1 := hcount (List.mem_singleton.mpr rfl : (['M'], v, w) ∈ [(['M'], v, w)]) (by rfl)
      have q2 := mult_pos (['M'], v, w)
      have q3 := mult_pos (['(', '+', 'M', ')'], v', w')
      rcases List.mem_append.mp hy with hy | hy
      · have := hcount hy (by rfl)
        omega
      · rcases List.mem_cons.mp hy with hy | hy
        · exact absurd (Prod.mk.inj hy).1 (by decide)
        · have := hcount hy (by rfl)
          omega
  have hc : countM (commons r.reac r.prod) ≤ count (commons r.reac r.prod) := by
    unfold countM count
    refine List.sum_le_sum fun x _ => ?_
    split_ifs <;> omega
  unfold detect
  simp only
  rw [if_neg (by omega), if_pos hM]

example : detect gas ⟨[(['M'], 2)], [(['M'], 2), (['A'], 1)], true, none, false⟩ = .throw :=
  two_generic_rejected (by simp [keys])
    (Or.inl ⟨2, 2, by simp, by simp, by norm_num, by norm_num⟩)

/-- A given third body which does not match the equation is rejected. -/
theorem incompatible_rejected {r : Rxn} {tb : TB} {n : Str} (h : r.tb = some tb)
    (h1 : tb.name ≠ n) (h2 : n ≠ ['M']) (h3 : tb.name ≠ ['M']) : apply r n = .throw := by
  unfold apply nameTB
  rw [h]
  simp only
  rw [if_pos ⟨h1, h2, h3⟩]
  rfl

example : detect gas ⟨[(['A'], 1), (['B'], 1), (['X'], 1)], [(['C'], 1), (['X'], 1)], true,
    some ⟨['B'], true, [], 1, true⟩, false⟩ = .throw := by
  rw [detect_single (n := ['X']) (v := 1) (w := 1) (by simp [commons, get]) (by norm_num),
    single_whole (whole_unit [['A'], ['B'], ['X']]) (whole_unit [['C'], ['X']])
      (Or.inl (by simp [total]; norm_num))]
  exact incompatible_rejected rfl (by decide) (by decide) (by decide)

/-- An efficiency of a species which is not a reactant does not select a third body. -/
theorem efficiency_rejected {cfg : Cfg} {r : Rxn} {n : Str} {k : ℝ}
    (h1 : Twice r.reac r.prod) (hp : (keys r.prod).Nodup)
    (h2 : ∀ x ∈ r.reac, generic x.1 = false) (ht : r.tb = none)
    (he : cfg.effs = some [(n, k)]) (hn : n ∉ keys r.reac) : detect cfg r = .throw := by
  have hM : countM (commons r.reac r.prod) = 0 :=
    countM_zero fun z hz => h2 _ (commons_mem hz).1
  have hc := twice_count hp h1
  unfold detect
  simp only [hM]
  rw [if_neg (by omega), if_neg (by omega), if_pos hc, if_neg (by omega)]
  unfold ambiguous
  rw [ht, he]
  simp only
  rw [if_neg]
  rw [(get_none_iff _ _).mpr hn]
  simp

example : detect { gas with effs := some [(['X'], 1)] } ⟨[(['A'], 1), (['B'], 1)],
    [(['A'], 1), (['B'], 1), (['C'], 1)], true, none, false⟩ = .throw :=
  efficiency_rejected (Or.inl ⟨['A'], ['B'], by decide, by simp [keys], by simp [keys],
    by simp [keys], by simp [keys]⟩) (by simp [keys]) (by
      intro x hx
      simp only [List.mem_cons, List.not_mem_nil, or_false] at hx
      rcases hx with rfl | rfl <;> rfl) rfl rfl (by simp [keys])

/-- The same for a given third body: unless it has exactly one efficiency, of a reactant, it does not
select the third body. -/
theorem given_rejected {cfg : Cfg} {r : Rxn} {tb : TB}
    (h1 : Twice r.reac r.prod) (hp : (keys r.prod).Nodup)
    (h2 : ∀ x ∈ r.reac, generic x.1 = false) (ht : r.tb = some tb)
    (hn : ∀ e k, tb.effs = [(e, k)] → e ∉ keys r.reac) : detect cfg r = .throw := by
  have hM : countM (commons r.reac r.prod) = 0 :=
    countM_zero fun z hz => h2 _ (commons_mem hz).1
  have hc := twice_count hp h1
  unfold detect
  simp only [hM]
  rw [if_neg (by omega), if_neg (by omega), if_pos hc, if_neg (by omega)]
  unfold ambiguous
  rw [ht]
  simp only
  rcases he : tb.effs with _ | ⟨⟨e, k⟩, _ | ⟨y, l⟩⟩
  · rfl
  · simp only
    rw [if_neg]
    rw [(get_none_iff _ _).mpr (hn e k he)]
    simp
  · rfl

example : detect gas ⟨[(['A'], 1), (['B'], 1)],
    [(['A'], 1), (['B'], 1), (['C'], 1)], true, some ⟨['C'], true, [(['C'], 1)], 0, true⟩, false⟩ =
      .throw :=
  given_rejected (Or.inl ⟨['A'], ['B'], by decide, by simp [keys], by simp [keys],
    by simp [keys], by simp [keys]⟩) (by simp [keys]) (by
      intro x hx
      simp only [List.mem_cons, List.not_mem_nil, or_false] at hx
      rcases hx with rfl | rfl <;> rfl) rfl (by
        intro e k h
        simp only [List.cons.injEq, Prod.mk.injEq, and_true] at h
        rw [← h.1]; simp [keys])

/-! ## Undefined behaviour -/

/-- **Undefined behaviour**: if the third body is `(+M)` and any other species is on both sides, then
the generic third body is looked up under the name `M`, which is not there, and the end iterator is
dereferenced. -/
theorem falloff_catalyst_ub {shw : ℝ → Str} {cfg : Cfg} {r : Src} (h : WF shw r)
    (hc : cfg.three = true ∨ cfg.fixed = false) (ht : r.third = some (['M'], false))
    (hd : ¬ Disj r) : setEquation cfg Rxn.new (equation shw r) = .ub := by
  obtain ⟨e, he⟩ := setEquation_detect h.toOk hc
  set f : Str := ['(', '+'] ++ ['M'] ++ [')'] with hf
  have hfr : f ∉ keys r.reac := par_not_named h.reac_ok ['M']
  have hfp : f ∉ keys r.prod := par_not_named h.prod_ok ['M']
  have hpr : (parsed r e).reac = addTo r.reac f 1 := by
    simp only [parsed, ht, thirdComp]
    rw [addAll_third h.reac_nodup]
  have hpp : (parsed r e).prod = addTo r.prod f 1 := by
    simp only [parsed, ht, thirdComp]
    rw [addAll_third h.prod_nodup]
  have hcom : commons (parsed r e).reac (parsed r e).prod =
      commons r.reac r.prod ++ [(f, 1, 1)] := by
    rw [hpr, hpp, addTo_new hfr, addTo_new hfp, commons_new hfr hfp]
  have hne : commons r.reac r.prod ≠ [] := by
    intro hnil
    apply hd
    intro n hn hp
    obtain ⟨⟨m, v⟩, hm, hmn⟩ := List.mem_map.mp hn
    simp only at hmn
    subst hmn
    rcases hg : get r.prod m with _ | w
    · exact (get_none_iff _ _).mp hg hp
    · have := mem_commons hm hg
      rw [hnil] at this; cases this
  rw [he, detect_generic hcom (commons_not_generic h.reac_ok h.reac_M) (by decide) hne]
  unfold apply
  have hn : nameTB (parsed r e) ['M'] = .ok TB.new := rfl
  rw [hn]
  have ha : adjust (parsed r e).reac ['M'] = .ub := by
    unfold adjust
    rw [hpr, get_addTo_other _ (by decide), (get_none_iff _ _).mpr h.reac_M]
  rw [ha]
  rfl

/-- `A + B (+M) => A + C (+M)` -/
example (shw : ℝ → Str) : setEquation gas Rxn.new (equation shw
    ⟨[(['A'], 1), (['B'], 1)], [(['A'], 1), (['C'], 1)], false, some (['M'], false)⟩) = .ub :=
  falloff_catalyst_ub (unit_wf (a := [['A'], ['B']]) (b := [['A'], ['C']]) (by simp) (by simp)
    (mem_two nA nB) (mem_two nA nC) (by simp) (by simp) (by simp) (by simp) ⟨nM.1, nM.2.1⟩)
    (Or.inr gas_fixed) rfl (by simp [Disj, keys])

/-! ## Third bodies lost and found -/

/-- **An explicit third body is lost**: unless the type says so, `X` is recognised only if one side
has three participants; otherwise it becomes a species on both sides. -/
theorem explicit_lost {shw : ℝ → Str} {cfg : Cfg} {r : Src} (h : WF shw r) {n : Str}
    (ht : r.third = some (n, true)) (hn : n ≠ ['M']) (hf : cfg.fixed = false)
    (h3 : cfg.three = false) (hd : Disj r) (hx : n ∉ keys r.reac) (hx' : n ∉ keys r.prod)
    (w1 : Whole r.reac) (w2 : Whole r.prod) (t1 : total r.reac ≠ 2) (t2 : total r.prod ≠ 2) :
    ∃ q, setEquation cfg Rxn.new (equation shw r) = .ok q ∧ q.tb = none ∧
      q.reac = r.reac ++ [(n, 1)] ∧ q.prod = r.prod ++ [(n, 1)] := by
  obtain ⟨e, he⟩ := setEquation_detect h.toOk (cfg := cfg) (Or.inr hf)
  have hnamed : Named n := by
    have := h.third_ok
    rw [ht] at this
    exact this
  have hpr : (parsed r e).reac = addTo r.reac n 1 := by
    simp only [parsed, ht, thirdComp]
    rw [addAll_third h.reac_nodup]
  have hpp : (parsed r e).prod = addTo r.prod n 1 := by
    simp only [parsed, ht, thirdComp]
    rw [addAll_third h.prod_nodup]
  have hcom : commons (parsed r e).reac (parsed r e).prod = [(n, 1, 1)] := by
    rw [hpr, hpp, addTo_new hx, addTo_new hx', commons_new hx hx', commons_nil hd]
    rfl
  rw [he, detect_single hcom (by norm_num), single_not_three hn (named_not_par hnamed) h3
    (by rw [hpr]; exact whole_addTo w1 n) (by rw [hpp]; exact whole_addTo w2 n)]
  · exact ⟨_, rfl, rfl, by rw [hpr, addTo_new hx], by rw [hpp, addTo_new hx']⟩
  · rw [hpr, total_addTo]
    intro hc; apply t1; linarith
  · rw [hpp, total_addTo]
    intro hc; apply t2; linarith

/-- `A + X => B + X` -/
example (shw : ℝ → Str) : ∃ q, setEquation gas Rxn.new (equation shw
    ⟨[(['A'], 1)], [(['B'], 1)], false, some (['X'], true)⟩) = .ok q ∧ q.tb = none ∧
      q.reac = [(['A'], 1), (['X'], 1)] ∧ q.prod = [(['B'], 1), (['X'], 1)] :=
  explicit_lost (r := ⟨[(['A'], 1)], [(['B'], 1)], false, some (['X'], true)⟩)
    (unit_wf (a := [['A']]) (b := [['B']]) (by simp) (by simp)
      (mem_one nA) (mem_one nB) (by simp) (by simp) (by simp) (by simp) nX)
    rfl (by decide) gas_fixed gas_three (by simp [Disj, keys]) (by simp [keys]) (by simp [keys])
    (whole_unit [['A']]) (whole_unit [['B']]) (by simp [total]) (by simp [total])

/-- **An explicit third body is lost** if it, or another species, is on both sides as well. -/
theorem explicit_lost_many {shw : ℝ → Str} {cfg : Cfg} {r : Src} (h : WF shw r) {n : Str}
    (ht : r.third = some (n, true)) (hn : n ≠ ['M']) (hf : cfg.fixed = false)
    (h3 : cfg.three = false) (heff : cfg.effs = none) (hdf : cfg.dflt = false)
    (hd : (∃ m, m ≠ n ∧ m ∈ keys r.reac ∧ m ∈ keys r.prod) ∨
      ∃ v w, (n, v) ∈ r.reac ∧ (n, w) ∈ r.prod ∧ 0 < v ∧ 0 < w) :
    ∃ q, setEquation cfg Rxn.new (equation shw r) = .ok q ∧ q.tb = none := by
  obtain ⟨e, he⟩ := setEquation_detect h.toOk (cfg := cfg) (Or.inr hf)
  have hnamed : Named n := by
    have := h.third_ok
    rw [ht] at this
    exact this
  have hpr : (parsed r e).reac = addTo r.reac n 1 := by
    simp only [parsed, ht, thirdComp]
    rw [addAll_third h.reac_nodup]
  have hpp : (parsed r e).prod = addTo r.prod n 1 := by
    simp only [parsed, ht, thirdComp]
    rw [addAll_third h.prod_nodup]
  have htw : Twice (parsed r e).reac (parsed r e).prod := by
    rw [hpr, hpp]
    exact twice_third h.reac_nodup h.prod_nodup hd
  have hM : countM (commons (parsed r e).reac (parsed r e).prod) = 0 := by
    rw [hpr]
    exact third_not_generic h.reac_ok h.reac_M hnamed hn
  have hnd : (keys (parsed r e).prod).Nodup := by
    rw [hpp]; exact keys_addTo_nodup h.prod_nodup _ _
  rw [he, detect_many (twice_count hnd htw) hM rfl heff hdf h3]
  exact ⟨_, rfl, rfl⟩

/-- The constructor from compositions without `ThirdBody` (src/kinetics/Reaction.cpp:27-67): the
only species on both sides becomes the third body, but stays in the compositions.  `check` and
the rate are not modelled; `none` is an exception. -/
noncomputable def fromComp (reac prod : Comp) (rev : Bool) : Option Src :=
  if ['M'] ∈ keys reac ∨ ['M'] ∈ keys prod then none
  else match commons reac prod with
    | [(n, _)] => some ⟨reac, prod, rev, some (n, true)⟩
    | _ => some ⟨reac, prod, rev, none⟩

/-- **Implicit third bodies are lost**: a reaction made from compositions with one species on both
sides has that species as third body; the equation contains it once more on both sides, and
reading the equation gives a reaction without third body. -/
theorem implicit_lost {shw : ℝ → Str} {cfg : Cfg} {reac prod : Comp} {rev : Bool} {r : Src}
    (hr : fromComp reac prod rev = some r) (h : WF shw r) {n : Str} {v w : ℝ}
    (hc : commons reac prod = [(n, v, w)]) (hv : 0 < v) (hw : 0 < w) (hf : cfg.fixed = false)
    (h3 : cfg.three = false) (heff : cfg.effs = none) (hdf : cfg.dflt = false) :
    r.third = some (n, true) ∧
      ∃ q, setEquation cfg Rxn.new (equation shw r) = .ok q ∧ q.tb = none := by
  have hM : ¬ (['M'] ∈ keys reac ∨ ['M'] ∈ keys prod) := by
    intro hM
    unfold fromComp at hr
    rw [if_pos hM] at hr; cases hr
  have he : r = ⟨reac, prod, rev, some (n, true)⟩ := by
    unfold fromComp at hr
    rw [if_neg hM, hc] at hr
    exact (Option.some.inj hr).symm
  subst he
  have hmem : (n, v, w) ∈ commons reac prod := by rw [hc]; simp
  obtain ⟨h1, h2⟩ := commons_mem hmem
  refine ⟨rfl, explicit_lost_many h rfl ?_ hf h3 heff hdf (Or.inr ⟨v, w, h1, get_some_mem h2, hv, hw⟩)⟩
  rintro rfl
  exact hM (Or.inl (List.mem_map.mpr ⟨_, h1, rfl⟩))

example (shw : ℝ → Str) : ∃ r, fromComp [(['A'], 1), (['X'], 1)] [(['B'], 1), (['X'], 1)] false = some r ∧
    equation shw r = "A + X + X => B + X + X".toList ∧ r.third = some (['X'], true) ∧
      ∃ q, setEquation gas Rxn.new (equation shw r) = .ok q ∧ q.tb = none := by
  have hc : commons [(['A'], (1 : ℝ)), (['X'], 1)] [(['B'], 1), (['X'], 1)] = [(['X'], 1, 1)] := by
    simp [commons, get]
  have hr : fromComp [(['A'], 1), (['X'], 1)] [(['B'], 1), (['X'], 1)] false =
      some ⟨[(['A'], 1), (['X'], 1)], [(['B'], 1), (['X'], 1)], false, some (['X'], true)⟩ := by
    unfold fromComp
    rw [if_neg (by simp [keys]), hc]
  refine ⟨_, hr, ?_, implicit_lost hr ?_ hc one_pos one_pos gas_fixed gas_three rfl rfl⟩
  · simp [equation, sideText, termText, thirdText, collider]
  · exact unit_wf (a := [['A'], ['X']]) (b := [['B'], ['X']]) (by simp) (by simp)
      (mem_two nA nX) (mem_two nB nX) (by simp) (by simp) (by simp) (by simp) nX

theorem adjust_some {c : Comp} {n : Str} {v : ℝ} (h : get c n = some v) : ∃ d, adjust c n = .ok d := by
  unfold adjust
  rw [h]
  simp only
  split_ifs <;> exact ⟨_, rfl⟩

/-- **A third body appears**: a reaction without third body, with one species on both sides and three
participants on one of them, is read back with that species as third body. -/
theorem third_gained {shw : ℝ → Str} {cfg : Cfg} {r : Src} (h : WF shw r) {n : Str} {v w : ℝ}
    (ht : r.third = none) (hf : cfg.fixed = false)
    (hc : commons r.reac r.prod = [(n, v, w)]) (hvw : ¬ (1 < v ∧ 1 < w))
    (w1 : Whole r.reac) (w2 : Whole r.prod) (t : total r.reac = 3 ∨ total r.prod = 3) :
    ∃ q tb, setEquation cfg Rxn.new (equation shw r) = .ok q ∧ q.tb = some tb ∧ tb.name = n := by
  obtain ⟨e, he⟩ := setEquation_detect h.toOk (cfg := cfg) (Or.inr hf)
  have hpr : (parsed r e).reac = r.reac := by
    simp only [parsed, ht, thirdComp, List.append_nil]
    rw [addAll_fresh (by simpa using h.reac_nodup)]; rfl
  have hpp : (parsed r e).prod = r.prod := by
    simp only [parsed, ht, thirdComp, List.append_nil]
    rw [addAll_fresh (by simpa using h.prod_nodup)]; rfl
  have hmem : (n, v, w) ∈ commons r.reac r.prod := by rw [hc]; simp
  obtain ⟨h1, h2⟩ := commons_mem hmem
  obtain ⟨a, ha⟩ := adjust_some (get_of_mem h.reac_nodup h1)
  obtain ⟨b, hb⟩ := adjust_some h2
  obtain ⟨tb, htb, hname, -, -⟩ := setName_new (named_not_par (h.reac_ok _ h1).1)
  rw [he, detect_single (by rw [hpr, hpp]; exact hc) hvw, single_whole (by rw [hpr]; exact w1)
    (by rw [hpp]; exact w2) (by rw [hpr, hpp]; exact t),
    apply_ok (tb := tb) (a := a) (b := b) rfl htb (by rw [hpr]; exact ha) (by rw [hpp]; exact hb)]
  exact ⟨_, tb, rfl, rfl, hname⟩

/-- `A + B + C => A + X` -/
example (shw : ℝ → Str) : ∃ q tb, setEquation gas Rxn.new (equation shw
    ⟨[(['A'], 1), (['B'], 1), (['C'], 1)], [(['A'], 1), (['X'], 1)], false, none⟩) = .ok q ∧
      q.tb = some tb ∧ tb.name = ['A'] := by
  refine third_gained (v := 1) (w := 1) (r := ⟨[(['A'], 1), (['B'], 1), (['C'], 1)],
    [(['A'], 1), (['X'], 1)], false, none⟩)
    (unit_wf (a := [['A'], ['B'], ['C']]) (b := [['A'], ['X']]) (by simp) (by simp)
      ?_ (mem_two nA nX) (by simp) (by simp) (by simp) (by simp) trivial)
    rfl gas_fixed (by simp [commons, get]) (by norm_num) (whole_unit [['A'], ['B'], ['C']])
    (whole_unit [['A'], ['X']]) (Or.inl (by simp [total]; norm_num))
  intro n hn
  simp only [List.mem_cons, List.not_mem_nil, or_false] at hn
  rcases hn with rfl | rfl | rfl
  · exact nA
  · exact nB
  · exact nC

/-! ## Digits -/

/-- The number is printed with six significant digits. -/
def SixDigits (shw : ℝ → Str) (x : ℝ) : Prop := NoSp (shw x) ∧ ∃ m e : ℤ, |m| < 10 ^ 6 ∧
  fpValueCheck (shw x) = some ((m : ℝ) * (10 : ℝ) ^ e) ∧ |(m : ℝ) * (10 : ℝ) ^ e - x| ≤ |x| / 10 ^ 5

theorem no_eight_digits {m e : ℤ} (hm : |m| < 10 ^ 6) :
    (m : ℝ) * (10 : ℝ) ^ e ≠ 1.2345678 := by
  intro h
  have h10 : (10 : ℝ) ≠ 0 := by norm_num
  have h7 : (m : ℝ) * (10 : ℝ) ^ (e + 7) = 12345678 := by
    rw [zpow_add₀ h10, ← mul_assoc, h]; norm_num
  rcases le_or_gt 0 (e + 7) with he | he
  · obtain ⟨k, hk⟩ := Int.eq_ofNat_of_zero_le he
    rw [hk, zpow_natCast] at h7
    have hz : m * 10 ^ k = 12345678 := by exact_mod_cast h7
    rcases k with _ | k
    · simp only [pow_zero, mul_one] at hz
      rw [hz] at hm; norm_num at hm
    · rw [pow_succ] at hz
      have : (10 : ℤ) ∣ 12345678 := ⟨m * 10 ^ k, by rw [← hz]; ring⟩
      norm_num at this
  · obtain ⟨k, hk⟩ := Int.eq_ofNat_of_zero_le (by omega : 0 ≤ -(e + 7))
    have he7 : e + 7 = -(k : ℤ) := by omega
    rw [he7, zpow_neg, zpow_natCast] at h7
    have hp : (0 : ℝ) < 10 ^ k := by positivity
    have hz' : (m : ℝ) = 12345678 * 10 ^ k := by
      field_simp at h7; linarith
    have hz : m = 12345678 * 10 ^ k := by exact_mod_cast hz'
    have h1 : (1 : ℤ) ≤ 10 ^ k := one_le_pow₀ (by norm_num)
    have h2 := (abs_lt.mp hm).2
    rw [hz] at h2
    norm_num at h2
    linarith

/-- **Coefficients are rounded**: with six digits, the equation of `1.2345678 A => B` is read, but
with a different coefficient. -/
theorem coefficient_lost {shw : ℝ → Str} (h6 : SixDigits shw 1.2345678) {cfg : Cfg} (h3 : cfg.three = false) :
    ∃ q v, setEquation cfg Rxn.new (equation shw ⟨[(['A'], 1.2345678)], [(['B'], 1)], false, none⟩) =
      .ok q ∧ q.reac = [(['A'], v)] ∧ v ≠ 1.2345678 := by
  obtain ⟨hsp, m, e, hm, hread, hclose⟩ := h6
  set v : ℝ := (m : ℝ) * (10 : ℝ) ^ e with hv
  have hne : v ≠ 1.2345678 := no_eight_digits hm
  have hv1 : v ≠ 1 := by
    intro h1
    rw [h1] at hclose
    norm_num [abs_of_pos, abs_of_neg] at hclose
  -- the same text is the text of the reaction with the rounded coefficient
  set shw' : ℝ → Str := fun _ => shw 1.2345678 with hs'
  set r' : Src := ⟨[(['A'], v)], [(['B'], 1)], false, none⟩ with hr'
  have htext : equation shw ⟨[(['A'], 1.2345678)], [(['B'], 1)], false, none⟩ = equation shw' r' := by
    unfold equation
    simp only [hr', sideText, termText]
    rw [if_pos (by norm_num), if_pos hv1]
    simp [hs']
  have hwf : WF shw' r' :=
    { reac_ne := by simp [hr']
      prod_ne := by simp [hr']
      reac_ok := by
        intro x hx
        simp only [hr', List.mem_cons, List.not_mem_nil, or_false] at hx
        subst hx
        exact ⟨nA, fun _ => ⟨hsp, hread⟩⟩
      prod_ok := by
        intro x hx
        simp only [hr', List.mem_cons, List.not_mem_nil, or_false] at hx
        subst hx
        exact ok_one _ nB
      third_ok := trivial
      reac_nodup := by simp [hr', keys]
      prod_nodup := by simp [hr', keys]
      reac_M := by simp [hr', keys]
      prod_M := by simp [hr', keys] }
  have hrec : Recog cfg r' := ⟨h3, Or.inr (Or.inl (by simp [Disj, hr', keys]))⟩
  obtain ⟨q, hq, hqr, -⟩ := round_trip_partial hwf hrec
  rw [htext]
  exact ⟨q, v, hq, hqr, hne⟩

example : SixDigits (fun _ => "1.23457".toList) 1.2345678 := by
  refine ⟨?_, 123457, -5, by norm_num, ?_, by norm_num [abs_le]⟩
  · intro c hc
    have : c ∈ ['1', '.', '2', '3', '4', '5', '7'] := hc
    simp only [List.mem_cons, List.not_mem_nil, or_false] at this
    rcases this with rfl | rfl | rfl | rfl | rfl | rfl | rfl <;> decide
  · rw [fpValueCheck_iff]
    refine ⟨⟨none, ['1'], some ['2', '3', '4', '5', '7'], none⟩,
      ⟨by simp, ?_, ?_, trivial, by simp⟩, by decide, ?_⟩
    · intro c hc; simp at hc; subst hc; decide
    · intro d hd; cases hd
      intro c hc
      simp only [List.mem_cons, List.not_mem_nil, or_false] at hc
      rcases hc with rfl | rfl | rfl | rfl | rfl <;> decide
    · have : decNat ['1', '2', '3', '4', '5', '7'] = 123457 := by decide
      simp [Num.value, exVal, this]

/-! ## Empty sides -/

/-- **No products**: the equation of a reaction without products is rejected. -/
theorem empty_products {shw : ℝ → Str} {cfg : Cfg} {c : Comp} {rev : Bool} (hne : c ≠ [])
    (hc : ∀ x ∈ c, TermOk shw x) :
    setEquation cfg Rxn.new (equation shw ⟨c, [], rev, none⟩) = .throw := by
  have hp : parse Rxn.new (equation shw ⟨c, [], rev, none⟩) = none := by
    unfold parse
    rw [words_equation (r := ⟨c, [], rev, none⟩) hc (by simp) trivial]
    simp only [thirdToks, sideToks, List.append_nil]
    set A := sideToks shw c with hA
    set toks := A ++ [arrowTok rev] ++ [['+']] with htoks
    set s0 : PS := ⟨-1, true, Rxn.new.reac, Rxn.new.prod, Rxn.new.rev⟩ with hs0
    have e1 := side_exec (shw := shw) (toks := toks) (arrow_sep rev) (c := c) (D := [])
      (R := [['+']]) (s := s0) hne hc (by simp [htoks, hA]) (by simp [DOk]) (by simp [hs0])
    have hlen : toks.length = (A.length + 1) + 1 := by simp [htoks]
    have etot : exec toks 0 toks.length s0 = exec toks 1 (toks.length - 1) s0 := by
      obtain ⟨t, l, hl, ht⟩ := first_not_sep hne hc
      have hk : toks.length = (toks.length - 1) + 1 := by omega
      rw [hk, exec, step_not_sep (D := []) (t := t) (R := l ++ [arrowTok rev] ++ [['+']])
        (by simp [htoks, hA, hl]) (i := 0) rfl ht]
      simp
    rw [← etot, hlen, exec_add]
    simp only [List.length_nil] at e1
    rw [e1, Option.bind_some, exec_one]
    have h2 : toks = (A ++ [arrowTok rev]) ++ ['+'] :: [] := by simp [htoks]
    have h3 : toks = A ++ arrowTok rev :: [['+']] := by simp [htoks]
    rw [step_sep h2 (by simp) (by decide)]
    have ht : term toks (0 + (A.length + 1))
        ((s0.useAll (0 + A.length : ℕ) c).arrow (arrowTok rev)) = none := by
      unfold term
      rw [show 0 + (A.length + 1) - 1 = A.length by omega, getD_app' h3 rfl]
      simp only [arrow_lu, useAll_lu]
      rw [Int.toNat_natCast, getD_app' h3 (by omega : 0 + A.length = A.length)]
      rw [if_neg, if_neg, if_neg, if_neg]
      · push_cast; omega
      · push_cast; omega
      · rintro ⟨-, h4, -⟩
        revert h4
        unfold arrowTok
        cases rev <;> decide
      · rintro ⟨-, h4, -⟩
        revert h4
        unfold arrowTok
        cases rev <;> decide
    rw [ht]
    rfl
  unfold setEquation
  rw [hp]

example (shw : ℝ → Str) (cfg : Cfg) :
    setEquation cfg Rxn.new (equation shw ⟨[(['A'], 1)], [], false, none⟩) = .throw :=
  empty_products (by simp) (by
    intro x hx
    simp only [List.mem_cons, List.not_mem_nil, or_false] at hx
    subst hx; exact ok_one _ nA)

end Verif.Equation
