import Verif.Kinetics.TempDeriv
import Mathlib.Tactic.LinearCombination

/-!
# C56: temperature and pressure derivatives of the rates of progress
-/

namespace Verif.Kinetics

open Verif Verif.Stoich Filter Topology

/-! ### Independent description -/

/-- Natural logarithm of the reciprocal concentration equilibrium constant of a reaction in an ideal gas:
`ΔG°(T, P0)/(RT) + Δn ln(RT/P0)`. -/
noncomputable def TGas.lnRkc (g : TGas) (r : Rxn) (T : ℝ) : ℝ :=
  r.delta (fun k => g.g k T) / (g.R * T) + r.deltaN * (Real.log (g.R * T) - Real.log g.P0)

/-- The evaluator of a reaction delivers what its rate law `f` needs at temperature `T`, where the law
has the derivative `f'`.  An analytic evaluator gives the logarithmic derivative; a
numerical one evaluates the law itself, and then only the multipliers `p = 1` and `p = 0` are
handled. -/
def DT.Models (ev : DT) (f : ℝ → ℝ) (f' p T : ℝ) : Prop :=
  match ev with
  | .analytic s => f' = f T * s
  | .numeric h => h = f ∧ f T ≠ 0 ∧ (p = 1 ∨ p = 0)

/-- The same for pressure: a data type without `perturbPressure` claims that the law does not depend
on pressure. -/
def PModels (ev : Option (ℝ → ℝ)) (f : ℝ → ℝ) (f' p P : ℝ) : Prop :=
  match ev with
  | none => f' = 0
  | some h => h = f ∧ f P ≠ 0 ∧ (p = 1 ∨ p = 0)

/-! ### Value of the loops -/

open Classical in
/-- Factor applied by one iteration of the temperature loop. -/
noncomputable def dtFac (k T δ : ℝ) : DT → ℝ
  | .analytic s => s
  | .numeric f => if k ≠ 0 then 1 / (T * δ) * (f (T * (1 + δ)) / k - 1) else 1

open Classical in
/-- Factor applied by one iteration of the pressure loop. -/
noncomputable def dpFac (k P δ : ℝ) : Option (ℝ → ℝ) → ℝ
  | none => 0
  | some f => if k ≠ 0 then 1 / (P * δ) * (f (P * (1 + δ)) / k - 1) else 1

theorem ddTStep_eq (kf : Vec) (T δ : ℝ) (rop : Vec) (e : ℕ × DT) :
    ddTStep kf T δ rop e = mulAt rop e.1 (dtFac (kf e.1) T δ e.2) := by
  obtain ⟨i, ev⟩ := e
  cases ev with
  | analytic s => rfl
  | numeric f =>
    simp only [ddTStep, dtFac]
    by_cases h : kf i ≠ 0
    · rw [if_pos h, if_pos h]
    · rw [if_neg h, if_neg h]; simp [mulAt]

theorem ddPStep_eq (kf : Vec) (P δ : ℝ) (rop : Vec) (e : ℕ × Option (ℝ → ℝ)) :
    ddPStep kf P δ rop e = mulAt rop e.1 (dpFac (kf e.1) P δ e.2) := by
  obtain ⟨i, ev⟩ := e
  cases ev with
  | none => simp [ddPStep, dpFac, mulAt]
  | some f =>
    simp only [ddPStep, dpFac]
    by_cases h : kf i ≠ 0
    · rw [if_pos h, if_pos h]
    · rw [if_neg h, if_neg h]; simp [mulAt]

theorem mulAt_foldl_gen {α : Type*} (key : α → ℕ) (val : α → ℝ) (l : List α)
    (hn : (l.map key).Nodup) (v : Vec) (a : α) (ha : a ∈ l) :
    l.foldl (fun v a => mulAt v (key a) (val a)) v (key a) = v (key a) * val a := by
  have hout : ∀ (l : List α) (v : Vec) (i : ℕ), i ∉ l.map key →
      l.foldl (fun v a => mulAt v (key a) (val a)) v i = v i := by
    intro l
    induction l with
    | nil => intros; rfl
    | cons b l ih =>
      intro v i hi
      rw [List.map_cons, List.mem_cons, not_or] at hi
      rw [List.foldl_cons, ih _ _ hi.2, mulAt, Function.update_of_ne hi.1]
  induction l generalizing v with
  | nil => simp at ha
  | cons b l ih =>
    rw [List.map_cons, List.nodup_cons] at hn
    rw [List.foldl_cons]
    rcases List.mem_cons.1 ha with rfl | ha
    · rw [hout _ _ _ hn.1, mulAt, Function.update_self]
    · rw [ih hn.2 _ ha, mulAt, Function.update_of_ne]
      intro e
      exact hn.1 (e ▸ List.mem_map.2 ⟨a, ha, rfl⟩)

theorem processDdT_at (evs : List (ℕ × DT)) (hn : (evs.map (·.1)).Nodup) (kf : Vec) (T δ : ℝ) (inp : Vec)
    (i : ℕ) (ev : DT) (he : (i, ev) ∈ evs) :
    processDdT evs kf T δ inp i = inp i * dtFac (kf i) T δ ev := by
  have := mulAt_foldl_gen (fun e : ℕ × DT => e.1) (fun e => dtFac (kf e.1) T δ e.2) evs hn inp (i, ev) he
  simp only at this
  rw [← this, processDdT]
  exact congrArg (fun f => evs.foldl f inp i) (funext₂ fun v e => ddTStep_eq kf T δ v e)

theorem processDdP_at (evs : List (ℕ × Option (ℝ → ℝ))) (hn : (evs.map (·.1)).Nodup) (kf : Vec)
    (P δ : ℝ) (inp : Vec) (i : ℕ) (ev : Option (ℝ → ℝ)) (he : (i, ev) ∈ evs) :
    processDdP evs kf P δ inp i = inp i * dpFac (kf i) P δ ev := by
  have := mulAt_foldl_gen (fun e : ℕ × Option (ℝ → ℝ) => e.1) (fun e => dpFac (kf e.1) P δ e.2) evs hn
    inp (i, ev) he
  simp only at this
  rw [← this, processDdP]
  exact congrArg (fun f => evs.foldl f inp i) (funext₂ fun v e => ddPStep_eq kf P δ v e)

/-! ### Limits -/

theorem dT_limit (f : ℝ → ℝ) (T f' : ℝ) (hT : 0 < T) (hf : HasDerivAt f f' T) (h0 : f T ≠ 0) :
    Tendsto (fun δ => f T * (1 / (T * δ) * (f (T * (1 + δ)) / f T - 1))) (𝓝[≠] 0) (𝓝 f') := by
  have hg : HasDerivAt (fun δ => f (T * (1 + δ))) (f' * T) 0 := by
    have hi : HasDerivAt (fun δ : ℝ => T * (1 + δ)) T 0 := by
      simpa using ((hasDerivAt_id' (0 : ℝ)).const_add 1).const_mul T
    have hf2 : HasDerivAt f f' (T * (1 + 0)) := by simpa using hf
    exact hf2.comp 0 hi
  have hs := hasDerivAt_iff_tendsto_slope_zero.1 hg
  simp only [zero_add, add_zero, mul_one, smul_eq_mul] at hs
  have hp := hs.mul_const (1 / T)
  have e : f' * T * (1 / T) = f' := by field_simp
  rw [e] at hp
  refine hp.congr' ?_
  filter_upwards [self_mem_nhdsWithin] with δ hδ
  have hδ' : δ ≠ 0 := hδ
  field_simp

/-- A quotient `q(δ)/δ` with `q → L ≠ 0` diverges, whatever converging term is added. -/
theorem quot_diverges (q A : ℝ → ℝ) (L a : ℝ) (hq : Tendsto q (𝓝[≠] 0) (𝓝 L)) (hL : L ≠ 0)
    (hA : Tendsto A (𝓝[≠] 0) (𝓝 a)) :
    Tendsto (fun δ => |A δ + q δ / δ|) (𝓝[≠] 0) atTop := by
  have hinv : Tendsto (fun δ : ℝ => |δ⁻¹|) (𝓝[≠] 0) atTop := by
    simpa using tendsto_norm_inv_nhdsNE_zero_atTop (α := ℝ)
  have hprod := hinv.atTop_mul_pos (abs_pos.2 hL) hq.abs
  have hsub := hprod.atTop_add hA.abs.neg
  refine tendsto_atTop_mono (fun δ => ?_) hsub
  rw [← abs_mul]
  have := abs_sub_abs_le_abs_sub (δ⁻¹ * q δ) (-A δ)
  rw [abs_neg, sub_neg_eq_add, add_comm _ (A δ)] at this
  rw [div_eq_inv_mul]
  linarith

theorem dtFac_limit (ev : DT) (f : ℝ → ℝ) (f' p T w : ℝ) (hT : 0 < T) (hf : HasDerivAt f f' T)
    (hm : ev.Models f f' p T) :
    Tendsto (fun δ => f T * p * w * dtFac (f T * p) T δ ev) (𝓝[≠] 0) (𝓝 (f' * p * w)) := by
  cases ev with
  | analytic s =>
    have hm' : f' = f T * s := hm
    have : (fun δ : ℝ => f T * p * w * dtFac (f T * p) T δ (.analytic s)) = fun _ => f' * p * w := by
      funext δ
      rw [hm']; simp only [dtFac]; ring
    rw [this]; exact tendsto_const_nhds
  | numeric h =>
    obtain ⟨rfl, h0, rfl | rfl⟩ := hm
    · have := (dT_limit h T f' hT hf h0).mul_const w
      simp only [mul_one, dtFac, if_pos h0]
      refine this.congr fun δ => ?_
      ring
    · simp

theorem dpFac_limit (ev : Option (ℝ → ℝ)) (f : ℝ → ℝ) (f' p P w : ℝ) (hP : 0 < P)
    (hf : HasDerivAt f f' P) (hm : PModels ev f f' p P) :
    Tendsto (fun δ => f P * p * w * dpFac (f P * p) P δ ev) (𝓝[≠] 0) (𝓝 (f' * p * w)) := by
  cases ev with
  | none =>
    have hm' : f' = 0 := hm
    simp [dpFac, hm']
  | some h =>
    obtain ⟨rfl, h0, rfl | rfl⟩ := hm
    · have := (dT_limit h P f' hP hf h0).mul_const w
      simp only [mul_one, dpFac, if_pos h0]
      refine this.congr fun δ => ?_
      ring
    · simp

theorem numeric_diverges (f : ℝ → ℝ) (f' p T w : ℝ) (hT : 0 < T) (hf : HasDerivAt f f' T)
    (h0 : f T ≠ 0) (hp0 : p ≠ 0) (hp1 : p ≠ 1) (hw : w ≠ 0) :
    Tendsto (fun δ => |w * (1 / (T * δ) * (f (T * (1 + δ)) / (f T * p) - 1))|) (𝓝[≠] 0) atTop := by
  have hcf : ContinuousAt (fun δ : ℝ => f (T * (1 + δ))) 0 := by
    have : ContinuousAt f (T * (1 + 0)) := by simpa using hf.continuousAt
    exact ContinuousAt.comp (f := fun δ : ℝ => T * (1 + δ)) this (by fun_prop)
  have hc : ContinuousAt (fun δ : ℝ => w / T * (f (T * (1 + δ)) / (f T * p) - 1)) 0 :=
    continuousAt_const.mul ((hcf.div_const _).sub continuousAt_const)
  have ht := hc.tendsto.mono_left (nhdsWithin_le_nhds (s := {0}ᶜ))
  have hL : w / T * (f (T * (1 + 0)) / (f T * p) - 1) ≠ 0 := by
    rw [add_zero, mul_one]
    refine mul_ne_zero (div_ne_zero hw hT.ne') fun h => hp1 ?_
    have := sub_eq_zero.1 h
    rw [div_eq_one_iff_eq (mul_ne_zero h0 hp0)] at this
    exact (mul_left_cancel₀ h0 (by rw [mul_one]; exact this.symm))
  have := quot_diverges _ (fun _ => 0) _ 0 ht hL tendsto_const_nhds
  refine this.congr fun δ => ?_
  congr 1
  rw [zero_add]
  by_cases hδ : δ = 0
  · subst hδ; simp
  · field_simp

/-! ### Rates of an ideal gas -/

variable {rs : List Rxn} (hv : ∀ r ∈ rs, r.OK) {K : Kin} (hK : Built K rs) (g : TGas)
  (hTB : ∀ r ∈ rs, r.TBOK g.nsp) {oldR oldC : ℕ → ℝ}

theorem delta_add_const (r : Rxn) (a : ℕ → ℝ) (b : ℝ) :
    r.delta (fun k => a k + b) = r.delta a + b * r.deltaN := by
  have h : ∀ l : List (ℕ × ℝ), (l.map (fun x => x.2 * (a x.1 + b))).sum =
      (l.map (fun x => x.2 * a x.1)).sum + b * (l.map (fun x => x.2 * 1)).sum := by
    intro l
    induction l with
    | nil => simp
    | cons x l ih => simp only [List.map_cons, List.sum_cons, ih]; ring
  simp only [Rxn.delta, Rxn.deltaN, h]
  ring

theorem delta_hasDerivAt (r : Rxn) (a : ℕ → ℝ → ℝ) (a' : ℕ → ℝ) (T : ℝ)
    (h : ∀ k, HasDerivAt (a k) (a' k) T) :
    HasDerivAt (fun t => r.delta (fun k => a k t)) (r.delta a') T := by
  have hl : ∀ l : List (ℕ × ℝ), HasDerivAt (fun t => (l.map (fun x => x.2 * a x.1 t)).sum)
      (l.map (fun x => x.2 * a' x.1)).sum T := by
    intro l
    induction l with
    | nil => simpa using hasDerivAt_const T (0 : ℝ)
    | cons x l ih =>
      simp only [List.map_cons, List.sum_cons]
      exact ((h x.1).const_mul x.2).add ih
  exact (hl _).sub (hl _)

include hv hK in
theorem dn_value (i : ℕ) (r : Rxn) (hr : rs[i]? = some r) : K.dn i = r.deltaN := by
  obtain ⟨K', hK', hn, h1, h2, h3, h4, h5, h6, h7, h8⟩ := kin_addAll rs hv Kin.empty
  rw [Built] at hK; rw [hK] at hK'; cases hK'
  have := h6 (r, i) ((mem_zipIdx0 _ _ _).2 hr)
  simpa [Rxn.deltaN, Rxn.delta] using this

include hv hK in
/-- Gibbs energies of reaction as the code computes them. -/
theorem dg_value (T P : ℝ) (c : ℕ → ℝ) (i : ℕ) (r : Rxn) (hr : rs[i]? = some r)
    (hrev : r.reversible = true) :
    K.getRevReactionDelta (g.env rs T P c).mu0 i =
      r.delta (fun k => g.g k T) + Real.log (P / g.P0) * (g.R * T) * r.deltaN := by
  rw [(reaction_delta rs hv K hK _ i r hr).2 hrev]
  exact delta_add_const r _ _

include hv hK hTB in
theorem trop_value (T P : ℝ) (c : ℕ → ℝ) (R : Rop)
    (hR : K.updateROP (g.env rs T P c) oldR oldC = .ok R) (i : ℕ) (r : Rxn) (hr : rs[i]? = some r) :
    R.rfn i = g.law i T P (g.M rs i c) * g.perturb i ∧
    R.ropf i = g.law i T P (g.M rs i c) * g.perturb i * (r.mFactor g.nsp c * K.reac.fac c i) ∧
    R.ropr i = g.law i T P (g.M rs i c) * g.perturb i *
      (r.mFactor g.nsp c * R.rkcn i * K.revProd.fac c i) ∧
    R.ropnet i = R.ropf i - R.ropr i := by
  obtain ⟨h1, -, -, h4, h5, h6, -⟩ :=
    rop_fields rs hv K hK g.nsp hTB (g.env rs T P c) rfl oldR oldC R hR i r hr
  refine ⟨by rw [h1]; rfl, ?_, ?_, h6⟩
  · rw [h4]; simp only [TGas.env]; ring
  · rw [h5]; simp only [TGas.env]; ring

include hv hK hTB in
/-- The reciprocal equilibrium constant does not depend on pressure: the pressure in the standard
chemical potentials cancels against the one in the standard concentration. -/
theorem rkcn_ideal (T P : ℝ) (hT : 0 < T) (hP : 0 < P) (hP0 : 0 < g.P0) (hgR : 0 < g.R) (c : ℕ → ℝ)
    (R : Rop) (hR : K.updateROP (g.env rs T P c) oldR oldC = .ok R) (i : ℕ) (r : Rxn)
    (hr : rs[i]? = some r) :
    R.rkcn i = if r.reversible then min (Real.exp (g.lnRkc r T)) bigNumber else 0 := by
  obtain ⟨-, -, h3, -⟩ :=
    rop_fields rs hv K hK g.nsp hTB (g.env rs T P c) rfl oldR oldC R hR i r hr
  rw [h3]
  by_cases hrev : r.reversible = true
  · rw [if_pos hrev, if_pos hrev, dg_value hv hK g T P c i r hr hrev, dn_value hv hK i r hr]
    congr 2
    simp only [TGas.env, TGas.lnRkc]
    rw [Real.log_div hP.ne' hP0.ne', Real.log_div hP.ne' (mul_pos hgR hT).ne']
    have := (mul_pos hgR hT).ne'
    field_simp
    ring
  · rw [if_neg hrev, if_neg hrev]

theorem lnRkc_hasDerivAt (r : Rxn) (T : ℝ) (hT : 0 < T) (hgR : 0 < g.R) (g' : ℕ → ℝ)
    (hg : ∀ k, HasDerivAt (g.g k) (g' k) T) :
    HasDerivAt (g.lnRkc r) (r.delta g' / (g.R * T) - r.delta (fun k => g.g k T) / (g.R * T * T) +
      r.deltaN / T) T := by
  have h1 := delta_hasDerivAt r g.g g' T hg
  have h2 : HasDerivAt (fun t => g.R * t) g.R T := by simpa using (hasDerivAt_id' T).const_mul g.R
  have hne : g.R * T ≠ 0 := (mul_pos hgR hT).ne'
  have h3 := (h1.div h2 hne).add (((h2.log hne).sub_const (Real.log g.P0)).const_mul r.deltaN)
  refine h3.congr_deriv ?_
  field_simp

/-! ### Temperature -/

include hv hK hTB in
/-- Forward rates, analytic evaluators: the temperature derivative at constant pressure and
concentrations is exact, whatever the multiplier. -/
theorem fwd_ddT_exact (evs : List (ℕ × DT)) (hn : (evs.map (·.1)).Nodup) (T P δ : ℝ) (c : ℕ → ℝ)
    (Rf : ℝ → Rop) (hRf : ∀ t, K.updateROP (g.env rs t P c) oldR oldC = .ok (Rf t))
    (i : ℕ) (r : Rxn) (hr : rs[i]? = some r) (s : ℝ) (he : (i, DT.analytic s) ∈ evs)
    (hs : HasDerivAt (fun t => g.law i t P (g.M rs i c)) (g.law i T P (g.M rs i c) * s) T) :
    HasDerivAt (fun t => (Rf t).ropf i) (Kin.fwdDdT (Rf T) evs T δ i) T := by
  have hval := fun t => (trop_value hv hK g hTB t P c (Rf t) (hRf t) i r hr).2.1
  rw [funext hval, Kin.fwdDdT, processDdT_at evs hn _ T δ _ i _ he, hval T]
  refine ((hs.mul_const (g.perturb i)).mul_const (r.mFactor g.nsp c * K.reac.fac c i)).congr_deriv ?_
  simp only [dtFac]; ring

include hv hK hTB in
/-- Forward rates, any evaluator: the result tends to the temperature derivative at constant pressure and
concentrations as the relative step tends to zero.  Missing: numerical evaluators with multipliers
other than 0 and 1, see `ddT_multiplier_diverges`. -/
theorem fwd_ddT_limit_partial (evs : List (ℕ × DT)) (hn : (evs.map (·.1)).Nodup) (T P : ℝ) (hT : 0 < T)
    (c : ℕ → ℝ) (Rf : ℝ → Rop) (hRf : ∀ t, K.updateROP (g.env rs t P c) oldR oldC = .ok (Rf t))
    (i : ℕ) (r : Rxn) (hr : rs[i]? = some r) (ev : DT) (he : (i, ev) ∈ evs) (f' : ℝ)
    (hf : HasDerivAt (fun t => g.law i t P (g.M rs i c)) f' T)
    (hm : ev.Models (fun t => g.law i t P (g.M rs i c)) f' (g.perturb i) T) :
    ∃ d, HasDerivAt (fun t => (Rf t).ropf i) d T ∧
      Tendsto (fun δ => Kin.fwdDdT (Rf T) evs T δ i) (𝓝[≠] 0) (𝓝 d) := by
  have hval := fun t => trop_value hv hK g hTB t P c (Rf t) (hRf t) i r hr
  refine ⟨f' * g.perturb i * (r.mFactor g.nsp c * K.reac.fac c i), ?_, ?_⟩
  · rw [funext fun t => (hval t).2.1]
    exact (hf.mul_const _).mul_const _
  · refine (dtFac_limit ev _ f' (g.perturb i) T (r.mFactor g.nsp c * K.reac.fac c i) hT hf hm).congr ?_
    intro δ
    rw [Kin.fwdDdT, processDdT_at evs hn _ T δ _ i _ he, (hval T).1, (hval T).2.1]

include hv hK hTB in
/-- Forward rate constants likewise (`getFwdRateConstants_ddT`). -/
theorem const_ddT_limit_partial (evs : List (ℕ × DT)) (hn : (evs.map (·.1)).Nodup) (T P : ℝ) (hT : 0 < T)
    (c : ℕ → ℝ) (Rf : ℝ → Rop) (hRf : ∀ t, K.updateROP (g.env rs t P c) oldR oldC = .ok (Rf t))
    (i : ℕ) (r : Rxn) (hr : rs[i]? = some r) (ev : DT) (he : (i, ev) ∈ evs) (f' : ℝ)
    (hf : HasDerivAt (fun t => g.law i t P (g.M rs i c)) f' T)
    (hm : ev.Models (fun t => g.law i t P (g.M rs i c)) f' (g.perturb i) T) :
    ∃ d, HasDerivAt (fun t => (Rf t).rfn i) d T ∧
      Tendsto (fun δ => processDdT evs (Rf T).rfn T δ (Rf T).rfn i) (𝓝[≠] 0) (𝓝 d) := by
  have hval := fun t => trop_value hv hK g hTB t P c (Rf t) (hRf t) i r hr
  refine ⟨f' * g.perturb i, ?_, ?_⟩
  · rw [funext fun t => (hval t).1]
    exact hf.mul_const _
  · have := dtFac_limit ev _ f' (g.perturb i) T 1 hT hf hm
    simp only [mul_one] at this
    refine this.congr ?_
    intro δ
    rw [processDdT_at evs hn _ T δ _ i _ he, (hval T).1]

include hv hK hTB in
/-- Numerical evaluators divide the unmultiplied perturbed rate constant by the multiplied stored one: for
a multiplier other than 0 and 1 the result grows without bound as the step tends to zero. -/
theorem ddT_multiplier_diverges (evs : List (ℕ × DT)) (hn : (evs.map (·.1)).Nodup) (T P : ℝ) (hT : 0 < T)
    (c : ℕ → ℝ) (R : Rop) (hR : K.updateROP (g.env rs T P c) oldR oldC = .ok R)
    (i : ℕ) (r : Rxn) (hr : rs[i]? = some r) (f' : ℝ)
    (hf : HasDerivAt (fun t => g.law i t P (g.M rs i c)) f' T)
    (he : (i, DT.numeric (fun t => g.law i t P (g.M rs i c))) ∈ evs)
    (hp0 : g.perturb i ≠ 0) (hp1 : g.perturb i ≠ 1) (hrop : R.ropf i ≠ 0) :
    Tendsto (fun δ => |Kin.fwdDdT R evs T δ i|) (𝓝[≠] 0) atTop := by
  obtain ⟨h1, h2, -, -⟩ := trop_value hv hK g hTB T P c R hR i r hr
  have h0 : g.law i T P (g.M rs i c) ≠ 0 := by
    intro h; apply hrop; rw [h2, h]; ring
  refine (numeric_diverges _ f' (g.perturb i) T (R.ropf i) hT hf h0 hp0 hp1 hrop).congr ?_
  intro δ
  rw [Kin.fwdDdT, processDdT_at evs hn _ T δ _ i _ he, h1]
  simp only [dtFac, if_pos (mul_ne_zero h0 hp0)]

include hv hK in
/-- The equilibrium factor: only reversible reactions, `(Δg₁ - Δg₀)/(RTTδ) + Δn/T - Δg₀/(RTT)`. -/
theorem applyEqDdT_at (T RT δ : ℝ) (dg0 dg1 v : Vec) (i : ℕ) (r : Rxn) (hr : rs[i]? = some r) :
    K.applyEqDdT T RT δ dg0 dg1 v i = if r.reversible then
      v i * ((dg1 i - dg0 i) * (1 / RT * (1 / T) / δ) + (r.deltaN * (1 / T) - dg0 i * (1 / RT * (1 / T))))
      else 0 := by
  have hdn := dn_value hv hK i r hr
  obtain ⟨K', hK', hn, h1, h2, h3, h4, h5, h6, h7, h8⟩ := kin_addAll rs hv Kin.empty
  rw [Built] at hK; rw [hK] at hK'; cases hK'
  simp only [Kin.empty, List.nil_append] at h4 h5
  have n1 : (K.revindex.map id).Nodup := by
    rw [List.map_id, h4]; exact (zipIdx_snd_nodup rs 0).sublist (List.filter_sublist.map _)
  have n2 : (K.irrev.map id).Nodup := by
    rw [List.map_id, h5]; exact (zipIdx_snd_nodup rs 0).sublist (List.filter_sublist.map _)
  have mem : ∀ q : Rxn → Bool, i ∈ (rs.zipIdx.filter (fun p => q p.1)).map (·.2) ↔ q r = true := by
    intro q
    rw [List.mem_map]
    constructor
    · rintro ⟨⟨r', j⟩, hp, rfl⟩
      rw [List.mem_filter, mem_zipIdx0] at hp
      rw [hr] at hp
      have := hp.1; simp only [Option.some.injEq] at this; subst this
      exact hp.2
    · intro h
      exact ⟨(r, i), List.mem_filter.2 ⟨(mem_zipIdx0 _ _ _).2 hr, h⟩, rfl⟩
  have m1 : i ∈ K.revindex ↔ r.reversible = true := by rw [h4]; exact mem (·.reversible)
  have m2 : i ∈ K.irrev ↔ (!r.reversible) = true := by rw [h5]; exact mem (fun r => !r.reversible)
  simp only [Kin.applyEqDdT]
  cases hrev : r.reversible with
  | true =>
    have hni : i ∉ K.irrev.map id := by rw [List.map_id, m2]; simp [hrev]
    have a := (foldl_update id (fun _ => 0) K.irrev n2 (K.revindex.foldl (fun v i =>
      mulAt v i ((dg1 i - dg0 i) * (1 / RT * (1 / T) / δ) +
        (K.dn i * (1 / T) - dg0 i * (1 / RT * (1 / T))))) v)).2 i hni
    simp only [id_eq] at a
    rw [a]
    have b := mulAt_foldl_gen id (fun i => (dg1 i - dg0 i) * (1 / RT * (1 / T) / δ) +
      (K.dn i * (1 / T) - dg0 i * (1 / RT * (1 / T)))) K.revindex n1 v i (m1.2 hrev)
    simp only [id_eq] at b
    rw [b, hdn]; simp
  | false =>
    have a := (foldl_update id (fun _ => 0) K.irrev n2 (K.revindex.foldl (fun v i =>
      mulAt v i ((dg1 i - dg0 i) * (1 / RT * (1 / T) / δ) +
        (K.dn i * (1 / T) - dg0 i * (1 / RT * (1 / T))))) v)).1 i (m2.2 (by simp [hrev]))
    simp only [id_eq] at a
    rw [a]; simp

include hv hK in
/-- With Gibbs energies of reaction of the current state the equilibrium factor tends to the
derivative of `ln(1/Kc)`. -/
theorem eqFac_limit (T P : ℝ) (hT : 0 < T) (hgR : 0 < g.R) (c : ℕ → ℝ) (i : ℕ)
    (r : Rxn) (hr : rs[i]? = some r) (hrev : r.reversible = true) (g' : ℕ → ℝ)
    (hg : ∀ k, HasDerivAt (g.g k) (g' k) T) (w : ℝ) :
    Tendsto (fun δ => w * ((K.getRevReactionDelta (g.env rs (T * (1 + δ)) P c).mu0 i -
        K.getRevReactionDelta (g.env rs T P c).mu0 i) * (1 / (g.R * T) * (1 / T) / δ) +
      (r.deltaN * (1 / T) - K.getRevReactionDelta (g.env rs T P c).mu0 i * (1 / (g.R * T) * (1 / T)))))
      (𝓝[≠] 0) (𝓝 (w * (r.delta g' / (g.R * T) - r.delta (fun k => g.g k T) / (g.R * T * T) +
      r.deltaN / T))) := by
  have h1 := delta_hasDerivAt r g.g g' T hg
  have hi : HasDerivAt (fun δ : ℝ => T * (1 + δ)) T 0 := by
    simpa using ((hasDerivAt_id' (0 : ℝ)).const_add 1).const_mul T
  have h2 : HasDerivAt (fun δ : ℝ => r.delta (fun k => g.g k (T * (1 + δ)))) (r.delta g' * T) 0 := by
    have : HasDerivAt (fun t => r.delta (fun k => g.g k t)) (r.delta g') (T * (1 + 0)) := by
      simpa using h1
    exact this.comp 0 hi
  have hs := hasDerivAt_iff_tendsto_slope_zero.1 h2
  simp only [zero_add, add_zero, mul_one, smul_eq_mul] at hs
  set L := Real.log (P / g.P0)
  have hlim := ((((hs.add_const (L * (g.R * T) * r.deltaN)).mul_const (1 / (g.R * T) * (1 / T))).add_const
    (r.deltaN * (1 / T) - (r.delta (fun k => g.g k T) + L * (g.R * T) * r.deltaN) *
      (1 / (g.R * T) * (1 / T)))).const_mul w)
  have hne : g.R ≠ 0 := hgR.ne'
  have e : w * ((r.delta g' * T + L * (g.R * T) * r.deltaN) * (1 / (g.R * T) * (1 / T)) +
      (r.deltaN * (1 / T) - (r.delta (fun k => g.g k T) + L * (g.R * T) * r.deltaN) *
      (1 / (g.R * T) * (1 / T)))) = w * (r.delta g' / (g.R * T) -
      r.delta (fun k => g.g k T) / (g.R * T * T) + r.deltaN / T) := by
    field_simp; ring
  rw [e] at hlim
  refine hlim.congr' ?_
  filter_upwards [self_mem_nhdsWithin] with δ hδ
  have hδ' : δ ≠ 0 := hδ
  rw [dg_value hv hK g _ P c i r hr hrev, dg_value hv hK g T P c i r hr hrev]
  field_simp
  ring

include hv hK hTB in
/-- Reverse rates: the result tends to the temperature derivative of the reverse rate at constant pressure
and concentrations.  The stored Gibbs energies of reaction must belong to the current state (see
`rev_ddT_stale_diverges`) and the cap on the equilibrium constant must not be
active; numerical evaluators need a multiplier 0 or 1. -/
theorem rev_ddT_limit_partial (evs : List (ℕ × DT)) (hn : (evs.map (·.1)).Nodup) (T P : ℝ) (hT : 0 < T)
    (hP : 0 < P) (hP0 : 0 < g.P0) (hgR : 0 < g.R) (c : ℕ → ℝ) (Rf : ℝ → Rop)
    (hRf : ∀ t, K.updateROP (g.env rs t P c) oldR oldC = .ok (Rf t))
    (i : ℕ) (r : Rxn) (hr : rs[i]? = some r) (ev : DT) (he : (i, ev) ∈ evs) (f' : ℝ)
    (hf : HasDerivAt (fun t => g.law i t P (g.M rs i c)) f' T)
    (hm : ev.Models (fun t => g.law i t P (g.M rs i c)) f' (g.perturb i) T)
    (g' : ℕ → ℝ) (hg : ∀ k, HasDerivAt (g.g k) (g' k) T)
    (hcap : Real.exp (g.lnRkc r T) < bigNumber) :
    ∃ d, HasDerivAt (fun t => (Rf t).ropr i) d T ∧
      Tendsto (fun δ => K.revDdT (Rf T) evs T (g.R * T) δ (K.getRevReactionDelta (g.env rs T P c).mu0)
        (K.getRevReactionDelta (g.env rs (T * (1 + δ)) P c).mu0) i) (𝓝[≠] 0) (𝓝 d) := by
  have hval := fun t => trop_value hv hK g hTB t P c (Rf t) (hRf t) i r hr
  have hrk := fun t ht => rkcn_ideal hv hK g hTB t P ht hP hP0 hgR c (Rf t) (hRf t) i r hr
  have hnear : ∀ᶠ t in 𝓝 T, 0 < t := eventually_gt_nhds hT
  by_cases hrev : r.reversible = true
  · have hl := lnRkc_hasDerivAt g r T hT hgR g' hg
    have hlt : ∀ᶠ t in 𝓝 T, Real.exp (g.lnRkc r t) < bigNumber :=
      hl.exp.continuousAt.eventually_lt continuousAt_const hcap
    have hkT : (Rf T).rkcn i = Real.exp (g.lnRkc r T) := by
      rw [hrk T hT, if_pos hrev, min_eq_left hcap.le]
    set D := r.delta g' / (g.R * T) - r.delta (fun k => g.g k T) / (g.R * T * T) + r.deltaN / T
    refine ⟨f' * g.perturb i * (r.mFactor g.nsp c * (Rf T).rkcn i * K.revProd.fac c i) +
      (Rf T).ropr i * D, ?_, ?_⟩
    · have h := ((hf.mul_const (g.perturb i)).mul (hl.exp.mul_const
        (r.mFactor g.nsp c * K.revProd.fac c i)))
      have h2 : (fun t => (Rf t).ropr i) =ᶠ[𝓝 T] fun t => g.law i t P (g.M rs i c) * g.perturb i *
          (Real.exp (g.lnRkc r t) * (r.mFactor g.nsp c * K.revProd.fac c i)) := by
        filter_upwards [hnear, hlt] with t ht hc
        rw [(hval t).2.2.1, hrk t ht, if_pos hrev, min_eq_left hc.le]; ring
      refine (h.congr_of_eventuallyEq h2).congr_deriv ?_
      rw [(hval T).2.2.1, hkT]
      ring
    · have a := dtFac_limit ev _ f' (g.perturb i) T
        (r.mFactor g.nsp c * (Rf T).rkcn i * K.revProd.fac c i) hT hf hm
      have b := eqFac_limit hv hK g T P hT hgR c i r hr hrev g' hg ((Rf T).ropr i)
      refine (a.add b).congr ?_
      intro δ
      rw [Kin.revDdT, processDdT_at evs hn _ T δ _ i _ he, applyEqDdT_at hv hK _ _ _ _ _ _ i r hr,
        if_pos hrev]
      rw [(hval T).1]
      congr 2
      exact (hval T).2.2.1.symm
  · refine ⟨0, ?_, ?_⟩
    · have h2 : (fun t => (Rf t).ropr i) =ᶠ[𝓝 T] fun _ => 0 := by
        filter_upwards [hnear] with t ht
        rw [(hval t).2.2.1, hrk t ht, if_neg hrev]; ring
      exact (hasDerivAt_const T (0 : ℝ)).congr_of_eventuallyEq h2
    · have h0 : (Rf T).ropr i = 0 := by
        rw [(hval T).2.2.1, hrk T hT, if_neg hrev]; ring
      refine tendsto_const_nhds.congr fun δ => ?_
      rw [Kin.revDdT, processDdT_at evs hn _ T δ _ i _ he, applyEqDdT_at hv hK _ _ _ _ _ _ i r hr,
        if_neg hrev, h0]; ring

include hv hK hTB in
/-- Net = forward - reverse, for every step. -/
theorem net_ddT_eq (evs : List (ℕ × DT)) (hn : (evs.map (·.1)).Nodup) (T P RT δ : ℝ) (c : ℕ → ℝ) (R : Rop)
    (hR : K.updateROP (g.env rs T P c) oldR oldC = .ok R) (dg0 dg1 : Vec)
    (i : ℕ) (r : Rxn) (hr : rs[i]? = some r) (ev : DT) (he : (i, ev) ∈ evs) :
    K.netDdT R evs T RT δ dg0 dg1 i =
      Kin.fwdDdT R evs T δ i - K.revDdT R evs T RT δ dg0 dg1 i := by
  have h := (trop_value hv hK g hTB T P c R hR i r hr).2.2.2
  rw [Kin.netDdT, Kin.fwdDdT, Kin.revDdT]
  rw [processDdT_at evs hn _ T δ _ i _ he, processDdT_at evs hn _ T δ _ i _ he,
    processDdT_at evs hn _ T δ _ i _ he, h]
  ring

include hv hK in
/-- Irreversible reactions: the reverse derivative gets no contribution of the equilibrium constant. -/
theorem irrev_eq_ddT (T RT δ : ℝ) (dg0 dg1 v : Vec) (i : ℕ) (r : Rxn) (hr : rs[i]? = some r)
    (hrev : r.reversible = false) : K.applyEqDdT T RT δ dg0 dg1 v i = 0 := by
  rw [applyEqDdT_at hv hK _ _ _ _ _ _ i r hr, hrev]; rfl

/-! ### Stored Gibbs energies -/

include hv hK in
/-- The stored reciprocal equilibrium constants stay right when only pressure changes with temperature
and density unchanged (that is, when the composition changes). -/
theorem cached_rkcn_ok (T rho P1 P2 : ℝ) (hT : 0 < T) (hP1 : 0 < P1) (hP2 : 0 < P2) (hgR : 0 < g.R)
    (hP0 : 0 < g.P0) (c1 c2 : ℕ → ℝ) (s s' : EqCache) (hs : s.state ≠ some (T, rho))
    (hs' : s'.state ≠ some (T, rho)) (i : ℕ) (hi : i < rs.length) :
    (K.updateEq (g.env rs T P2 c2) T rho (K.updateEq (g.env rs T P1 c1) T rho s)).rkcn i =
      (K.updateEq (g.env rs T P2 c2) T rho s').rkcn i := by
  obtain ⟨r, hr⟩ : ∃ r, rs[i]? = some r := ⟨_, List.getElem?_eq_getElem hi⟩
  have e1 : K.updateEq (g.env rs T P1 c1) T rho s = ⟨some (T, rho),
      K.getRevReactionDelta (g.env rs T P1 c1).mu0, K.rkcn (g.env rs T P1 c1) s.rkcn⟩ := by
    rw [Kin.updateEq, if_pos hs]
  have e2 : K.updateEq (g.env rs T P2 c2) T rho (K.updateEq (g.env rs T P1 c1) T rho s) =
      K.updateEq (g.env rs T P1 c1) T rho s := by
    rw [e1, Kin.updateEq, if_neg (by simp)]
  rw [e2, e1, Kin.updateEq, if_pos hs']
  have val : ∀ (P : ℝ) (c old : ℕ → ℝ), 0 < P → K.rkcn (g.env rs T P c) old i =
      if r.reversible then min (Real.exp (g.lnRkc r T)) bigNumber else 0 := by
    intro P c old hP
    have hdn := dn_value hv hK i r hr
    have hdg := dg_value hv hK g T P c i r hr
    obtain ⟨K', hK', hn, h1, h2, h3, h4, h5, h6, h7, h8⟩ := kin_addAll rs hv Kin.empty
    rw [Built] at hK; rw [hK] at hK'; cases hK'
    simp only [Kin.empty, List.nil_append] at h4 h5
    rw [rkcn_value K rs h4 h5 _ _ i r hr]
    by_cases hrev : r.reversible = true
    · rw [if_pos hrev, if_pos hrev, hdg hrev, hdn]
      congr 2
      simp only [TGas.env, TGas.lnRkc]
      rw [Real.log_div hP.ne' hP0.ne', Real.log_div hP.ne' (mul_pos hgR hT).ne']
      have := (mul_pos hgR hT).ne'
      field_simp
      ring
    · rw [if_neg hrev, if_neg hrev]
  simp only
  rw [val P1 c1 _ hP1, val P2 c2 _ hP2]

/-- The stored Gibbs energies of reaction are those of the first state. -/
theorem cached_dg_stale (T rho P1 P2 : ℝ) (c1 c2 : ℕ → ℝ) (s : EqCache) (hs : s.state ≠ some (T, rho)) :
    (K.updateEq (g.env rs T P2 c2) T rho (K.updateEq (g.env rs T P1 c1) T rho s)).dg0 =
      K.getRevReactionDelta (g.env rs T P1 c1).mu0 := by
  have e1 : K.updateEq (g.env rs T P1 c1) T rho s = ⟨some (T, rho),
      K.getRevReactionDelta (g.env rs T P1 c1).mu0, K.rkcn (g.env rs T P1 c1) s.rkcn⟩ := by
    rw [Kin.updateEq, if_pos hs]
  rw [e1, Kin.updateEq, if_neg (by simp)]

include hv hK hTB in
/-- Changing the composition at fixed temperature and density leaves the stored Gibbs energies of reaction
at the old pressure.  For a reversible reaction that changes the number of moles the
difference quotient then compares two different pressures: the reverse temperature derivative
grows without bound as the step tends to zero. -/
theorem rev_ddT_stale_diverges (evs : List (ℕ × DT)) (hn : (evs.map (·.1)).Nodup) (T rho P1 P : ℝ)
    (hT : 0 < T) (hP1 : 0 < P1) (hP : 0 < P) (hne : P1 ≠ P) (hP0 : 0 < g.P0) (hgR : 0 < g.R)
    (c1 c : ℕ → ℝ) (R : Rop) (hR : K.updateROP (g.env rs T P c) oldR oldC = .ok R)
    (s : EqCache) (hs : s.state ≠ some (T, rho))
    (i : ℕ) (r : Rxn) (hr : rs[i]? = some r) (hrev : r.reversible = true) (hdn : r.deltaN ≠ 0)
    (hrop : R.ropr i ≠ 0) (ev : DT) (he : (i, ev) ∈ evs) (f' : ℝ)
    (hf : HasDerivAt (fun t => g.law i t P (g.M rs i c)) f' T)
    (hm : ev.Models (fun t => g.law i t P (g.M rs i c)) f' (g.perturb i) T)
    (g' : ℕ → ℝ) (hg : ∀ k, HasDerivAt (g.g k) (g' k) T) :
    Tendsto (fun δ => |K.revDdT R evs T (g.R * T) δ
      (K.updateEq (g.env rs T P c) T rho (K.updateEq (g.env rs T P1 c1) T rho s)).dg0
      (K.getRevReactionDelta (g.env rs (T * (1 + δ)) P c).mu0) i|) (𝓝[≠] 0) atTop := by
  obtain ⟨v1, -, v3, -⟩ := trop_value hv hK g hTB T P c R hR i r hr
  have a := dtFac_limit ev _ f' (g.perturb i) T
    (r.mFactor g.nsp c * R.rkcn i * K.revProd.fac c i) hT hf hm
  have b := eqFac_limit hv hK g T P hT hgR c i r hr hrev g' hg (R.ropr i)
  have hlog : Real.log (P / g.P0) - Real.log (P1 / g.P0) ≠ 0 := by
    rw [Real.log_div hP.ne' hP0.ne', Real.log_div hP1.ne' hP0.ne']
    intro h
    exact hne (Real.log_injOn_pos (Set.mem_Ioi.2 hP1) (Set.mem_Ioi.2 hP) (by linarith))
  set L := Real.log (P / g.P0) with hL
  set L1 := Real.log (P1 / g.P0) with hL1
  have hq : Tendsto (fun _ : ℝ => R.ropr i * r.deltaN * (L - L1) / T) (𝓝[≠] 0)
      (𝓝 (R.ropr i * r.deltaN * (L - L1) / T)) := tendsto_const_nhds
  have key := quot_diverges _ _ _ _ hq
    (div_ne_zero (mul_ne_zero (mul_ne_zero hrop hdn) hlog) hT.ne')
    ((a.add b).add_const (R.ropr i * (r.deltaN * (L - L1) / T)))
  refine key.congr' ?_
  filter_upwards [self_mem_nhdsWithin] with δ hδ
  have hδ' : δ ≠ 0 := hδ
  congr 1
  rw [cached_dg_stale g T rho P1 P c1 c s hs]
  rw [Kin.revDdT, processDdT_at evs hn _ T δ _ i _ he, applyEqDdT_at hv hK _ _ _ _ _ _ i r hr,
    if_pos hrev, v1, ← v3]
  rw [dg_value hv hK g T P1 c1 i r hr hrev, dg_value hv hK g T P c i r hr hrev]
  rw [← hL, ← hL1]
  have := hgR.ne'
  field_simp
  ring

/-! ### Pressure -/

include hv hK hTB in
/-- Pressure derivatives of the forward, reverse and net rates at constant temperature and
concentrations.  Missing: multipliers other than 0 and 1 for pressure-dependent laws. -/
theorem ddP_limit_partial (evs : List (ℕ × Option (ℝ → ℝ))) (hn : (evs.map (·.1)).Nodup) (T P : ℝ)
    (hT : 0 < T) (hP : 0 < P) (hP0 : 0 < g.P0) (hgR : 0 < g.R) (c : ℕ → ℝ) (Rf : ℝ → Rop)
    (hRf : ∀ p, K.updateROP (g.env rs T p c) oldR oldC = .ok (Rf p))
    (i : ℕ) (r : Rxn) (hr : rs[i]? = some r) (ev : Option (ℝ → ℝ)) (he : (i, ev) ∈ evs) (f' : ℝ)
    (hf : HasDerivAt (fun p => g.law i T p (g.M rs i c)) f' P)
    (hm : PModels ev (fun p => g.law i T p (g.M rs i c)) f' (g.perturb i) P) :
    (∃ d, HasDerivAt (fun p => (Rf p).rfn i) d P ∧
      Tendsto (fun δ => processDdP evs (Rf P).rfn P δ (Rf P).rfn i) (𝓝[≠] 0) (𝓝 d)) ∧
    (∃ d, HasDerivAt (fun p => (Rf p).ropf i) d P ∧
      Tendsto (fun δ => processDdP evs (Rf P).rfn P δ (Rf P).ropf i) (𝓝[≠] 0) (𝓝 d)) ∧
    (∃ d, HasDerivAt (fun p => (Rf p).ropr i) d P ∧
      Tendsto (fun δ => processDdP evs (Rf P).rfn P δ (Rf P).ropr i) (𝓝[≠] 0) (𝓝 d)) ∧
    (∃ d, HasDerivAt (fun p => (Rf p).ropnet i) d P ∧
      Tendsto (fun δ => processDdP evs (Rf P).rfn P δ (Rf P).ropnet i) (𝓝[≠] 0) (𝓝 d)) := by
  have hval := fun p => trop_value hv hK g hTB T p c (Rf p) (hRf p) i r hr
  have hrk := fun p hp => rkcn_ideal hv hK g hTB T p hT hp hP0 hgR c (Rf p) (hRf p) i r hr
  have hnear : ∀ᶠ p in 𝓝 P, 0 < p := eventually_gt_nhds hP
  have lim := fun w => dpFac_limit ev _ f' (g.perturb i) P w hP hf hm
  have hd := hf.mul_const (g.perturb i)
  have step : ∀ (X : Rop → ℕ → ℝ) (w : ℝ),
      (∀ᶠ p in 𝓝 P, X (Rf p) i = g.law i T p (g.M rs i c) * g.perturb i * w) →
      ∃ d, HasDerivAt (fun p => X (Rf p) i) d P ∧
        Tendsto (fun δ => processDdP evs (Rf P).rfn P δ (X (Rf P)) i) (𝓝[≠] 0) (𝓝 d) := by
    intro X w hX
    refine ⟨f' * g.perturb i * w, (hd.mul_const w).congr_of_eventuallyEq hX, ?_⟩
    refine (lim w).congr fun δ => ?_
    rw [processDdP_at evs hn _ P δ _ i _ he, (hval P).1, hX.self_of_nhds]
  have hkconst : ∀ᶠ p in 𝓝 P, (Rf p).rkcn i = (Rf P).rkcn i := by
    filter_upwards [hnear] with p hp
    rw [hrk p hp, hrk P hP]
  refine ⟨step Rop.rfn 1 ?_, step Rop.ropf (r.mFactor g.nsp c * K.reac.fac c i) ?_,
    step Rop.ropr (r.mFactor g.nsp c * (Rf P).rkcn i * K.revProd.fac c i) ?_,
    step Rop.ropnet (r.mFactor g.nsp c * K.reac.fac c i -
      r.mFactor g.nsp c * (Rf P).rkcn i * K.revProd.fac c i) ?_⟩
  · exact Eventually.of_forall fun p => by rw [(hval p).1, mul_one]
  · exact Eventually.of_forall fun p => (hval p).2.1
  · filter_upwards [hkconst] with p hp
    rw [(hval p).2.2.1, hp]
  · filter_upwards [hkconst] with p hp
    rw [(hval p).2.2.2, (hval p).2.2.1, (hval p).2.1, hp]; ring

include hv hK hTB in
/-- The same defect for multipliers as in `ddT_multiplier_diverges`. -/
theorem ddP_multiplier_diverges (evs : List (ℕ × Option (ℝ → ℝ))) (hn : (evs.map (·.1)).Nodup) (T P : ℝ)
    (hP : 0 < P) (c : ℕ → ℝ) (R : Rop) (hR : K.updateROP (g.env rs T P c) oldR oldC = .ok R)
    (i : ℕ) (r : Rxn) (hr : rs[i]? = some r) (f' : ℝ)
    (hf : HasDerivAt (fun p => g.law i T p (g.M rs i c)) f' P)
    (he : (i, some (fun p => g.law i T p (g.M rs i c))) ∈ evs)
    (hp0 : g.perturb i ≠ 0) (hp1 : g.perturb i ≠ 1) (hrop : R.ropf i ≠ 0) :
    Tendsto (fun δ => |processDdP evs R.rfn P δ R.ropf i|) (𝓝[≠] 0) atTop := by
  obtain ⟨h1, h2, -, -⟩ := trop_value hv hK g hTB T P c R hR i r hr
  have h0 : g.law i T P (g.M rs i c) ≠ 0 := by
    intro h; apply hrop; rw [h2, h]; ring
  refine (numeric_diverges _ f' (g.perturb i) P (R.ropf i) hP hf h0 hp0 hp1 hrop).congr ?_
  intro δ
  rw [processDdP_at evs hn _ P δ _ i _ he, h1]
  simp only [dpFac, if_pos (mul_ne_zero h0 hp0)]

end Verif.Kinetics
