import Verif.Stoich.DerivLemmas

/-!
# C01, C02, C05: stoichiometric accumulators, mass action, concentration derivatives

The specification is written on the *declared* data (species, orders, coefficients given to `add`)
with plain finite sums and products.
-/

namespace Verif.Stoich

open Verif

/-! ## Specification -/

/-- Declared stoichiometric coefficient of species `k`. -/
noncomputable def nu (d : Decl) (k : ℕ) : ℝ :=
  ((d.k.zip d.stoich).map (fun x => if x.1 = k then x.2 else 0)).sum

/-- Declared mass-action product. -/
noncomputable def massAction (d : Decl) (c : ℕ → ℝ) : ℝ :=
  ((d.k.zip d.order).map (fun x => c x.1 ^ x.2)).prod

/-- The argument vectors have equal lengths and no coefficient is negative. -/
structure Valid (d : Decl) : Prop where
  order_len : d.order.length = d.k.length
  stoich_len : d.stoich.length = d.k.length
  nonneg : ∀ s ∈ d.stoich, 0 ≤ s

/-- Concentrations for which the declared power products make sense: positive, or zero where
the order is not negative. -/
def ConcOK (d : Decl) (c : ℕ → ℝ) : Prop :=
  ∀ x ∈ d.k.zip d.order, 0 < c x.1 ∨ (c x.1 = 0 ∧ 0 ≤ x.2)

/-! ## Link between the declared data and the model's list of parts -/

theorem parts_map_stoich {β : Type*} (d : Decl) (h1 : d.order.length = d.k.length)
    (h2 : d.stoich.length = d.k.length) (g : ℕ → ℝ → β) :
    d.parts.map (fun p => g p.ic p.stoich) = (d.k.zip d.stoich).map (fun x => g x.1 x.2) := by
  obtain ⟨r, k, o, s⟩ := d
  simp only [Decl.parts] at *
  induction k generalizing o s with
  | nil => simp
  | cons a k ih =>
    cases o with
    | nil => simp at h1
    | cons b o =>
      cases s with
      | nil => simp at h2
      | cons c s => simpa using ih o s (by simpa using h1) (by simpa using h2)

theorem parts_map_order {β : Type*} (d : Decl) (h1 : d.order.length = d.k.length)
    (h2 : d.stoich.length = d.k.length) (g : ℕ → ℝ → β) :
    d.parts.map (fun p => g p.ic p.order) = (d.k.zip d.order).map (fun x => g x.1 x.2) := by
  obtain ⟨r, k, o, s⟩ := d
  simp only [Decl.parts] at *
  induction k generalizing o s with
  | nil => simp
  | cons a k ih =>
    cases o with
    | nil => simp at h1
    | cons b o =>
      cases s with
      | nil => simp at h2
      | cons c s => simpa using ih o s (by simpa using h1) (by simpa using h2)

theorem parts_nonneg (d : Decl) (h : Valid d) : ∀ p ∈ d.parts, 0 ≤ p.stoich := by
  intro p hp
  simp only [Decl.parts, List.mem_map] at hp
  obtain ⟨x, hx, rfl⟩ := hp
  exact h.nonneg _ (List.of_mem_zip (List.of_mem_zip hx).2).2

theorem parts_adm (d : Decl) (h : Valid d) (c : ℕ → ℝ) (hc : ConcOK d c) : Adm d.parts c := by
  intro p hp
  have h1 := parts_map_order d h.order_len h.stoich_len (fun i o => (i, o))
  have h2 : (p.ic, p.order) ∈ d.parts.map (fun p => (p.ic, p.order)) := List.mem_map.2 ⟨p, hp, rfl⟩
  rw [h1] at h2
  simp only [Prod.mk.eta, List.map_id'] at h2
  exact hc _ h2

theorem lin_species (d : Decl) (h : Valid d) (x : ℝ) (k : ℕ) :
    d.lin (fun k => Pi.single k x) k = nu d k * x := by
  have h1 := parts_map_stoich d h.order_len h.stoich_len
    (fun i s => (s • (Pi.single i x : Vec)))
  simp only [Decl.lin, h1, nu]
  generalize d.k.zip d.stoich = l
  induction l with
  | nil => simp
  | cons a l ih =>
    simp only [List.map_cons, List.sum_cons, Pi.add_apply, ih, add_mul]
    congr 1
    by_cases e : a.1 = k
    · subst e; simp
    · simp [e]

theorem lin_reaction (d : Decl) (h : Valid d) (G : ℕ → ℝ) (i : ℕ) :
    d.lin (fun k => Pi.single d.rxn (G k)) i =
      if d.rxn = i then ((d.k.zip d.stoich).map (fun x => x.2 * G x.1)).sum else 0 := by
  have h1 := parts_map_stoich d h.order_len h.stoich_len
    (fun k s => (s • (Pi.single d.rxn (G k) : Vec)))
  simp only [Decl.lin, h1]
  generalize d.k.zip d.stoich = l
  induction l with
  | nil => simp
  | cons a l ih =>
    simp only [List.map_cons, List.sum_cons, Pi.add_apply, ih]
    by_cases e : d.rxn = i
    · simp [e]
    · simp [e]

theorem sum_apply (l : List Vec) (k : ℕ) : l.sum k = (l.map (fun v => v k)).sum := by
  induction l with
  | nil => simp
  | cons a l ih => simp [ih]

/-! ## C01 -/

/-- `add` rejects exactly the calls whose vectors differ in length. -/
theorem stoich_add_throws_iff (m : Mgr) (d : Decl) :
    m.add d = .throw ↔ ¬ (d.order.length = d.k.length ∧ d.stoich.length = d.k.length) := by
  constructor
  · intro h hv
    obtain ⟨m', hm⟩ := add_isOk m d hv.1 hv.2
    rw [hm] at h; simp at h
  · intro h
    simp only [Mgr.add]
    by_cases h1 : d.order.length = d.k.length
    · have h2 : ¬ d.stoich.length = d.k.length := fun h2 => h ⟨h1, h2⟩
      simp [h1, h2]
    · simp [h1]

/-- For every list of declared reactions the manager accepts them all and its four accumulators
compute `S ± N R` and `R ± Nᵀ G` with the declared coefficient matrix `N`. -/
theorem stoich_accumulators (ds : List Decl) (hv : ∀ d ∈ ds, Valid d) :
    ∃ m, Mgr.empty.addAll ds = .ok m ∧
      (∀ (R S : ℕ → ℝ) (k : ℕ), m.incrementSpecies R S k =
          S k + (ds.map (fun d => nu d k * R d.rxn)).sum) ∧
      (∀ (R S : ℕ → ℝ) (k : ℕ), m.decrementSpecies R S k =
          S k - (ds.map (fun d => nu d k * R d.rxn)).sum) ∧
      (∀ (G R : ℕ → ℝ) (i : ℕ), m.incrementReactions G R i =
          R i + ((ds.filter (fun d => d.rxn = i)).map
            (fun d => ((d.k.zip d.stoich).map (fun x => x.2 * G x.1)).sum)).sum) ∧
      (∀ (G R : ℕ → ℝ) (i : ℕ), m.decrementReactions G R i =
          R i - ((ds.filter (fun d => d.rxn = i)).map
            (fun d => ((d.k.zip d.stoich).map (fun x => x.2 * G x.1)).sum)).sum) := by
  obtain ⟨m, hm⟩ := addAll_isOk ds Mgr.empty (fun d hd => ⟨(hv d hd).order_len, (hv d hd).stoich_len⟩)
  have h0 : ∀ d ∈ ds, ∀ p ∈ d.parts, 0 ≤ p.stoich := fun d hd => parts_nonneg d (hv d hd)
  have hlin := fun f => addAll_lin ds Mgr.empty m hm h0 f
  simp only [empty_lin, zero_add] at hlin
  have hsp : ∀ (R : ℕ → ℝ) (k : ℕ), m.lin (fun r k => Pi.single k (R r)) k =
      (ds.map (fun d => nu d k * R d.rxn)).sum := by
    intro R k
    rw [hlin, sum_apply, List.map_map]
    congr 1
    apply List.map_congr_left
    intro d hd
    exact lin_species d (hv d hd) (R d.rxn) k
  have hrx : ∀ (G : ℕ → ℝ) (i : ℕ), m.lin (fun r k => Pi.single r (G k)) i =
      ((ds.filter (fun d => d.rxn = i)).map
            (fun d => ((d.k.zip d.stoich).map (fun x => x.2 * G x.1)).sum)).sum := by
    intro G i
    rw [hlin, sum_apply, List.map_map]
    clear hlin hsp hm
    induction ds with
    | nil => simp
    | cons d ds ih =>
      have hd := lin_reaction d (hv d (by simp)) G i
      rw [List.map_cons, List.sum_cons, ih (fun d' hd' => hv d' (by simp [hd']))
        (fun d' hd' => h0 d' (by simp [hd']))]
      simp only [Function.comp_apply, hd]
      by_cases e : d.rxn = i
      · rw [List.filter_cons_of_pos (by simpa using e)]; simp [e]
      · rw [List.filter_cons_of_neg (by simpa using e)]; simp [e]
  refine ⟨m, hm, ?_, ?_, ?_, ?_⟩
  · intro R S k; rw [Mgr.inc_eq, Pi.add_apply, hsp]
  · intro R S k
    rw [Mgr.dec_eq, Pi.add_apply, hsp (fun r => -R r)]
    have : (fun d : Decl => nu d k * -R d.rxn) = fun d => (-1) * (nu d k * R d.rxn) := by
      funext d; ring
    rw [this, List.sum_map_mul_left]; ring
  · intro G R i; rw [Mgr.incR_eq, Pi.add_apply, hrx]
  · intro G R i
    rw [Mgr.decR_eq, Pi.add_apply, hrx (fun k => -G k)]
    have h1 : (fun d : Decl => ((d.k.zip d.stoich).map (fun x => x.2 * -G x.1)).sum) =
        fun d => (-1) * ((d.k.zip d.stoich).map (fun x => x.2 * G x.1)).sum := by
      funext d
      rw [← List.sum_map_mul_left]
      congr 1; apply List.map_congr_left; intro x _; ring
    rw [h1, List.sum_map_mul_left]; ring

/-- 2 H2 + O2 and a fractional and a four-body reaction satisfy the hypothesis. -/
example : ∀ d ∈ [(⟨0, [3, 1], [2, 1], [2, 1]⟩ : Decl), ⟨1, [0, 2], [1, 1/2], [1/2, 1/2]⟩,
    ⟨2, [0, 1, 2, 3], [1, 1, 1, 1], [1, 1, 1, 1]⟩], Valid d := by
  intro d hd
  simp only [List.mem_cons, List.not_mem_nil, or_false] at hd
  rcases hd with rfl | rfl | rfl <;> exact ⟨rfl, rfl, by intro s hs; simp at hs; rcases hs with rfl | rfl <;> norm_num⟩

/-- The reported coefficient matrix is the declared one. -/
theorem stoich_matrix (ds : List Decl) (hv : ∀ d ∈ ds, Valid d) (m : Mgr)
    (hm : Mgr.empty.addAll ds = .ok m) (k i : ℕ) :
    m.stoichCoeff k i = ((ds.filter (fun d => d.rxn = i)).map (fun d => nu d k)).sum := by
  have gen : ∀ (ds : List Decl) (m0 m : Mgr), (∀ d ∈ ds, Valid d) → m0.addAll ds = .ok m →
      m.stoichCoeff k i = m0.stoichCoeff k i +
        ((ds.filter (fun d => d.rxn = i)).map (fun d => nu d k)).sum := by
    intro ds
    induction ds with
    | nil => intro m0 m _ h; simp only [Mgr.addAll, Outcome.ok.injEq] at h; subst h; simp
    | cons d ds ih =>
      intro m0 m hv h
      simp only [Mgr.addAll] at h
      cases hd : m0.add d with
      | ok m1 =>
        rw [hd, Outcome.bind_ok] at h
        rw [ih m1 m (fun d' hd' => hv d' (by simp [hd'])) h]
        obtain ⟨_, _, hcoef, _⟩ := add_cases m0 m1 d hd
        have hvd := hv d (by simp)
        have h1 := parts_map_stoich d hvd.order_len hvd.stoich_len
          (fun j s => if j = k ∧ d.rxn = i then s else 0)
        have hone : m1.stoichCoeff k i = m0.stoichCoeff k i + if d.rxn = i then nu d k else 0 := by
          simp only [Mgr.stoichCoeff, hcoef, List.map_append, List.sum_append, List.map_map]
          congr 1
          simp only [Function.comp_def]
          rw [h1]
          by_cases e : d.rxn = i
          · simp [e, nu]
          · simp [e]
        rw [hone]
        by_cases e : d.rxn = i
        · rw [List.filter_cons_of_pos (by simpa using e)]; simp [e, add_assoc]
        · rw [List.filter_cons_of_neg (by simpa using e)]; simp [e]
      | throw => rw [hd] at h; simp at h
      | ub => rw [hd] at h; simp at h
  have := gen ds Mgr.empty m hv hm
  rw [this]; simp [Mgr.stoichCoeff, Mgr.empty]

/-- Finding: a negative integer coefficient (accepted by `add`) is silently dropped when it is
mixed with positive ones: declaring coefficients `-1` for species 0 and `1` for species 1, the
increment does not touch species 0, although the matrix reports `-1`. -/
theorem stoich_negative_coefficient_dropped :
    ∃ (d : Decl) (m : Mgr), Mgr.empty.add d = .ok m ∧ nu d 0 = -1 ∧ m.stoichCoeff 0 0 = -1 ∧
      ∀ R S, m.incrementSpecies R S 0 = S 0 := by
  refine ⟨⟨0, [0, 1], [-1, 1], [-1, 1]⟩, ⟨[⟨0, 1⟩], [], [], [], [(0, 0, -1), (1, 0, 1)]⟩, ?_, ?_, ?_, ?_⟩
  · have h1 : Int.fract (-1 : ℝ) = 0 := by simp
    have h2 : Int.fract (1 : ℝ) = 0 := Int.fract_one
    have hceil : ⌈(-1 : ℝ)⌉₊ = 0 := Nat.ceil_eq_zero.2 (by norm_num)
    simp [Mgr.add, Mgr.empty, Decl.parts, Part.frac, h1, h2, kRep]
    rw [hceil]; rfl
  · simp [nu]
  · simp [Mgr.stoichCoeff]
  · intro R S; simp [Mgr.incrementSpecies, C1.incrementSpecies, addAt]

/-! ## C02 -/

/-- For every list of declared reactions and all admissible concentrations the rate of slot `i` is
multiplied by the declared mass-action product of the reactions of that slot, whichever handler
they were given to. -/
theorem stoich_mass_action (ds : List Decl) (hv : ∀ d ∈ ds, Valid d) (m : Mgr)
    (hm : Mgr.empty.addAll ds = .ok m) (c R : ℕ → ℝ) (i : ℕ)
    (hc : ∀ d ∈ ds, d.rxn = i → ConcOK d c) :
    m.multiply c R i = R i * ((ds.filter (fun d => d.rxn = i)).map (fun d => massAction d c)).prod := by
  rw [Mgr.mul_eq, Pi.mul_apply, addAll_fac ds _ m hm, empty_fac, one_mul, prod_mulSingle_apply]
  congr 2
  apply List.map_congr_left
  intro d hd
  rw [List.mem_filter] at hd
  have hdi : d.rxn = i := by simpa using hd.2
  rw [decl_fac_eq d c (parts_nonneg d (hv d hd.1)) (parts_adm d (hv d hd.1) c (hc d hd.1 hdi)),
    massAction, ← parts_map_order d (hv d hd.1).order_len (hv d hd.1).stoich_len (fun i o => c i ^ o)]

example : ConcOK ⟨0, [3, 1], [2, -1/2], [2, 1]⟩ (fun k => if k = 3 then 0 else 4) := by
  intro x hx; simp at hx; rcases hx with rfl | rfl <;> norm_num

/-- A negative concentration of a participant with non-zero order never produces a positive rate:
the factor is non-positive (for one reaction per slot). -/
theorem stoich_negative_concentration (ds : List Decl) (hv : ∀ d ∈ ds, Valid d) (m : Mgr)
    (hm : Mgr.empty.addAll ds = .ok m) (hnd : (ds.map (·.rxn)).Nodup) (c R : ℕ → ℝ) (d : Decl)
    (hd : d ∈ ds) (hR : 0 ≤ R d.rxn) (x : ℕ × ℝ) (hx : x ∈ d.k.zip d.order) (ho : x.2 ≠ 0)
    (hneg : c x.1 < 0) : m.multiply c R d.rxn ≤ 0 := by
  rw [Mgr.mul_eq, Pi.mul_apply, addAll_fac ds _ m hm, empty_fac, one_mul, prod_mulSingle_apply]
  have hfil : ds.filter (fun d' => d'.rxn = d.rxn) = [d] := by
    clear hm hv
    induction ds with
    | nil => simp at hd
    | cons e ds ih =>
      rw [List.map_cons, List.nodup_cons] at hnd
      rcases List.mem_cons.1 hd with rfl | hd'
      · rw [List.filter_cons_of_pos (by simp)]
        have : ds.filter (fun d' => d'.rxn = d.rxn) = [] := by
          rw [List.filter_eq_nil_iff]
          intro e he hee
          apply hnd.1
          rw [List.mem_map]
          exact ⟨e, he, by simpa using hee⟩
        rw [this]
      · have hne : ¬ e.rxn = d.rxn := fun h => hnd.1 (List.mem_map.2 ⟨d, hd', h.symm⟩)
        rw [List.filter_cons_of_neg (by simpa using hne)]
        exact ih hnd.2 hd'
  rw [hfil]
  simp only [List.map_cons, List.map_nil, List.prod_cons, List.prod_nil, mul_one]
  have hvd := hv d hd
  have h1 := parts_map_order d hvd.order_len hvd.stoich_len (fun i o => (i, o))
  have hx' : x ∈ d.parts.map (fun p => (p.ic, p.order)) := by
    rw [h1]; simpa using hx
  obtain ⟨p, hp, rfl⟩ := List.mem_map.1 hx'
  exact mul_nonpos_of_nonneg_of_nonpos hR
    (decl_fac_nonpos d c (parts_nonneg d hvd) p hp ho hneg)

/-- The hypotheses are met by 2 A with a negative concentration of A (naively `(-3)^2 > 0`). -/
example : ((0 : ℕ), (2 : ℝ)) ∈ ([0] : List ℕ).zip [(2 : ℝ)] ∧ (2 : ℝ) ≠ 0 ∧ (-3 : ℝ) < 0 := by
  norm_num

/-! ## C05 -/

/-- For positive concentrations of its participants, the derivative entry of reaction `d` with
respect to the concentration of species `k` is the partial derivative of the rate computed by
`multiply` (one reaction per slot). -/
theorem stoich_derivatives_partial (ds : List Decl) (hv : ∀ d ∈ ds, Valid d) (m : Mgr)
    (hm : Mgr.empty.addAll ds = .ok m) (hnd : (ds.map (·.rxn)).Nodup) (c R : ℕ → ℝ) (d : Decl)
    (hd : d ∈ ds) (hpos : ∀ k ∈ d.k, 0 < c k) (k : ℕ) :
    HasDerivAt (fun x => m.multiply (Function.update c k x) R d.rxn)
      (m.derivatives c R d.rxn k) (c k) := by
  have hfil : ds.filter (fun d' => d'.rxn = d.rxn) = [d] := by
    clear hm hv
    induction ds with
    | nil => simp at hd
    | cons e ds ih =>
      rw [List.map_cons, List.nodup_cons] at hnd
      rcases List.mem_cons.1 hd with rfl | hd'
      · rw [List.filter_cons_of_pos (by simp)]
        have : ds.filter (fun d' => d'.rxn = d.rxn) = [] := by
          rw [List.filter_eq_nil_iff]
          intro e he hee
          apply hnd.1
          rw [List.mem_map]
          exact ⟨e, he, by simpa using hee⟩
        rw [this]
      · have hne : ¬ e.rxn = d.rxn := fun h => hnd.1 (List.mem_map.2 ⟨d, hd', h.symm⟩)
        rw [List.filter_cons_of_neg (by simpa using hne)]
        exact ih hnd.2 hd'
  have hval : ∀ c' : ℕ → ℝ, m.multiply c' R d.rxn = R d.rxn * d.fac c' := by
    intro c'
    rw [Mgr.mul_eq, Pi.mul_apply, addAll_fac ds _ m hm, empty_fac, one_mul, prod_mulSingle_apply,
      hfil]
    simp
  have hder : m.derivatives c R d.rxn k = d.der c (R d.rxn) k := by
    rw [Mgr.der_eq, addAll_der ds _ m hm, empty_der, zero_add,
      sum_single_apply ds (fun d => d.der c (R d.rxn)) d.rxn, hfil]
    simp
  rw [hder]
  simp only [hval]
  refine decl_hasDerivAt d c (R d.rxn) k (parts_nonneg d (hv d hd)) ?_
  intro p hp
  simp only [Decl.parts, List.mem_map] at hp
  obtain ⟨x, hx, rfl⟩ := hp
  exact hpos _ (List.of_mem_zip hx).1

/-- Four participants and a fractional order, positive concentrations. -/
example : Valid ⟨0, [0, 1, 2, 3], [1, 1/2, 1, 2], [1, 1, 1, 2]⟩ ∧
    ∀ k ∈ [0, 1, 2, 3], (0 : ℝ) < (fun k : ℕ => (k : ℝ) + 1) k := by
  refine ⟨⟨rfl, rfl, ?_⟩, ?_⟩
  · intro s hs; simp at hs; rcases hs with rfl | rfl <;> norm_num
  · intro k _; positivity

/-- Finding (why the theorem above needs positive concentrations): in the general handler the
derivative with respect to a species whose own concentration is zero is reported as zero, although
for order one the rate grows linearly: four reactants, `c₀ = 0`, others one; the true slope is `1`,
the reported entry is `0`. -/
theorem stoich_derivative_wrong_at_zero :
    ∃ (d : Decl) (m : Mgr) (c R : ℕ → ℝ), Valid d ∧ Mgr.empty.add d = .ok m ∧
      m.derivatives c R 0 0 = 0 ∧
      ∀ x > 0, m.multiply (Function.update c 0 x) R 0 = x := by
  refine ⟨⟨0, [0, 1, 2, 3], [1, 1, 1, 1], [1, 1, 1, 1]⟩,
    ⟨[], [], [], [⟨0, [⟨0, 1, 1⟩, ⟨1, 1, 1⟩, ⟨2, 1, 1⟩, ⟨3, 1, 1⟩]⟩],
      [(0, 0, 1), (1, 0, 1), (2, 0, 1), (3, 0, 1)]⟩,
    fun k => if k = 0 then 0 else 1, fun _ => 1, ⟨rfl, rfl, by simp⟩, ?_, ?_, ?_⟩
  · simp [Mgr.add, Mgr.empty, Decl.parts]
  · simp [Mgr.derivatives, CN.derivatives, List.zipIdx, jacAdd]
  · intro x hx
    simp [Mgr.multiply, CN.multiply, mulAt, hx]

end Verif.Stoich
