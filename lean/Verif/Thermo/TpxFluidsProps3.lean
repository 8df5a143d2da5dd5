import Verif.Thermo.TpxFluidsProps

/-!
# Pure fluids: carbon dioxide, heptane and water
-/

namespace Verif.TpxFluids

open Verif Finset

theorem zpow_rt (t : ℝ) (n : ℕ) : t ^ (-(n : ℤ)) = (1 / t) ^ n := by
  rw [zpow_neg, one_div, inv_pow, zpow_natCast]

theorem z1 (t : ℝ) : t ^ (-1 : ℤ) = 1 / t := by simp
theorem z2 (t : ℝ) : t ^ (-2 : ℤ) = (1 / t) ^ 2 := zpow_rt t 2
theorem z3 (t : ℝ) : t ^ (-3 : ℤ) = (1 / t) ^ 3 := zpow_rt t 3
theorem z4 (t : ℝ) : t ^ (-4 : ℤ) = (1 / t) ^ 4 := zpow_rt t 4
theorem z5 (t : ℝ) : t ^ (-5 : ℤ) = (1 / t) ^ 5 := zpow_rt t 5

theorem hasDerivAt_rtpow {T : ℝ} (hT : T ≠ 0) (k : ℕ) :
    HasDerivAt (fun t : ℝ => (1 / t) ^ (k + 1)) (-((k + 1 : ℕ) : ℝ) * (1 / T) ^ (k + 2)) T := by
  refine ((hasDerivAt_rt hT).pow (k + 1)).congr_deriv ?_
  rw [Nat.add_sub_cancel]
  ring

/-- Ideal gas parts of carbon dioxide, heptane and water. -/
theorem pU_deriv (G : ℕ → ℝ) {To : ℝ} (u0 s0 : ℝ) {T : ℝ} (hTo : 0 < To) (hT : 0 < T) :
    ∃ c, HasDerivAt (pU G To u0) c T ∧ HasDerivAt (pS G To s0) (c / T) T := by
  have hT' := hT.ne'
  have hTo' := hTo.ne'
  have d := hasDerivAt_id' T
  have l := (d.div_const To).log (by positivity)
  have r := hasDerivAt_rt hT'
  have p : ∀ k : ℕ, HasDerivAt (fun t : ℝ => t ^ k) (k * T ^ (k - 1)) T := fun k => hasDerivAt_pow k T
  refine ⟨G 0 / T + G 1 + G 2 * T + G 3 * T ^ 2 + G 4 * T ^ 3 + G 5 * T ^ 4, ?_, ?_⟩
  · have h := ((l.const_mul (G 0)).add (HasDerivAt.fun_sum (u := Icc 1 5) fun i _ =>
      (((p i).sub_const (To ^ i)).const_mul (G i)).div_const (i : ℝ))).add_const u0
    refine h.congr_deriv ?_
    rw [show Icc 1 5 = ({1, 2, 3, 4, 5} : Finset ℕ) from rfl]
    simp
    field_simp
    ring
  · have h := (((HasDerivAt.fun_sum (u := Icc 2 5) fun i _ =>
      (((p (i - 1)).sub_const (To ^ (i - 1))).const_mul (G i)).div_const ((i - 1 : ℕ) : ℝ)).add
      (l.const_mul (G 1))).sub ((r.sub_const (1 / To)).const_mul (G 0))).add_const s0
    refine h.congr_deriv ?_
    rw [show Icc 2 5 = ({2, 3, 4, 5} : Finset ℕ) from rfl]
    simp
    field_simp
    ring

/-! ## Carbon dioxide -/

theorem co2C_deriv (A : ℕ → ℝ) {T : ℝ} (hT : 0 < T) (i : ℕ) :
    HasDerivAt (fun t => co2C A t (1 / t) (t ^ (-2 : ℤ)) (t ^ (-3 : ℤ)) (t ^ (-4 : ℤ)) i)
      (co2Cprime A T (T ^ (-2 : ℤ)) (T ^ (-3 : ℤ)) (T ^ (-4 : ℤ)) i) T := by
  have hT' := hT.ne'
  have d := hasDerivAt_id' T
  have r := hasDerivAt_rt hT'
  have r2 := hasDerivAt_rtpow hT' 1
  have r3 := hasDerivAt_rtpow hT' 2
  have r4 := hasDerivAt_rtpow hT' 3
  simp only [z2, z3, z4]
  match i with
  | 0 =>
    refine (((((d.const_mul (A 0)).add_const (A 1)).add (r.const_mul (A 2))).add (r2.const_mul (A 3))).add
      (r3.const_mul (A 4))).congr_deriv ?_
    simp only [co2Cprime]; push_cast; ring
  | 1 =>
    refine (((d.const_mul (A 5)).add_const (A 6)).add (r.const_mul (A 7))).congr_deriv ?_
    simp only [co2Cprime]; ring
  | 2 =>
    refine ((d.const_mul (A 8)).add_const (A 9)).congr_deriv ?_
    simp only [co2Cprime]; ring
  | 3 =>
    refine ((d.const_mul (A 10)).add_const (A 11)).congr_deriv ?_
    simp only [co2Cprime]; ring
  | 4 => exact hasDerivAt_const _ _
  | 5 =>
    refine (((r2.const_mul (A 13)).add (r3.const_mul (A 14))).add (r4.const_mul (A 15))).congr_deriv ?_
    simp only [co2Cprime, z5]; push_cast; ring
  | 6 =>
    refine (((r2.const_mul (A 16)).add (r3.const_mul (A 17))).add (r4.const_mul (A 18))).congr_deriv ?_
    simp only [co2Cprime, z5]; push_cast; ring
  | n + 7 => exact hasDerivAt_const _ _

theorem co2Cprime_diff (A : ℕ → ℝ) {T : ℝ} (hT : 0 < T) (i : ℕ) :
    DifferentiableAt ℝ (fun t => co2Cprime A t (t ^ (-2 : ℤ)) (t ^ (-3 : ℤ)) (t ^ (-4 : ℤ)) i) T := by
  have h0 := hT.ne'
  match i with
  | 0 => simp only [co2Cprime, z2, z3, z4]; fun_prop (disch := assumption)
  | 1 => simp only [co2Cprime, z2]; fun_prop (disch := assumption)
  | 2 => simp only [co2Cprime]; fun_prop
  | 3 => simp only [co2Cprime]; fun_prop
  | 4 => simp only [co2Cprime]; fun_prop
  | 5 => simp only [co2Cprime, z3, z4, z5]; fun_prop (disch := assumption)
  | 6 => simp only [co2Cprime, z3, z4, z5]; fun_prop (disch := assumption)
  | n + 7 => simp only [co2Cprime]; fun_prop

theorem co2I_deriv {Γ : ℝ} (hΓ : Γ ≠ 0) {ρ : ℝ} (hρ : 0 < ρ) (i : ℕ) :
    HasDerivAt (fun r => co2I Γ r (Real.exp (-Γ * r * r)) i) (co2H ρ (Real.exp (-Γ * ρ * ρ)) i / ρ ^ 2) ρ := by
  have hρ' := hρ.ne'
  have d := hasDerivAt_id' ρ
  have e := hasDerivAt_egrho Γ ρ
  have p : ∀ k : ℕ, HasDerivAt (fun t : ℝ => t ^ k) (k * ρ ^ (k - 1)) ρ := fun k => hasDerivAt_pow k ρ
  match i with
  | 0 => refine d.congr_deriv ?_; simp [co2H]; field_simp
  | 1 => refine ((p 2).div_const 2).congr_deriv ?_; simp [co2H]; field_simp
  | 2 => refine ((p 3).div_const 3).congr_deriv ?_; simp [co2H]; field_simp
  | 3 => refine ((p 4).div_const 4).congr_deriv ?_; simp [co2H]; field_simp
  | 4 => refine ((p 5).div_const 5).congr_deriv ?_; simp [co2H]; field_simp
  | 5 =>
    refine ((e.const_sub 1).div_const (2 * Γ)).congr_deriv ?_
    simp only [co2H]; norm_num; field_simp
  | 6 =>
    refine (((e.mul (((p 2).const_mul Γ).add_const 1)).const_sub 1).div_const (2 * Γ * Γ)).congr_deriv ?_
    simp only [co2H]; norm_num; field_simp; ring
  | n + 7 =>
    have : co2H ρ (Real.exp (-Γ * ρ * ρ)) (n + 7) = 0 := by
      simp only [co2H]
      rw [if_neg (by omega), if_neg (by omega), if_neg (by omega)]
    rw [this, zero_div]
    exact hasDerivAt_const _ _

theorem carbonDioxide_gibbs {T ρ : ℝ} (hT : 0 < T) (hρ : 0 < ρ) : GibbsAt carbonDioxide T ρ := by
  obtain ⟨c, h1, h2⟩ := pU_deriv Gco2 (To := 216.54) 3.2174105e5 2.1396056e3 (by norm_num) hT
  refine gibbs_of_sum carbonDioxide 7
    (fun i t => co2C Aco2 t (1 / t) (t ^ (-2 : ℤ)) (t ^ (-3 : ℤ)) (t ^ (-4 : ℤ)) i)
    (fun i t => co2Cprime Aco2 t (t ^ (-2 : ℤ)) (t ^ (-3 : ℤ)) (t ^ (-4 : ℤ)) i)
    (fun i r => co2I 5.0e-6 r (Real.exp (-5.0e-6 * r * r)) i) (fun i r => co2H r (Real.exp (-5.0e-6 * r * r)) i)
    188.918 (pU Gco2 216.54 3.2174105e5) (pS Gco2 216.54 2.1396056e3) T ρ c hT hρ ?_ ?_ ?_
    (fun i _ => co2C_deriv Aco2 hT i) (fun i _ => co2Cprime_diff Aco2 hT i)
    (fun i _ => co2I_deriv (by norm_num) hρ i) h1 h2
  · intro t r
    simp only [carbonDioxide, co2P, z1]
  · intro t r
    simp only [carbonDioxide, co2U]
    rw [add_comm]
    congr 1
    exact sum_congr rfl fun i _ => mul_comm _ _
  · intro t r
    simp only [carbonDioxide, co2S]

/-! ## Heptane -/

theorem heptC_deriv (A : ℕ → ℝ) (R : ℝ) {T : ℝ} (hT : 0 < T) (i : ℕ) :
    HasDerivAt (fun t => heptC A R t (1 / t) (t ^ (-2 : ℤ)) (t ^ (-3 : ℤ)) (t ^ (-4 : ℤ)) i)
      (heptCprime A R T (T ^ (-2 : ℤ)) (T ^ (-3 : ℤ)) (T ^ (-4 : ℤ)) i) T := by
  have hT' := hT.ne'
  have d := hasDerivAt_id' T
  have r := hasDerivAt_rt hT'
  have r2 := hasDerivAt_rtpow hT' 1
  have r3 := hasDerivAt_rtpow hT' 2
  have r4 := hasDerivAt_rtpow hT' 3
  simp only [z2, z3, z4]
  match i with
  | 0 =>
    refine (((((d.const_mul (A 0 * R)).sub_const (A 1)).sub (r2.const_mul (A 2))).add (r3.const_mul (A 3))).sub
      (r4.const_mul (A 4))).congr_deriv ?_
    simp only [heptCprime, z5]; push_cast; ring
  | 1 =>
    refine (((d.const_mul (A 5 * R)).sub_const (A 6)).sub (r.const_mul (A 7))).congr_deriv ?_
    simp only [heptCprime]; ring
  | 2 =>
    refine (((r.const_mul (A 7)).const_add (A 6)).const_mul (A 9)).congr_deriv ?_
    simp only [heptCprime]; ring
  | 3 =>
    refine (r2.const_mul (A 8)).congr_deriv ?_
    simp only [heptCprime]; push_cast; ring
  | n + 4 => exact hasDerivAt_const _ _

theorem heptCprime_diff (A : ℕ → ℝ) (R : ℝ) {T : ℝ} (hT : 0 < T) (i : ℕ) :
    DifferentiableAt ℝ (fun t => heptCprime A R t (t ^ (-2 : ℤ)) (t ^ (-3 : ℤ)) (t ^ (-4 : ℤ)) i) T := by
  have h0 := hT.ne'
  match i with
  | 0 => simp only [heptCprime, z3, z4, z5]; fun_prop (disch := assumption)
  | 1 => simp only [heptCprime, z2]; fun_prop (disch := assumption)
  | 2 => simp only [heptCprime, z2]; fun_prop (disch := assumption)
  | 3 => simp only [heptCprime, z3]; fun_prop (disch := assumption)
  | n + 4 => simp only [heptCprime]; fun_prop

theorem heptI_deriv {Γ : ℝ} (hΓ : Γ ≠ 0) {ρ : ℝ} (hρ : 0 < ρ) (i : ℕ) :
    HasDerivAt (fun r => heptI Γ r (Real.exp (-Γ * r * r)) i) (heptH Γ ρ (Real.exp (-Γ * ρ * ρ)) i / ρ ^ 2) ρ := by
  have hρ' := hρ.ne'
  have d := hasDerivAt_id' ρ
  have e := hasDerivAt_egrho Γ ρ
  match i with
  | 0 => refine d.congr_deriv ?_; simp [heptH]; field_simp
  | 1 => refine ((d.mul d).div_const 2).congr_deriv ?_; simp [heptH]; field_simp
  | 2 =>
    refine ((hasDerivAt_pow 5 ρ).div_const 5).congr_deriv ?_
    simp [heptH]; field_simp
  | 3 =>
    refine ((((((d.const_mul Γ).mul d).add_const 2).mul e).div_const (2 * Γ)).const_sub (1 / Γ)).congr_deriv ?_
    simp only [heptH, Pi.mul_apply]
    norm_num
    field_simp
    ring
  | n + 4 =>
    have : heptH Γ ρ (Real.exp (-Γ * ρ * ρ)) (n + 4) = 0 := by
      simp only [heptH]
      rw [if_neg (by omega), if_neg (by omega), if_neg (by omega)]
    rw [this, zero_div]
    exact hasDerivAt_const _ _

theorem heptane_gibbs {T ρ : ℝ} (hT : 0 < T) (hρ : 0 < ρ) : GibbsAt heptane T ρ := by
  obtain ⟨c, h1, h2⟩ := pU_deriv Ghept (To := 300) 3.4058439e5 1.1080254e3 (by norm_num) hT
  refine gibbs_of_sum heptane 7
    (fun i t => heptC Ahept 82.99504 t (1 / t) (t ^ (-2 : ℤ)) (t ^ (-3 : ℤ)) (t ^ (-4 : ℤ)) i)
    (fun i t => heptCprime Ahept 82.99504 t (t ^ (-2 : ℤ)) (t ^ (-3 : ℤ)) (t ^ (-4 : ℤ)) i)
    (fun i r => heptI 9.611604e-6 r (Real.exp (-9.611604e-6 * r * r)) i)
    (fun i r => heptH 9.611604e-6 r (Real.exp (-9.611604e-6 * r * r)) i)
    82.99504 (pU Ghept 300 3.4058439e5) (pS Ghept 300 1.1080254e3) T ρ c hT hρ ?_ ?_ ?_
    (fun i _ => heptC_deriv Ahept _ hT i) (fun i _ => heptCprime_diff Ahept _ hT i)
    (fun i _ => heptI_deriv (by norm_num) hρ i) h1 h2
  · intro t r
    simp only [heptane, heptP, z1]
    congr 1
    refine sum_subset (range_mono (by norm_num)) fun i hi hi' => ?_
    rw [mem_range] at hi hi'
    match i with
    | 0 => omega
    | 1 => omega
    | 2 => omega
    | 3 => omega
    | n + 4 => simp [heptC]
  · intro t r
    simp only [heptane, heptU]
    rw [add_comm]
  · intro t r
    simp only [heptane, heptS]

/-! ## Water -/

theorem watC_deriv (R tauc : ℝ) {T : ℝ} (hT : 0 < T) (i : ℕ) :
    HasDerivAt (fun t => watC R tauc t i) (watCprime R tauc T i) T := by
  have hT' := hT.ne'
  have d := hasDerivAt_id' T
  have r : HasDerivAt (fun t : ℝ => 1000 / t) (-(1000 / T) / T) T := by
    refine ((hasDerivAt_const T (1000 : ℝ)).div d hT').congr_deriv ?_
    field_simp; ring
  match i with
  | 0 =>
    simp only [watC, watCprime, if_true]
    refine (d.const_mul R).congr_deriv ?_
    ring
  | 1 =>
    simp only [watC, watCprime]
    norm_num
    refine ((d.const_mul R).mul (r.sub_const tauc)).congr_deriv ?_
    field_simp; ring
  | n + 2 =>
    simp only [watC, watCprime]
    rw [if_neg (by omega), if_neg (by omega)]
    simp only [if_neg (show ¬ n + 2 = 0 by omega)]
    have e1 : n + 2 - 1 = n + 1 := by omega
    have e2 : n + 2 - 2 = n := by omega
    rw [e1, e2]
    generalize tauaw (n + 2) = a
    refine (((d.const_mul R).mul (r.sub_const tauc)).mul ((r.sub_const a).pow (n + 1))).congr_deriv ?_
    simp only [Pi.mul_apply, Pi.pow_apply, Nat.add_sub_cancel, pow_succ]
    push_cast
    generalize (1000 / T - a) ^ n = X
    field_simp
    ring

theorem watCprime_diff (R tauc : ℝ) {T : ℝ} (hT : 0 < T) (i : ℕ) :
    DifferentiableAt ℝ (fun t => watCprime R tauc t i) T := by
  have h0 := hT.ne'
  unfold watCprime
  by_cases h : i = 0
  · simp only [h, if_true]; fun_prop
  by_cases h1 : i = 1
  · simp only [h1, if_true]; norm_num
  simp only [h, h1, if_false]
  fun_prop (disch := assumption)

theorem horner_six (a : ℕ → ℝ) (f : ℝ) :
    horner a f 6 0 = a 1 * f + a 2 * f ^ 2 + a 3 * f ^ 3 + a 4 * f ^ 4 + a 5 * f ^ 5 + a 6 * f ^ 6 := by
  simp only [horner]; ring

theorem horner_seven (a : ℕ → ℝ) (f : ℝ) :
    horner a f 7 0 = a 1 * f + a 2 * f ^ 2 + a 3 * f ^ 3 + a 4 * f ^ 4 + a 5 * f ^ 5 + a 6 * f ^ 6 + a 7 * f ^ 7 := by
  simp only [horner]; ring

theorem watI_deriv (E : ℝ) {ρ : ℝ} (hρ : 0 < ρ) (j : ℕ) :
    HasDerivAt (fun r => watI E r j) (watH E ρ j / ρ ^ 2) ρ := by
  have hρ' := hρ.ne'
  simp only [watI, watH, horner_seven, horner_six]
  generalize (if j = 0 then (634 : ℝ) else 1000) = b
  have d := hasDerivAt_id' ρ
  have f := d.sub_const b
  have p : ∀ k : ℕ, HasDerivAt (fun r : ℝ => (r - b) ^ k) (k * (ρ - b) ^ (k - 1) * 1) ρ := fun k => f.pow k
  have e : HasDerivAt (fun r => Real.exp (-E * r)) (-E * Real.exp (-E * ρ)) ρ := by
    refine (d.const_mul (-E)).exp.congr_deriv ?_
    ring
  have h := d.mul ((((((((((f.const_mul (Awat 1 j)).add ((p 2).const_mul (Awat 2 j))).add ((p 3).const_mul (Awat 3 j))).add
    ((p 4).const_mul (Awat 4 j))).add ((p 5).const_mul (Awat 5 j))).add ((p 6).const_mul (Awat 6 j))).add
    ((p 7).const_mul (Awat 7 j))).add_const (Awat 0 j))).add
    (e.mul ((d.const_mul (Awat 9 j)).const_add (Awat 8 j))))
  refine h.congr_deriv ?_
  simp only [Pi.mul_apply, Pi.add_apply]
  push_cast
  field_simp
  ring

theorem water_gibbs {T ρ : ℝ} (hT : 0 < T) (hρ : 0 < ρ) : GibbsAt water T ρ := by
  obtain ⟨c, h1, h2⟩ := pU_deriv Gwat (To := 273.16) 2375470.875 6697.356635 (by norm_num) hT
  refine gibbs_of_sum water 7 (fun i t => watC 461.51 1.544912 t i) (fun i t => watCprime 461.51 1.544912 t i)
    (fun i r => watI 4.8e-3 r i) (fun i r => watH 4.8e-3 r i)
    461.51 (pU Gwat 273.16 2375470.875) (pS Gwat 273.16 6697.356635) T ρ c hT hρ (fun _ _ => rfl) (fun _ _ => rfl)
    (fun _ _ => rfl) (fun i _ => watC_deriv _ _ hT i) (fun i _ => watCprime_diff _ _ hT i)
    (fun i _ => watI_deriv _ hρ i) h1 h2

end Verif.TpxFluids
