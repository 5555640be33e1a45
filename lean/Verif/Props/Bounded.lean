import Verif.Props.Losses

/-!
# Bounds of the coefficients

Photos may be wrong in any way: LEDs that are switched off, covered by people, overexposed. How large can the reported coefficients become?
-/

namespace Ledsa

/-- The claim: there is a bound that depends on the lengths of the rays only and holds for everything that may be measured. -/
def CoefficientsBounded : Prop := ∀ (m n : ℕ) (A : Fin m → Fin n → ℝ), 3 ≤ n → (∀ i l, 0 ≤ A i l) → ∃ B : ℝ, ∀ (lam : ℝ) (rel : Fin m → ℝ) (x : Fin n → ℝ),
  0 < lam → LinearSolution A lam rel x → ∀ l, x l ≤ B

theorem roughness_scale {n : ℕ} (t : ℝ) (x : Fin n → ℝ) : roughness (fun l => x l + t * x l) = (1 + t) ^ 2 * roughness x := by
  unfold roughness
  split
  · unfold bending
    rw [Finset.mul_sum]
    exact Finset.sum_congr rfl fun i _ => by ring
  · rw [Finset.mul_sum]
    exact Finset.sum_congr rfl fun i _ => by ring

theorem roughness_ge_zero {n : ℕ} (x : Fin n → ℝ) : 0 ≤ roughness x := by
  unfold roughness
  split
  · exact Finset.sum_nonneg fun _ _ => sq_nonneg _
  · exact Finset.sum_nonneg fun _ _ => sq_nonneg _

theorem opticalDepth_at_most (r : ℝ) : opticalDepth r ≤ 10 * Real.log 10 := by
  have h1 : (1 : ℝ) / 10 ^ 10 ≤ clip r := le_min (le_max_right _ _) (by norm_num)
  have h2 := Real.log_le_log (by positivity) h1
  rw [one_div, Real.log_inv, Real.log_pow] at h2
  unfold opticalDepth
  push_cast at h2
  linarith

/-- What the solver leaves over in the direction of its own solution is the penalty. -/
theorem surplus_self {m n : ℕ} (A : Fin m → Fin n → ℝ) {lam : ℝ} (hl : 0 ≤ lam) (rel : Fin m → ℝ) (x : Fin n → ℝ)
    (h : LinearSolution A lam rel x) : surplus A rel x x = -(lam * roughness x) := by
  have key : ∀ δ : ℝ, |δ| ≤ 1 →
      0 ≤ 2 * δ * (surplus A rel x x + lam * roughness x) + δ ^ 2 * (∑ led, depth x (A led) ^ 2 + lam * roughness x) := by
    intro δ hδ
    have h1 := h.minimal (fun l => x l + δ * x l) fun l => by
      have h2 := h.nonneg l
      have h3 := neg_le_of_abs_le hδ
      show 0 ≤ x l + δ * x l
      nlinarith
    rw [aug_residual_split A hl, aug_residual_split A hl, misfit_step, roughness_scale] at h1
    linarith
  have hq : 0 ≤ ∑ led, depth x (A led) ^ 2 + lam * roughness x :=
    add_nonneg (Finset.sum_nonneg fun led _ => sq_nonneg _) (mul_nonneg hl (roughness_ge_zero x))
  have h1 := step_nonneg hq 1 one_pos fun ε hε hεs => key ε (by rwa [abs_of_pos hε])
  have h2 := step_nonneg (g := -(surplus A rel x x + lam * roughness x)) hq 1 one_pos fun ε hε hεs => by
    have := key (-ε) (by rwa [abs_neg, abs_of_pos hε])
    rw [neg_sq] at this
    linarith
  linarith

/-- **C200**: the reported smoke does not take away more light than was measured, in the sum of the squares of the optical depths; for every number
of layers, every weight and everything that may be measured. -/
theorem C200_not_more {m n : ℕ} (A : Fin m → Fin n → ℝ) {lam : ℝ} (hl : 0 ≤ lam) (rel : Fin m → ℝ) (x : Fin n → ℝ)
    (h : LinearSolution A lam rel x) : ∑ led, depth x (A led) ^ 2 ≤ ∑ led, opticalDepth (rel led) ^ 2 := by
  have h1 := surplus_self A hl rel x h
  have h2 : 0 ≤ lam * roughness x := mul_nonneg hl (roughness_ge_zero x)
  have h3 : ∑ led, depth x (A led) ^ 2 - ∑ led, opticalDepth (rel led) ^ 2 ≤ 2 * surplus A rel x x := by
    unfold surplus
    rw [← Finset.sum_sub_distrib, Finset.mul_sum]
    refine Finset.sum_le_sum fun led _ => ?_
    nlinarith [sq_nonneg (depth x (A led) - opticalDepth (rel led))]
  linarith

/-- **C200** (partial): a layer that an LED is seen through over the length `d` has a coefficient of at most `sqrt(number of LEDs) * 10 log 10 / d`,
whatever was measured. -/
theorem C200_seen_partial {m n : ℕ} (A : Fin m → Fin n → ℝ) (hA : ∀ i l, 0 ≤ A i l) {lam : ℝ} (hl : 0 ≤ lam) (rel : Fin m → ℝ) (x : Fin n → ℝ)
    (h : LinearSolution A lam rel x) (led : Fin m) (l : Fin n) (hd : 0 < A led l) : x l ≤ Real.sqrt m * (10 * Real.log 10) / A led l := by
  have hlog : 0 ≤ 10 * Real.log 10 := mul_nonneg (by norm_num) (Real.log_nonneg (by norm_num))
  have h1 : depth x (A led) ^ 2 ≤ m * (10 * Real.log 10) ^ 2 := by
    have e1 : depth x (A led) ^ 2 ≤ ∑ i, depth x (A i) ^ 2 :=
      Finset.single_le_sum (f := fun i => depth x (A i) ^ 2) (fun _ _ => sq_nonneg _) (Finset.mem_univ led)
    have e2 : ∑ i, opticalDepth (rel i) ^ 2 ≤ ∑ _i : Fin m, (10 * Real.log 10) ^ 2 := Finset.sum_le_sum fun i _ =>
      pow_le_pow_left₀ (opticalDepth_nonneg _) (opticalDepth_at_most _) 2
    have e3 : ∑ _i : Fin m, (10 * Real.log 10) ^ 2 = m * (10 * Real.log 10) ^ 2 := by simp
    linarith [C200_not_more A hl rel x h]
  have h2 : depth x (A led) ≤ Real.sqrt m * (10 * Real.log 10) := by
    refine abs_le_of_sq_le_sq' ?_ (mul_nonneg (Real.sqrt_nonneg _) hlog) |>.2
    rw [mul_pow, Real.sq_sqrt (Nat.cast_nonneg m)]
    exact h1
  have h3 : x l * A led l ≤ depth x (A led) := by
    have := Finset.single_le_sum (f := fun k => A led k * x k) (fun k _ => mul_nonneg (hA led k) (h.nonneg k)) (Finset.mem_univ l)
    unfold depth
    simpa [mul_comm] using this
  rw [le_div_iff₀ hd]
  exact h3.trans h2

theorem lowRay_depth (σ : Fin 3 → ℝ) : depth σ (lowRay 0) = σ 0 := by unfold depth lowRay; simp

/-- **C200 refuted** for layers that no LED is seen through: one LED behind the lowest of three layers. All profiles that rise linearly from its
coefficient are solutions, with any value in the uppermost layer. -/
theorem C200_false : ¬ CoefficientsBounded := by
  intro h
  obtain ⟨B, hB⟩ := h 1 3 lowRay le_rfl (fun i l => by unfold lowRay; split <;> norm_num)
  have hlog : (1 : ℝ) ≤ 10 * Real.log 10 := by
    have : Real.log (Real.exp 1 ^ 2) ≤ Real.log 10 := Real.log_le_log (by positivity) (by nlinarith [Real.exp_one_lt_d9, Real.exp_pos 1])
    rw [Real.log_pow, Real.log_exp] at this
    norm_num at this
    linarith
  have hop : opticalDepth (Real.exp (-1)) = 1 := opticalDepth_exp zero_le_one hlog
  have hsol : ∀ t : ℝ, 0 ≤ t → LinearSolution lowRay 1 (fun _ => Real.exp (-1)) ![1, 1 + t, 1 + 2 * t] := by
    intro t ht
    refine ⟨⟨fun l => ?_, fun y _ => ?_⟩, fun hg => ?_⟩
    · fin_cases l
      · show (0 : ℝ) ≤ 1; norm_num
      · show 0 ≤ 1 + t; linarith
      · show 0 ≤ 1 + 2 * t; linarith
    · rw [aug_residual_split _ zero_le_one, aug_residual_split _ zero_le_one]
      have e1 : misfit lowRay (fun _ => Real.exp (-1)) ![1, 1 + t, 1 + 2 * t] = 0 := by
        unfold misfit
        rw [Fin.sum_univ_one, lowRay_depth, hop]
        show ((1 : ℝ) - 1) ^ 2 = 0
        norm_num
      have e2 : roughness (![1, 1 + t, 1 + 2 * t] : Fin 3 → ℝ) = 0 := by
        unfold roughness
        rw [if_pos le_rfl]
        unfold bending
        rw [Fin.sum_univ_one]
        show ((1 : ℝ) - 2 * (1 + t) + (1 + 2 * t)) ^ 2 = 0
        ring
      rw [e1, e2]
      have e3 : 0 ≤ misfit lowRay (fun _ => Real.exp (-1)) y := Finset.sum_nonneg fun _ _ => sq_nonneg _
      have e4 := roughness_ge_zero y
      linarith
    · exfalso
      have := hg 0
      rw [gradient_aug, Fin.sum_univ_one, hop] at this
      simp [lowRay] at this
      linarith
  have := hB 1 _ _ one_pos (hsol |B| (abs_nonneg B)) 2
  have h3 : 1 + 2 * |B| ≤ B := this
  linarith [le_abs_self B, abs_nonneg B]

/-- Smoke 9, 2, 2 is reported as 8, 4, 1: 64 + 16 + 1 is at most 81 + 4 + 4. -/
example : ∑ led, depth ![8, 4, 1] (levelRays led) ^ 2 = 81 ∧ ∑ led, depth ![9, 2, 2] (levelRays led) ^ 2 = 89 := by
  constructor
  · simp only [levelRays_depth]
    rw [Fin.sum_univ_three]
    show (8 : ℝ) ^ 2 + 4 ^ 2 + 1 ^ 2 = 81
    norm_num
  · simp only [levelRays_depth]
    rw [Fin.sum_univ_three]
    show (9 : ℝ) ^ 2 + 2 ^ 2 + 2 ^ 2 = 89
    norm_num

end Ledsa
