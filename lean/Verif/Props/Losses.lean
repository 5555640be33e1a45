import Verif.Props.Amount
import Verif.Model.Nonlinear

/-!
# Light losses along the lines of sight

The coefficients of single layers may be far from the smoke in the room, because the lines of sight do not tell them apart or because of the
smoothing. How right are the light losses that follow from them?
-/

namespace Ledsa

/-- The claim: the light loss along every line of sight through the layers is the one through the smoke in the room. -/
def LossesRight : Prop := ∀ (m n : ℕ) (A : Fin m → Fin n → ℝ) (lam : ℝ) (s x : Fin n → ℝ), 3 ≤ n → (∀ i l, 0 ≤ A i l) → 0 < lam → (∀ l, 0 ≤ s l) →
  (∀ led, depth s (A led) ≤ 10 * Real.log 10) → LinearSolution A lam (calcIntensities A s) x →
  ∀ d : Fin n → ℝ, (∀ l, 0 ≤ d l) → depth x d = depth s d

/-- The sum of squared differences between the optical depths through two profiles. -/
noncomputable def lossError {m n : ℕ} (A : Fin m → Fin n → ℝ) (x s : Fin n → ℝ) : ℝ := ∑ led, (depth x (A led) - depth s (A led)) ^ 2

/-- **C199** (partial), with errors: measured optical depths that differ from those of the smoke in the room by at most `δ` for each LED. The light
losses that follow from the reported coefficients are then right up to these errors and `lambda_reg` times the bending of the smoke. -/
theorem C199_measured_partial {m n : ℕ} (hn : 3 ≤ n) (A : Fin m → Fin n → ℝ) {lam : ℝ} (hl : 0 ≤ lam) (rel : Fin m → ℝ) (s x : Fin n → ℝ)
    (h0 : ∀ l, 0 ≤ s l) (δ : Fin m → ℝ) (hδ : ∀ led, |opticalDepth (rel led) - depth s (A led)| ≤ δ led) (h : LinearSolution A lam rel x) :
    lossError A x s ≤ 4 * ∑ led, δ led ^ 2 + 2 * (lam * bending s) := by
  have h1 := h.minimal s h0
  rw [aug_residual_split A hl, aug_residual_split A hl] at h1
  simp only [roughness, hn, if_true] at h1
  have hb : 0 ≤ lam * bending x := mul_nonneg hl (by unfold bending; exact Finset.sum_nonneg fun _ _ => sq_nonneg _)
  have hsq : ∀ led, (depth s (A led) - opticalDepth (rel led)) ^ 2 ≤ δ led ^ 2 := fun led => by
    rw [← sq_abs, abs_sub_comm]
    exact pow_le_pow_left₀ (abs_nonneg _) (hδ led) 2
  have h2 : misfit A rel s ≤ ∑ led, δ led ^ 2 := Finset.sum_le_sum fun led _ => hsq led
  have h3 : lossError A x s ≤ 2 * misfit A rel x + 2 * misfit A rel s := by
    unfold lossError misfit
    rw [Finset.mul_sum, Finset.mul_sum, ← Finset.sum_add_distrib]
    refine Finset.sum_le_sum fun led _ => ?_
    nlinarith [sq_nonneg (depth x (A led) - opticalDepth (rel led) + (depth s (A led) - opticalDepth (rel led)))]
  linarith

/-- **C199** (partial), exact light: the sum of the squared errors of the light losses is at most `lambda_reg` times the bending of the smoke,
however far the coefficients are from the smoke. -/
theorem C199_seen_partial {m n : ℕ} (hn : 3 ≤ n) (A : Fin m → Fin n → ℝ) (hA : ∀ i l, 0 ≤ A i l) {lam : ℝ} (hl : 0 ≤ lam) (s x : Fin n → ℝ)
    (h0 : ∀ l, 0 ≤ s l) (hthin : ∀ led, depth s (A led) ≤ 10 * Real.log 10) (h : LinearSolution A lam (calcIntensities A s) x) :
    lossError A x s ≤ lam * bending s := by
  have hop : ∀ led, opticalDepth (calcIntensities A s led) = depth s (A led) := fun led => by
    rw [intensities_depth]
    exact opticalDepth_exp (depth_nonneg h0 (hA led)) (hthin led)
  have h1 := h.minimal s h0
  rw [aug_residual_split A hl, aug_residual_split A hl] at h1
  simp only [roughness, hn, if_true] at h1
  have hb : 0 ≤ lam * bending x := mul_nonneg hl (by unfold bending; exact Finset.sum_nonneg fun _ _ => sq_nonneg _)
  unfold misfit at h1
  simp only [hop, sub_self] at h1
  have h2 : ∑ _led : Fin m, (0 : ℝ) ^ 2 = 0 := by simp
  rw [h2] at h1
  unfold lossError
  linarith

/-- **C199, every LED**. -/
theorem C199_each_partial {m n : ℕ} (hn : 3 ≤ n) (A : Fin m → Fin n → ℝ) (hA : ∀ i l, 0 ≤ A i l) {lam : ℝ} (hl : 0 ≤ lam) (s x : Fin n → ℝ)
    (h0 : ∀ l, 0 ≤ s l) (hthin : ∀ led, depth s (A led) ≤ 10 * Real.log 10) (h : LinearSolution A lam (calcIntensities A s) x) (led : Fin m) :
    |depth x (A led) - depth s (A led)| ≤ Real.sqrt (lam * bending s) := by
  refine Real.abs_le_sqrt (le_trans ?_ (C199_seen_partial hn A hA hl s x h0 hthin h))
  exact Finset.single_le_sum (f := fun led => (depth x (A led) - depth s (A led)) ^ 2) (fun _ _ => sq_nonneg _) (Finset.mem_univ led)

/-- **C199, further lines of sight**: the same holds for a line of sight without LED whose lengths in the layers are a combination of those of
lines of sight with LEDs, up to the sum of the factors. -/
theorem C199_between_partial {m n : ℕ} (hn : 3 ≤ n) (A : Fin m → Fin n → ℝ) (hA : ∀ i l, 0 ≤ A i l) {lam : ℝ} (hl : 0 ≤ lam) (s x : Fin n → ℝ)
    (h0 : ∀ l, 0 ≤ s l) (hthin : ∀ led, depth s (A led) ≤ 10 * Real.log 10) (h : LinearSolution A lam (calcIntensities A s) x) (f : Fin m → ℝ) :
    |depth x (fun l => ∑ led, f led * A led l) - depth s (fun l => ∑ led, f led * A led l)| ≤ (∑ led, |f led|) * Real.sqrt (lam * bending s) := by
  have e : ∀ y : Fin n → ℝ, depth y (fun l => ∑ led, f led * A led l) = ∑ led, f led * depth y (A led) := by
    intro y
    unfold depth
    simp only [Finset.mul_sum, Finset.sum_mul]
    rw [Finset.sum_comm]
    exact Finset.sum_congr rfl fun led _ => Finset.sum_congr rfl fun l _ => by ring
  rw [e, e, ← Finset.sum_sub_distrib, Finset.sum_mul]
  refine (Finset.abs_sum_le_sum_abs _ _).trans (Finset.sum_le_sum fun led _ => ?_)
  rw [← mul_sub, abs_mul]
  exact mul_le_mul_of_nonneg_left (C199_each_partial hn A hA hl s x h0 hthin h led) (abs_nonneg _)

/-- **C199, one or two layers**: here the sum of squares of the coefficients takes the place of the bending. -/
theorem C199_few_layers_partial {m n : ℕ} (hn : n < 3) (A : Fin m → Fin n → ℝ) (hA : ∀ i l, 0 ≤ A i l) {lam : ℝ} (hl : 0 ≤ lam) (s x : Fin n → ℝ)
    (h0 : ∀ l, 0 ≤ s l) (hthin : ∀ led, depth s (A led) ≤ 10 * Real.log 10) (h : LinearSolution A lam (calcIntensities A s) x) :
    lossError A x s ≤ lam * ∑ l, s l ^ 2 := by
  have hop : ∀ led, opticalDepth (calcIntensities A s led) = depth s (A led) := fun led => by
    rw [intensities_depth]
    exact opticalDepth_exp (depth_nonneg h0 (hA led)) (hthin led)
  have h1 := h.minimal s h0
  rw [aug_residual_split A hl, aug_residual_split A hl] at h1
  simp only [roughness, not_le.2 hn, if_false] at h1
  have hb : 0 ≤ lam * ∑ l, x l ^ 2 := mul_nonneg hl (Finset.sum_nonneg fun _ _ => sq_nonneg _)
  unfold misfit at h1
  simp only [hop, sub_self] at h1
  have h2 : ∑ _led : Fin m, (0 : ℝ) ^ 2 = 0 := by simp
  rw [h2] at h1
  unfold lossError
  linarith

/-- **C199, nonlinear solver** (partial): for the best fit within the bounds, the relative intensity that follows for an LED is right up to the
number of LEDs times the penalty for the curvature of the smoke and ten times the weight of the preference. -/
theorem C199_nonlinear_partial {m n : ℕ} (A : Fin m → Fin n → ℝ) {wCurv : ℝ} (hw : 0 ≤ wCurv) (wPref : ℝ) (s x : Fin n → ℝ) (hs : InBounds s)
    (h : BestFit A wCurv wPref (calcIntensities A s) x) (led : Fin m) :
    |calcIntensities A x led - calcIntensities A s led| ≤ m * (curvature m wCurv s + 10 * |wPref|) := by
  have hm : (0 : ℝ) < m := by exact_mod_cast led.pos
  have h1 := h.2 s hs
  unfold costFunction at h1
  have h2 : rmse A (calcIntensities A s) s = 0 := by unfold rmse; simp
  have h3 : 0 ≤ curvature m wCurv x :=
    mul_nonneg (mul_nonneg (mul_nonneg (Finset.sum_nonneg fun _ _ => abs_nonneg _) hm.le) zero_le_two) hw
  have h4 : preference wPref s - preference wPref x ≤ 10 * |wPref| := by
    unfold preference
    rcases Nat.eq_zero_or_pos n with rfl | hn
    · simp
    · have hn' : (0 : ℝ) < n := by exact_mod_cast hn
      have e : (∑ l, s l) / n * wPref - (∑ l, x l) / n * wPref = (∑ l, (s l - x l)) / n * wPref := by
        rw [Finset.sum_sub_distrib]; ring
      rw [e]
      have h5 : |∑ l, (s l - x l)| ≤ 10 * n := by
        refine (Finset.abs_sum_le_sum_abs _ _).trans ?_
        have : ∑ l : Fin n, |s l - x l| ≤ ∑ _l : Fin n, (10 : ℝ) := Finset.sum_le_sum fun l _ => by
          rw [abs_le]
          constructor <;> linarith [(hs l).1, (hs l).2, (h.1 l).1, (h.1 l).2]
        simpa [mul_comm] using this
      refine (le_abs_self _).trans ?_
      rw [abs_mul, abs_div, abs_of_pos hn']
      refine mul_le_mul_of_nonneg_right ?_ (abs_nonneg _)
      rw [div_le_iff₀ hn']
      exact h5
  have h6 : rmse A (calcIntensities A s) x ≤ curvature m wCurv s + 10 * |wPref| := by linarith
  have h7 : |calcIntensities A x led - calcIntensities A s led| ≤ m * rmse A (calcIntensities A s) x := by
    unfold rmse
    rw [mul_div_cancel₀ _ hm.ne']
    exact Real.abs_le_sqrt (Finset.single_le_sum (f := fun led => (calcIntensities A x led - calcIntensities A s led) ^ 2) (fun _ _ => sq_nonneg _)
      (Finset.mem_univ led))
  exact h7.trans (mul_le_mul_of_nonneg_left h6 hm.le)

/-- One LED, seen through one metre of the lowest of three layers. -/
def lowRay : Fin 1 → Fin 3 → ℝ := fun _ l => if l = 0 then 1 else 0

/-- **C199 refuted**: smoke 9, 2, 2 in three layers with level rays is reported as 8, 4, 1, so that the light loss of the lowest LED is 8 instead
of 9. -/
theorem C199_false : ¬ LossesRight := by
  intro h
  have h2 := levelRays_solution ![9, 2, 2] (fun l => by fin_cases l <;> norm_num) (fun l => by fin_cases l <;> norm_num) ⟨0, by norm_num⟩ 1
    (by show (1 : ℝ) = (9 - 2 * 2 + 2) / 7; norm_num) (by show (1 : ℝ) ≤ 9; norm_num) (by show (0 : ℝ) ≤ 2 + 2 * 1; norm_num) (by show (1 : ℝ) ≤ 2; norm_num)
  have hthin : (20 : ℝ) ≤ 10 * Real.log 10 := by
    have : Real.log (Real.exp 1 ^ 2) ≤ Real.log 10 := Real.log_le_log (by positivity) (by nlinarith [Real.exp_one_lt_d9, Real.exp_pos 1])
    rw [Real.log_pow, Real.log_exp] at this
    norm_num at this
    linarith
  have := h 3 3 levelRays 1 ![9, 2, 2] _ le_rfl (fun i l => by unfold levelRays; split <;> norm_num) one_pos (fun l => by fin_cases l <;> norm_num)
    (fun led => by rw [levelRays_depth]; refine le_trans ?_ hthin; fin_cases led <;> norm_num) h2 (levelRays 0)
    (fun l => by unfold levelRays; split <;> norm_num)
  rw [levelRays_depth, levelRays_depth] at this
  have h3 : (9 : ℝ) - 1 = 9 := this
  norm_num at h3

/-- **C199 refuted for other lines of sight**, also without any error along the seen ones: smoke 1, 1, 5, one LED seen through the lowest layer.
Uniform smoke 1 is a solution; the light loss of the LED is right and the one in the uppermost layer is wrong by 4. -/
theorem C199_other_false : LinearSolution lowRay 1 (calcIntensities lowRay ![1, 1, 5]) (fun _ => 1) ∧
    depth (fun _ => 1) (lowRay 0) = depth ![1, 1, 5] (lowRay 0) ∧
    depth ![1, 1, 5] (fun l => if l = 2 then 1 else 0) - depth (fun _ => 1) (fun l => if l = (2 : Fin 3) then 1 else 0) = 4 := by
  have hd : ∀ σ : Fin 3 → ℝ, depth σ (lowRay 0) = σ 0 := fun σ => by unfold depth lowRay; simp
  have hthin : (1 : ℝ) ≤ 10 * Real.log 10 := by
    have : Real.log (Real.exp 1 ^ 2) ≤ Real.log 10 := Real.log_le_log (by positivity) (by nlinarith [Real.exp_one_lt_d9, Real.exp_pos 1])
    rw [Real.log_pow, Real.log_exp] at this
    norm_num at this
    linarith
  have hop : opticalDepth (calcIntensities lowRay ![1, 1, 5] 0) = 1 := by
    rw [intensities_depth, hd]
    exact opticalDepth_exp (by norm_num) hthin
  refine ⟨⟨⟨fun _ => zero_le_one, fun y _ => ?_⟩, fun hg => ?_⟩, by rw [hd, hd]; rfl, ?_⟩
  · rw [aug_residual_split _ zero_le_one, aug_residual_split _ zero_le_one]
    have e1 : misfit lowRay (calcIntensities lowRay ![1, 1, 5]) (fun _ => 1) = 0 := by
      unfold misfit
      rw [Fin.sum_univ_one, hd, hop]
      norm_num
    have e2 : roughness (fun _ : Fin 3 => (1 : ℝ)) = 0 := by
      unfold roughness
      rw [if_pos le_rfl]
      unfold bending
      rw [Fin.sum_univ_one]
      norm_num
    rw [e1, e2]
    have e3 : 0 ≤ misfit lowRay (calcIntensities lowRay ![1, 1, 5]) y := Finset.sum_nonneg fun _ _ => sq_nonneg _
    have e4 : 0 ≤ roughness y := by
      unfold roughness
      rw [if_pos le_rfl]
      exact Finset.sum_nonneg fun _ _ => sq_nonneg _
    linarith
  · exfalso
    have := hg 0
    rw [gradient_aug, Fin.sum_univ_one, hop] at this
    simp [lowRay] at this
    linarith
  · unfold depth
    rw [Fin.sum_univ_three, Fin.sum_univ_three]
    simp
    norm_num

/-- Smoke 9, 2, 2 is reported as 8, 4, 1: squared errors 1 + 4 + 1, and the bound is 49. -/
example : lossError levelRays ![8, 4, 1] ![9, 2, 2] = 6 ∧ bending (![9, 2, 2] : Fin 3 → ℝ) = 49 := by
  constructor
  · unfold lossError
    rw [Fin.sum_univ_three]
    simp only [levelRays_depth]
    show ((8 : ℝ) - 9) ^ 2 + (4 - 2) ^ 2 + (1 - 2) ^ 2 = 6
    norm_num
  · unfold bending
    rw [Fin.sum_univ_one]
    show ((9 : ℝ) - 2 * 2 + 2) ^ 2 = 49
    norm_num

end Ledsa
