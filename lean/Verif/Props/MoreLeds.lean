import Verif.Props.Robust
import Mathlib.Data.Fin.VecNotation
import Mathlib.Tactic.FinCases

/-!
# A further LED

What one more LED in an LED array does to the coefficients: nothing if its light agrees with the profile found without it or if
its line of sight runs outside the layers; otherwise the profile moves towards its measurement and not past it.
-/

namespace Ledsa

/-- The distance matrix with one more LED, whose line of sight has the lengths `d` in the layers. -/
def withLed {m n : ℕ} (A : Fin m → Fin n → ℝ) (d : Fin n → ℝ) : Fin (m + 1) → Fin n → ℝ := Fin.cons d A

/-- The relative intensities with that of one more LED. -/
def withLight {m : ℕ} (rel : Fin m → ℝ) (r : ℝ) : Fin (m + 1) → ℝ := Fin.cons r rel

theorem withLed_sum {m n : ℕ} (A : Fin m → Fin n → ℝ) (d : Fin n → ℝ) (lam : ℝ) (rel : Fin m → ℝ) (r : ℝ)
    (f : (Fin n → ℝ) → ℝ → ℝ) :
    ∑ i, f (augMatrix (withLed A d) lam i) (augRhs n (withLight rel r) i) =
      f d (opticalDepth r) + ∑ i, f (augMatrix A lam i) (augRhs n rel i) := by
  rw [Fintype.sum_sum_type, Fintype.sum_sum_type, Fin.sum_univ_succ, add_assoc]
  rfl

theorem withLed_residual {m n : ℕ} (A : Fin m → Fin n → ℝ) (d : Fin n → ℝ) (lam : ℝ) (rel : Fin m → ℝ) (r : ℝ) (y : Fin n → ℝ) :
    residual (augMatrix (withLed A d) lam) (augRhs n (withLight rel r)) y =
      (depth y d - opticalDepth r) ^ 2 + residual (augMatrix A lam) (augRhs n rel) y :=
  withLed_sum A d lam rel r fun B b => (∑ l, B l * y l - b) ^ 2

theorem opticalDepth_ge_zero (r : ℝ) : 0 ≤ opticalDepth r := by
  unfold opticalDepth clip
  rw [neg_nonneg]
  exact Real.log_nonpos (le_min (le_max_of_le_right (by positivity)) zero_le_one) (min_le_right _ _)

/-- **C190.** Let `x` be coefficients of the analysis without the LED, and let the light of the LED be what `x` predicts. Then the
possible results of the analysis with the LED are those of the analysis without it that predict its light, `x` among them. -/
theorem C190_agrees {m n : ℕ} (A : Fin m → Fin n → ℝ) (d : Fin n → ℝ) (hd : ∀ l, 0 ≤ d l) (lam : ℝ) (rel : Fin m → ℝ) (r : ℝ)
    (x : Fin n → ℝ) (h : LinearSolution A lam rel x) (hr : depth x d = opticalDepth r) (y : Fin n → ℝ) :
    LinearSolution (withLed A d) lam (withLight rel r) y ↔ LinearSolution A lam rel y ∧ depth y d = opticalDepth r := by
  have hs : ∀ l, ∑ i, augMatrix (withLed A d) lam i l * augRhs n (withLight rel r) i =
      d l * opticalDepth r + ∑ i, augMatrix A lam i l * augRhs n rel i :=
    fun l => withLed_sum A d lam rel r fun B b => B l * b
  constructor
  · intro h'
    have h1 := h'.minimal x h.nonneg
    rw [withLed_residual, withLed_residual, hr, sub_self] at h1
    have h2 := h.minimal y h'.nonneg
    have h3 : depth y d = opticalDepth r := by
      have : (depth y d - opticalDepth r) ^ 2 ≤ 0 := by linarith
      have := pow_eq_zero_iff two_ne_zero |>.1 (le_antisymm this (sq_nonneg _))
      linarith
    refine ⟨⟨⟨h'.nonneg, fun z hz => ?_⟩, fun h0 => ?_⟩, h3⟩
    · have := h.minimal z hz
      linarith [sq_nonneg (depth y d - opticalDepth r)]
    · apply h'.start
      intro l
      rw [hs, ← hr, h.start h0, depth_zero, mul_zero, zero_add]
      exact h0 l
  · rintro ⟨h1, h2⟩
    refine ⟨⟨h1.nonneg, fun z hz => ?_⟩, fun h0 => ?_⟩
    · rw [withLed_residual, withLed_residual, h2, sub_self]
      have := h1.minimal z hz
      linarith [sq_nonneg (depth z d - opticalDepth r)]
    · apply h1.start
      intro l
      have := h0 l
      rw [hs] at this
      linarith [mul_nonneg (hd l) (opticalDepth_ge_zero r)]

/-- **C190.** If the result without the LED is the only one, it is the only one with the LED. -/
theorem C190_unchanged {m n : ℕ} (A : Fin m → Fin n → ℝ) (d : Fin n → ℝ) (hd : ∀ l, 0 ≤ d l) (lam : ℝ) (rel : Fin m → ℝ) (r : ℝ)
    (x : Fin n → ℝ) (h : ∀ y, LinearSolution A lam rel y ↔ y = x) (hr : depth x d = opticalDepth r) (y : Fin n → ℝ) :
    LinearSolution (withLed A d) lam (withLight rel r) y ↔ y = x := by
  rw [C190_agrees A d hd lam rel r x ((h x).2 rfl) hr, h]
  exact ⟨fun h => h.1, fun h => ⟨h, h ▸ hr⟩⟩

/-- **C190.** An LED whose line of sight runs outside the layers has no influence, whatever its light. -/
theorem C190_outside {m n : ℕ} (A : Fin m → Fin n → ℝ) (lam : ℝ) (rel : Fin m → ℝ) (r : ℝ) (y : Fin n → ℝ) :
    LinearSolution (withLed A 0) lam (withLight rel r) y ↔ LinearSolution A lam rel y := by
  have hs : ∀ l, ∑ i, augMatrix (withLed A 0) lam i l * augRhs n (withLight rel r) i =
      ∑ i, augMatrix A lam i l * augRhs n rel i := fun l => by
    rw [withLed_sum A 0 lam rel r fun B b => B l * b]
    simp
  have hz : ∀ z : Fin n → ℝ, depth z 0 = 0 := fun z => by simp [depth]
  constructor
  · intro h
    refine ⟨⟨h.nonneg, fun z hz' => ?_⟩, fun h0 => h.start fun l => by rw [hs]; exact h0 l⟩
    have := h.minimal z hz'
    rw [withLed_residual, withLed_residual, hz, hz] at this
    linarith
  · intro h
    refine ⟨⟨h.nonneg, fun z hz' => ?_⟩, fun h0 => h.start fun l => by rw [← hs]; exact h0 l⟩
    have := h.minimal z hz'
    rw [withLed_residual, withLed_residual, hz, hz]
    linarith

/-- **C190.** An LED that does not agree moves the profile towards its measurement and not past it: the optical depth along its
line of sight with the LED lies between that without the LED and the measured one. -/
theorem C190_between {m n : ℕ} (A : Fin m → Fin n → ℝ) (d : Fin n → ℝ) (lam : ℝ) (rel : Fin m → ℝ) (r : ℝ) (x y : Fin n → ℝ)
    (h : LinearSolution A lam rel x) (h' : LinearSolution (withLed A d) lam (withLight rel r) y) :
    (depth x d ≤ depth y d ∧ depth y d ≤ opticalDepth r) ∨ (opticalDepth r ≤ depth y d ∧ depth y d ≤ depth x d) := by
  have h1 := minimiser_pythagoras _ _ x h.toIsMinimiser y h'.nonneg
  have h2 := minimiser_pythagoras _ _ y h'.toIsMinimiser x h.nonneg
  rw [withLed_residual, withLed_residual, withLed_sum A d lam rel r fun B _ => (∑ l, B l * (y l - x l)) ^ 2] at h2
  have e : ∑ l, d l * (y l - x l) = depth y d - depth x d := by
    unfold depth
    rw [← Finset.sum_sub_distrib]
    exact Finset.sum_congr rfl fun l _ => by ring
  rw [e] at h2
  have h3 : 0 ≤ ∑ i, (∑ l, augMatrix A lam i l * (x l - y l)) ^ 2 := Finset.sum_nonneg fun _ _ => sq_nonneg _
  have h4 : 0 ≤ ∑ i, (∑ l, augMatrix A lam i l * (y l - x l)) ^ 2 := Finset.sum_nonneg fun _ _ => sq_nonneg _
  have h5 : 0 ≤ (depth y d - opticalDepth r) * (depth x d - depth y d) := by nlinarith
  rcases mul_nonneg_iff.1 h5 with ⟨a, b⟩ | ⟨a, b⟩
  · exact .inr ⟨by linarith, by linarith⟩
  · exact .inl ⟨by linarith, by linarith⟩

/-- **C190.** The other LEDs are then fitted no better than before. -/
theorem C190_others {m n : ℕ} (A : Fin m → Fin n → ℝ) (d : Fin n → ℝ) (lam : ℝ) (rel : Fin m → ℝ) (r : ℝ) (x y : Fin n → ℝ)
    (h : LinearSolution A lam rel x) (h' : LinearSolution (withLed A d) lam (withLight rel r) y) :
    residual (augMatrix A lam) (augRhs n rel) x ≤ residual (augMatrix A lam) (augRhs n rel) y := h.minimal y h'.nonneg

/-- Two layers; the first LED is seen through both, the second only through the second. -/
def stepRays : Fin 2 → Fin 2 → ℝ := ![![1, 1], ![0, 1]]

/-- **C190** (refuted): an LED can change the coefficients of layers that its line of sight does not cross. Two layers without
regularisation: two LEDs give the coefficients 1 and 1; a third LED, seen through the first layer only and darker than these
coefficients predict, lowers the coefficient of the second layer to 2/3. -/
theorem C190_layers_false : (∀ x, LinearSolution stepRays 0 ![Real.exp (-2), Real.exp (-1)] x ↔ x = ![1, 1]) ∧
    ∀ x, LinearSolution (withLed stepRays ![1, 0]) 0 (withLight ![Real.exp (-2), Real.exp (-1)] (Real.exp (-2))) x ↔
      x = ![5 / 3, 2 / 3] := by
  have hl : (2 : ℝ) ≤ 10 * Real.log 10 := by
    have : (1 : ℝ) ≤ Real.log 10 := by
      rw [Real.le_log_iff_exp_le (by norm_num)]
      exact (Real.exp_one_lt_d9.le).trans (by norm_num)
    linarith
  have o2 : opticalDepth (Real.exp (-2)) = 2 := opticalDepth_exp (by norm_num) hl
  have o1 : opticalDepth (Real.exp (-1)) = 1 := opticalDepth_exp (by norm_num) (by linarith)
  have hres : ∀ y : Fin 2 → ℝ, residual (augMatrix stepRays 0) (augRhs 2 ![Real.exp (-2), Real.exp (-1)]) y =
      (y 0 + y 1 - 2) ^ 2 + (y 1 - 1) ^ 2 := by
    intro y
    unfold residual
    rw [Fintype.sum_sum_type, Fin.sum_univ_two]
    simp only [augMatrix, augRhs, stepRays, Real.sqrt_zero, Fin.sum_univ_two, Matrix.cons_val_zero, Matrix.cons_val_one]
    simp [o1, o2]
  have hcol : ∀ l, ∑ i, augMatrix stepRays 0 i l * augRhs 2 ![Real.exp (-2), Real.exp (-1)] i = stepRays 0 l * 2 + stepRays 1 l * 1 := by
    intro l
    rw [Fintype.sum_sum_type, Fin.sum_univ_two]
    simp only [augMatrix, augRhs, Matrix.cons_val_zero, Matrix.cons_val_one, o1, o2]
    simp
  constructor
  · intro x
    constructor
    · intro h
      have h1 := h.minimal ![1, 1] (by intro l; fin_cases l <;> norm_num)
      rw [hres, hres] at h1
      simp only [Matrix.cons_val_zero, Matrix.cons_val_one] at h1
      have h2 : x 1 = 1 := by nlinarith [sq_nonneg (x 0 + x 1 - 2), sq_nonneg (x 1 - 1)]
      have h3 : x 0 = 1 := by rw [h2] at h1; nlinarith [sq_nonneg (x 0 - 1)]
      ext l; fin_cases l <;> simp [h2, h3]
    · rintro rfl
      refine ⟨⟨by intro l; fin_cases l <;> norm_num, fun y _ => ?_⟩, fun h0 => ?_⟩
      · rw [hres, hres]
        simp only [Matrix.cons_val_zero, Matrix.cons_val_one]
        nlinarith [sq_nonneg (y 0 + y 1 - 2), sq_nonneg (y 1 - 1)]
      · have := h0 0
        rw [hcol] at this
        simp [stepRays] at this
        linarith
  · intro x
    have hd : ∀ y : Fin 2 → ℝ, depth y ![1, 0] = y 0 := fun y => by simp [depth, Fin.sum_univ_two]
    constructor
    · intro h
      have h1 := h.minimal ![5 / 3, 2 / 3] (by intro l; fin_cases l <;> norm_num)
      rw [withLed_residual, withLed_residual, hres, hres, hd, hd, o2] at h1
      simp only [Matrix.cons_val_zero, Matrix.cons_val_one] at h1
      have h2 : (x 0 - 5 / 3 + (x 1 - 2 / 3)) ^ 2 + (x 1 - 2 / 3) ^ 2 + (x 0 - 5 / 3) ^ 2 ≤ 0 := by nlinarith
      have h3 : x 0 - 5 / 3 = 0 := by
        nlinarith [sq_nonneg (x 0 - 5 / 3 + (x 1 - 2 / 3)), sq_nonneg (x 1 - 2 / 3), sq_nonneg (x 0 - 5 / 3)]
      have h4 : x 1 - 2 / 3 = 0 := by
        nlinarith [sq_nonneg (x 0 - 5 / 3 + (x 1 - 2 / 3)), sq_nonneg (x 1 - 2 / 3), sq_nonneg (x 0 - 5 / 3)]
      ext l; fin_cases l
      · show x 0 = 5 / 3
        linarith
      · show x 1 = 2 / 3
        linarith
    · rintro rfl
      refine ⟨⟨by intro l; fin_cases l <;> norm_num, fun y _ => ?_⟩, fun h0 => ?_⟩
      · rw [withLed_residual, withLed_residual, hres, hres, hd, hd, o2]
        simp only [Matrix.cons_val_zero, Matrix.cons_val_one]
        nlinarith [sq_nonneg (y 0 - 5 / 3 + (y 1 - 2 / 3)), sq_nonneg (y 1 - 2 / 3), sq_nonneg (y 0 - 5 / 3)]
      · have := h0 1
        rw [withLed_sum stepRays _ 0 _ _ fun B b => B 1 * b, hcol] at this
        simp [stepRays] at this
        linarith

/-- Every LED twice. -/
def everyLedTwice {m : ℕ} {α : Type} (f : Fin m → α) : Fin (m + m) → α := Fin.append f f

/-- **C190.** An array in which every LED appears twice gives what half the regularisation gives for the array itself: the more
LEDs, the weaker a given `lambda_reg`. -/
theorem C190_twice {m n : ℕ} (A : Fin m → Fin n → ℝ) (lam : ℝ) (hl : 0 ≤ lam) (rel : Fin m → ℝ) (y : Fin n → ℝ) :
    LinearSolution (everyLedTwice A) lam (everyLedTwice rel) y ↔ LinearSolution A (lam / 2) rel y := by
  have hsum : ∀ (f : (Fin n → ℝ) → ℝ → ℝ), ∑ i : Fin (m + m), f (everyLedTwice A i) (opticalDepth (everyLedTwice rel i)) =
      2 * ∑ i, f (A i) (opticalDepth (rel i)) := by
    intro f
    rw [Fin.sum_univ_add, two_mul]
    congr 1
    · exact Finset.sum_congr rfl fun i _ => by rw [everyLedTwice, everyLedTwice, Fin.append_left, Fin.append_left]
    · exact Finset.sum_congr rfl fun i _ => by rw [everyLedTwice, everyLedTwice, Fin.append_right, Fin.append_right]
  have hh : Real.sqrt lam ^ 2 = 2 * Real.sqrt (lam / 2) ^ 2 := by
    rw [Real.sq_sqrt hl, Real.sq_sqrt (by linarith)]
    ring
  have hres : ∀ z, residual (augMatrix (everyLedTwice A) lam) (augRhs n (everyLedTwice rel)) z =
      2 * residual (augMatrix A (lam / 2)) (augRhs n rel) z := by
    intro z
    unfold residual
    rw [Fintype.sum_sum_type, Fintype.sum_sum_type, mul_add]
    congr 1
    · exact hsum fun B b => (∑ l, B l * z l - b) ^ 2
    · rw [Finset.mul_sum]
      refine Finset.sum_congr rfl fun i _ => ?_
      simp only [augMatrix, augRhs, sub_zero, mul_assoc, ← Finset.mul_sum, mul_pow]
      rw [hh]
      ring
  have hcol : ∀ l, ∑ i, augMatrix (everyLedTwice A) lam i l * augRhs n (everyLedTwice rel) i =
      2 * ∑ i, augMatrix A (lam / 2) i l * augRhs n rel i := by
    intro l
    rw [Fintype.sum_sum_type, Fintype.sum_sum_type, mul_add]
    congr 1
    · exact hsum fun B b => B l * b
    · simp [augRhs]
  constructor
  · intro h
    refine ⟨⟨h.nonneg, fun z hz => ?_⟩, fun h0 => h.start fun l => by rw [hcol]; linarith [h0 l]⟩
    have := h.minimal z hz
    rw [hres, hres] at this
    linarith
  · intro h
    refine ⟨⟨h.nonneg, fun z hz => ?_⟩, fun h0 => h.start fun l => by have := h0 l; rw [hcol] at this; linarith⟩
    have := h.minimal z hz
    rw [hres, hres]
    linarith

/-- **C190.** For the nonlinear solver even an LED outside the layers, with unchanged light, matters: it acts like larger weights. -/
theorem C190_nonlinear {m n : ℕ} (hm : 0 < m) (A : Fin m → Fin n → ℝ) (wCurv wPref : ℝ) (target : Fin m → ℝ) (σ : Fin n → ℝ) :
    costFunction (withLed A 0) wCurv wPref (withLight target 1) σ =
      m / (m + 1) * costFunction A (wCurv * ((m + 1) / m) ^ 2) (wPref * ((m + 1) / m)) target σ := by
  have hm' : (m : ℝ) ≠ 0 := by exact_mod_cast hm.ne'
  have hm1 : (m : ℝ) + 1 ≠ 0 := by positivity
  have h1 : rayIntensity σ (0 : Fin n → ℝ) = 1 := by
    unfold rayIntensity
    have : ∀ L : List (Fin n), L.foldl (fun acc l => acc * Real.exp (-σ l * (0 : Fin n → ℝ) l)) 1 = 1 := by
      intro L
      induction L with
      | nil => rfl
      | cons a L ih => simp
    exact this _
  have h2 : ∑ led, (calcIntensities (withLed A 0) σ led - withLight target 1 led) ^ 2 =
      ∑ led, (calcIntensities A σ led - target led) ^ 2 := by
    rw [Fin.sum_univ_succ]
    have : calcIntensities (withLed A 0) σ 0 - withLight target 1 0 = 0 := by
      show rayIntensity σ (0 : Fin n → ℝ) - 1 = 0
      rw [h1, sub_self]
    rw [this]
    simp only [ne_eq, OfNat.ofNat_ne_zero, not_false_eq_true, zero_pow, zero_add]
    rfl
  unfold costFunction rmse curvature preference
  rw [h2]
  push_cast
  field_simp

-- a third LED seen through both layers and as bright as the first one changes nothing
example (y : Fin 2 → ℝ) : LinearSolution (withLed stepRays ![1, 1]) 0 (withLight ![Real.exp (-2), Real.exp (-1)] (Real.exp (-2))) y ↔
    y = ![1, 1] := by
  refine C190_unchanged stepRays _ (by intro l; fin_cases l <;> norm_num) 0 _ _ _ C190_layers_false.1 ?_ y
  rw [opticalDepth_exp (by norm_num) (by
    have : (1 : ℝ) ≤ Real.log 10 := by
      rw [Real.le_log_iff_exp_le (by norm_num)]
      exact (Real.exp_one_lt_d9.le).trans (by norm_num)
    linarith)]
  simp [depth, Fin.sum_univ_two]
  norm_num

end Ledsa
