import Verif.Props.Robust
import Verif.Props.Positions
/-
C129, C130: errors of the LED positions.
-/
namespace Ledsa

open MeasureTheory

variable {D : Type} [LinearOrder D] [Add D] [Mul D]

/-! ### Distances -/

theorem euclid_nonneg (p q : P3) : 0 ≤ euclid p q := Real.sqrt_nonneg _

/-- Cauchy's inequality in three dimensions, the form used for the triangle inequality. -/
theorem sqrt_add_le3 (a b c x y z : ℝ) :
    Real.sqrt ((a + x) ^ 2 + (b + y) ^ 2 + (c + z) ^ 2) ≤ Real.sqrt (a ^ 2 + b ^ 2 + c ^ 2) + Real.sqrt (x ^ 2 + y ^ 2 + z ^ 2) := by
  set u := Real.sqrt (a ^ 2 + b ^ 2 + c ^ 2) with hu
  set v := Real.sqrt (x ^ 2 + y ^ 2 + z ^ 2) with hv
  have u0 : 0 ≤ u := Real.sqrt_nonneg _
  have v0 : 0 ≤ v := Real.sqrt_nonneg _
  have u2 : u ^ 2 = a ^ 2 + b ^ 2 + c ^ 2 := Real.sq_sqrt (by positivity)
  have v2 : v ^ 2 = x ^ 2 + y ^ 2 + z ^ 2 := Real.sq_sqrt (by positivity)
  apply Real.sqrt_le_iff.2
  refine ⟨by positivity, ?_⟩
  have hc : a * x + b * y + c * z ≤ u * v := by
    apply le_of_sq_le_sq' _ (by positivity)
    rw [mul_pow, u2, v2]
    nlinarith [sq_nonneg (a * y - b * x), sq_nonneg (a * z - c * x), sq_nonneg (b * z - c * y)]
  nlinarith
where
  le_of_sq_le_sq' {s t : ℝ} (h : s ^ 2 ≤ t ^ 2) (ht : 0 ≤ t) : s ≤ t := by
    by_contra hc
    push Not at hc
    nlinarith

/-- The distance to the camera changes by at most the displacement. -/
theorem euclid_displaced (cam p q : P3) : |euclid cam p - euclid cam q| ≤ euclid p q := by
  have key : ∀ p q : P3, euclid cam p ≤ euclid cam q + euclid p q := by
    intro p q
    unfold euclid
    have := sqrt_add_le3 (cam.1 - q.1) (cam.2.1 - q.2.1) (cam.2.2 - q.2.2) (q.1 - p.1) (q.2.1 - p.2.1) (q.2.2 - p.2.2)
    rw [show (q.1 - p.1) ^ 2 + (q.2.1 - p.2.1) ^ 2 + (q.2.2 - p.2.2) ^ 2 = (p.1 - q.1) ^ 2 + (p.2.1 - q.2.1) ^ 2 + (p.2.2 - q.2.2) ^ 2 by ring] at this
    simpa using this
  have hs : euclid q p = euclid p q := by
    unfold euclid
    congr 1
    ring
  rw [abs_le]
  have h1 := key p q
  have h2 := key q p
  rw [hs] at h2
  constructor <;> linarith

theorem height_le_euclid (p q : P3) : |p.2.2 - q.2.2| ≤ euclid p q := by
  unfold euclid
  apply Real.abs_le_sqrt
  nlinarith [sq_nonneg (p.1 - q.1), sq_nonneg (p.2.1 - q.2.1)]

/-! ### The mean extinction along a ray -/

theorem extinctionAt_bounds (lo hi : ℝ) (h : lo < hi) {n : ℕ} (σ : Fin n → ℝ) (S : ℝ) (hS : 0 ≤ S) (hσ : ∀ k, 0 ≤ σ k ∧ σ k ≤ S) (z : ℝ) :
    0 ≤ extinctionAt lo hi σ z ∧ extinctionAt lo hi σ z ≤ S := by
  classical
  unfold extinctionAt
  by_cases hex : ∃ k : Fin n, lo + (k : ℕ) * ((hi - lo) / n) ≤ z ∧ z < lo + ((k : ℕ) + 1) * ((hi - lo) / n)
  · obtain ⟨k, hk⟩ := hex
    have hn : (0 : ℝ) < n := by exact_mod_cast k.pos
    have hw : 0 < (hi - lo) / n := div_pos (by linarith) hn
    rw [Finset.sum_eq_single k]
    · rw [if_pos hk]
      exact hσ k
    · intro j _ hj
      rw [if_neg]
      rintro ⟨h1, h2⟩
      apply hj
      have a1 : ((j : ℕ) : ℝ) < (k : ℕ) + 1 := by
        by_contra hc
        push Not at hc
        have := mul_le_mul_of_nonneg_right hc hw.le
        linarith [hk.2]
      have a2 : ((k : ℕ) : ℝ) < (j : ℕ) + 1 := by
        by_contra hc
        push Not at hc
        have := mul_le_mul_of_nonneg_right hc hw.le
        linarith [hk.1]
      have a1' : (j : ℕ) < (k : ℕ) + 1 := by exact_mod_cast a1
      have a2' : (k : ℕ) < (j : ℕ) + 1 := by exact_mod_cast a2
      exact Fin.ext (by omega)
    · intro hk'
      exact absurd (Finset.mem_univ k) hk'
  · rw [Finset.sum_eq_zero]
    · exact ⟨le_rfl, hS⟩
    · intro k _
      rw [if_neg]
      exact fun hk => hex ⟨k, hk⟩

theorem extinctionAt_measurable (lo hi : ℝ) {n : ℕ} (σ : Fin n → ℝ) : Measurable (extinctionAt lo hi σ) := by
  classical
  unfold extinctionAt
  refine Finset.measurable_sum _ fun k _ => ?_
  exact Measurable.ite (measurableSet_Ico (a := lo + (k : ℕ) * ((hi - lo) / n)) (b := lo + ((k : ℕ) + 1) * ((hi - lo) / n))) measurable_const
    measurable_const

theorem extinctionAt_integrable (lo hi : ℝ) (h : lo < hi) {n : ℕ} (σ : Fin n → ℝ) (S : ℝ) (hS : 0 ≤ S) (hσ : ∀ k, 0 ≤ σ k ∧ σ k ≤ S) (a b : ℝ) :
    IntervalIntegrable (extinctionAt lo hi σ) volume a b := by
  refine (intervalIntegrable_const (c := S)).mono_fun (extinctionAt_measurable lo hi σ).aestronglyMeasurable ?_
  refine Filter.Eventually.of_forall fun z => ?_
  obtain ⟨h1, h2⟩ := extinctionAt_bounds lo hi h σ S hS hσ z
  simp only
  rw [Real.norm_of_nonneg h1, Real.norm_of_nonneg hS]
  exact h2

/-- The mean of `e` between the heights `c` and `z`. -/
noncomputable def meanBetween (e : ℝ → ℝ) (c z : ℝ) : ℝ := ∫ t in (0 : ℝ)..1, e (c + t * (z - c))

theorem meanBetween_ne (e : ℝ → ℝ) (c z : ℝ) (h : z ≠ c) : meanBetween e c z = (z - c)⁻¹ * ∫ x in c..z, e x := by
  unfold meanBetween
  have h0 : z - c ≠ 0 := sub_ne_zero.2 h
  have := intervalIntegral.integral_comp_add_mul (a := 0) (b := 1) e h0 c
  simp only [mul_zero, add_zero, mul_one, add_sub_cancel, smul_eq_mul] at this
  rw [← this]
  simp only [mul_comm]

theorem meanBetween_self (e : ℝ → ℝ) (c : ℝ) : meanBetween e c c = e c := by
  unfold meanBetween
  simp

/-- Both heights on one side of the camera, the first nearer. -/
theorem mean_outwards (e : ℝ → ℝ) (S : ℝ) (he : ∀ z, 0 ≤ e z ∧ e z ≤ S) (hi : ∀ a b, IntervalIntegrable e volume a b) (c δ s : ℝ)
    (hδ : 0 < δ) (hc : ∀ z, |z - c| < δ → e z = s) (z z' : ℝ) (h1 : z ≠ c) (h2 : 0 < (z - c) * (z' - c)) (h3 : |z - c| ≤ |z' - c|) :
    |meanBetween e c z' - meanBetween e c z| ≤ S * |z' - z| / δ := by
  have hS : 0 ≤ S := (he 0).1.trans (he 0).2
  have h1' : z' ≠ c := by rintro rfl; simp at h2
  have d1 : z - c ≠ 0 := sub_ne_zero.2 h1
  have d2 : z' - c ≠ 0 := sub_ne_zero.2 h1'
  have mean_bounds : 0 ≤ meanBetween e c z ∧ meanBetween e c z ≤ S := by
    unfold meanBetween
    have hint : IntervalIntegrable (fun t : ℝ => e (c + t * (z - c))) volume 0 1 := by
      have := (hi (c + 0) (c + (z - c))).comp_add_left c
      have h2 := this.comp_mul_left (c := z - c)
      simp only [add_sub_cancel_left, zero_div, div_self d1, mul_comm] at h2
      simpa [mul_comm, d1] using h2
    constructor
    · exact intervalIntegral.integral_nonneg zero_le_one fun t _ => (he _).1
    · have := intervalIntegral.integral_mono_on zero_le_one hint (intervalIntegrable_const (c := S)) fun t _ => (he _).2
      simpa using this
  by_cases hnear : |z' - c| < δ
  · -- both inside the slice of the camera
    have hconst : ∀ w, |w - c| < δ → w ≠ c → meanBetween e c w = s := by
      intro w hw _
      unfold meanBetween
      rw [intervalIntegral.integral_congr (g := fun _ => s)]
      · simp
      · intro t ht
        rw [Set.uIcc_of_le zero_le_one] at ht
        apply hc
        rw [add_sub_cancel_left, abs_mul, abs_of_nonneg ht.1]
        calc t * |w - c| ≤ 1 * |w - c| := mul_le_mul_of_nonneg_right ht.2 (abs_nonneg _)
          _ < δ := by rwa [one_mul]
    rw [hconst z' hnear h1', hconst z (lt_of_le_of_lt h3 hnear) h1, sub_self, abs_zero]
    positivity
  · push Not at hnear
    have hsplit : ∫ x in c..z', e x = (∫ x in c..z, e x) + ∫ x in z..z', e x := (intervalIntegral.integral_add_adjacent_intervals (hi c z) (hi z z')).symm
    have hmz : ∫ x in c..z, e x = (z - c) * meanBetween e c z := by
      rw [meanBetween_ne e c z h1]
      field_simp
    have hdiff : meanBetween e c z' - meanBetween e c z = (z' - c)⁻¹ * ((∫ x in z..z', e x) - (z' - z) * meanBetween e c z) := by
      rw [meanBetween_ne e c z' h1', hsplit, hmz]
      field_simp
      ring
    have hb : |(∫ x in z..z', e x) - (z' - z) * meanBetween e c z| ≤ S * |z' - z| := by
      have : (∫ x in z..z', e x) - (z' - z) * meanBetween e c z = ∫ x in z..z', (e x - meanBetween e c z) := by
        rw [intervalIntegral.integral_sub (hi z z') intervalIntegrable_const]
        simp
      rw [this, ← Real.norm_eq_abs]
      apply intervalIntegral.norm_integral_le_of_norm_le_const
      intro x _
      rw [Real.norm_eq_abs, abs_le]
      have := he x
      constructor <;> linarith [mean_bounds.1, mean_bounds.2, this.1, this.2]
    rw [hdiff, abs_mul, abs_inv]
    calc |z' - c|⁻¹ * |(∫ x in z..z', e x) - (z' - z) * meanBetween e c z| ≤ δ⁻¹ * (S * |z' - z|) := by
          apply mul_le_mul (inv_anti₀ hδ hnear) hb (abs_nonneg _) (by positivity)
      _ = S * |z' - z| / δ := by ring

/-- From the camera outwards. -/
theorem mean_from_camera (e : ℝ → ℝ) (S : ℝ) (he : ∀ z, 0 ≤ e z ∧ e z ≤ S) (hi : ∀ a b, IntervalIntegrable e volume a b) (c δ s : ℝ)
    (hδ : 0 < δ) (hc : ∀ z, |z - c| < δ → e z = s) (z : ℝ) : |meanBetween e c z - meanBetween e c c| ≤ S * |z - c| / δ := by
  have hS : 0 ≤ S := (he 0).1.trans (he 0).2
  rw [meanBetween_self]
  by_cases h : z = c
  · rw [h, meanBetween_self, sub_self, abs_zero]
    positivity
  · have hs : e c = s := hc c (by simpa using hδ)
    have : e c = meanBetween e c c := (meanBetween_self e c).symm
    have h0 : z - c ≠ 0 := sub_ne_zero.2 h
    have hval : meanBetween e c z - e c = (z - c)⁻¹ * ∫ x in c..z, (e x - s) := by
      rw [meanBetween_ne e c z h, intervalIntegral.integral_sub (hi c z) intervalIntegrable_const, hs]
      simp only [intervalIntegral.integral_const, smul_eq_mul]
      field_simp
    by_cases hnear : |z - c| < δ
    · have hz0 : ∫ x in c..z, (e x - s) = 0 := by
        rw [intervalIntegral.integral_congr (g := fun _ => 0)]
        · simp
        · intro x hx
          have hx' : |x - c| ≤ |z - c| := by
            rcases Set.mem_uIcc.1 hx with ⟨a, b⟩ | ⟨a, b⟩
            · rw [abs_of_nonneg (by linarith), abs_of_nonneg (by linarith)]
              linarith
            · rw [abs_of_nonpos (by linarith), abs_of_nonpos (by linarith)]
              linarith
          simp only
          rw [hc x (lt_of_le_of_lt hx' hnear), sub_self]
      rw [hval, hz0, mul_zero, abs_zero]
      positivity
    · push Not at hnear
      have hb : |∫ x in c..z, (e x - s)| ≤ S * |z - c| := by
        rw [← Real.norm_eq_abs]
        apply intervalIntegral.norm_integral_le_of_norm_le_const
        intro x _
        rw [Real.norm_eq_abs, abs_le]
        have h1 := he x
        have h2 := he c
        rw [hs] at h2
        constructor <;> linarith [h1.1, h1.2, h2.1, h2.2]
      rw [hval, abs_mul, abs_inv]
      calc |z - c|⁻¹ * |∫ x in c..z, (e x - s)| ≤ δ⁻¹ * (S * |z - c|) := by
            apply mul_le_mul (inv_anti₀ hδ hnear) hb (abs_nonneg _) (by positivity)
        _ = S * |z - c| / δ := by ring

/-- The mean extinction depends on the height of the LED with the constant `S / δ`. -/
theorem mean_lipschitz (e : ℝ → ℝ) (S : ℝ) (he : ∀ z, 0 ≤ e z ∧ e z ≤ S) (hi : ∀ a b, IntervalIntegrable e volume a b) (c δ s : ℝ)
    (hδ : 0 < δ) (hc : ∀ z, |z - c| < δ → e z = s) (z z' : ℝ) : |meanBetween e c z - meanBetween e c z'| ≤ S * |z - z'| / δ := by
  have hS : 0 ≤ S := (he 0).1.trans (he 0).2
  by_cases hside : 0 < (z - c) * (z' - c)
  · have h1 : z ≠ c := by rintro rfl; simp at hside
    have h1' : z' ≠ c := by rintro rfl; simp at hside
    rcases le_total |z - c| |z' - c| with h | h
    · have := mean_outwards e S he hi c δ s hδ hc z z' h1 hside h
      rwa [abs_sub_comm, abs_sub_comm z' z] at this
    · exact mean_outwards e S he hi c δ s hδ hc z' z h1' (by rwa [mul_comm]) h
  · push Not at hside
    have a := mean_from_camera e S he hi c δ s hδ hc z
    have b := mean_from_camera e S he hi c δ s hδ hc z'
    rw [abs_sub_comm] at b
    have hsum : |z - z'| = |z - c| + |z' - c| := by
      rcases le_total z c with h | h <;> rcases le_total z' c with h' | h'
      · have : (z - c) * (z' - c) = 0 := le_antisymm hside (mul_nonneg_of_nonpos_of_nonpos (by linarith) (by linarith))
        rcases mul_eq_zero.1 this with h0 | h0
        · rw [h0, abs_zero, zero_add, show z = c by linarith, abs_sub_comm]
        · rw [h0, abs_zero, add_zero, show z' = c by linarith]
      · rw [abs_of_nonpos (by linarith : z - z' ≤ 0), abs_of_nonpos (by linarith : z - c ≤ 0), abs_of_nonneg (by linarith : 0 ≤ z' - c)]
        ring
      · rw [abs_of_nonneg (by linarith : 0 ≤ z - z'), abs_of_nonneg (by linarith : 0 ≤ z - c), abs_of_nonpos (by linarith : z' - c ≤ 0)]
        ring
      · have : (z - c) * (z' - c) = 0 := le_antisymm hside (mul_nonneg (by linarith) (by linarith))
        rcases mul_eq_zero.1 this with h0 | h0
        · rw [h0, abs_zero, zero_add, show z = c by linarith, abs_sub_comm]
        · rw [h0, abs_zero, add_zero, show z' = c by linarith]
    calc |meanBetween e c z - meanBetween e c z'| = |(meanBetween e c z - meanBetween e c c) + (meanBetween e c c - meanBetween e c z')| := by congr 1; ring
      _ ≤ _ := abs_add_le _ _
      _ ≤ S * |z - c| / δ + S * |z' - c| / δ := add_le_add a b
      _ = S * |z - z'| / δ := by rw [hsum]; ring

/-! ### C129 -/

/-- The camera is in a layer, at least `δ` below its top and above its bottom. -/
def CameraClear (lo hi : ℝ) (n : ℕ) (δ z : ℝ) : Prop :=
  ∃ k < n, lo + k * ((hi - lo) / n) + δ ≤ z ∧ z + δ ≤ lo + (k + 1) * ((hi - lo) / n)

theorem extinctionAt_slice (lo hi : ℝ) (h : lo < hi) {n : ℕ} (σ : Fin n → ℝ) (k : Fin n) (z : ℝ)
    (hz : lo + (k : ℕ) * ((hi - lo) / n) ≤ z ∧ z < lo + ((k : ℕ) + 1) * ((hi - lo) / n)) : extinctionAt lo hi σ z = σ k := by
  classical
  unfold extinctionAt
  have hn : (0 : ℝ) < n := by exact_mod_cast k.pos
  have hw : 0 < (hi - lo) / n := div_pos (by linarith) hn
  rw [Finset.sum_eq_single k]
  · rw [if_pos hz]
  · intro j _ hj
    rw [if_neg]
    rintro ⟨h1, h2⟩
    apply hj
    have a1 : ((j : ℕ) : ℝ) < (k : ℕ) + 1 := by
      by_contra hc
      push Not at hc
      have := mul_le_mul_of_nonneg_right hc hw.le
      linarith [hz.2]
    have a2 : ((k : ℕ) : ℝ) < (j : ℕ) + 1 := by
      by_contra hc
      push Not at hc
      have := mul_le_mul_of_nonneg_right hc hw.le
      linarith [hz.1]
    have a1' : (j : ℕ) < (k : ℕ) + 1 := by exact_mod_cast a1
    have a2' : (k : ℕ) < (j : ℕ) + 1 := by exact_mod_cast a2
    exact Fin.ext (by omega)
  · intro hk'
    exact absurd (Finset.mem_univ k) hk'

/-- **C129, optical depth.** An LED at `q` instead of `p` changes the optical depth of its line of sight by at most
`S · |p - q| · (1 + L / δ)`: `S` the largest coefficient, `L` the length of the line, `δ` the distance of the camera to the next border. -/
theorem C129_depth (cam p q : P3) (lo hi : ℝ) (h : lo < hi) {n : ℕ} (σ : Fin n → ℝ) (S : ℝ) (hσ : ∀ k, 0 ≤ σ k ∧ σ k ≤ S) (δ : ℝ) (hδ : 0 < δ)
    (hcam : CameraClear lo hi n δ cam.2.2) :
    |lineDepth cam p lo hi σ - lineDepth cam q lo hi σ| ≤ S * euclid p q * (1 + euclid cam p / δ) := by
  obtain ⟨k, hk, hk1, hk2⟩ := hcam
  have hS : 0 ≤ S := (hσ ⟨k, hk⟩).1.trans (hσ ⟨k, hk⟩).2
  have he := extinctionAt_bounds lo hi h σ S hS hσ
  have hint := extinctionAt_integrable lo hi h σ S hS hσ
  have hconst : ∀ z, |z - cam.2.2| < δ → extinctionAt lo hi σ z = σ ⟨k, hk⟩ := by
    intro z hz
    rw [abs_lt] at hz
    exact extinctionAt_slice lo hi h σ ⟨k, hk⟩ z ⟨by simp only; linarith, by simp only; linarith⟩
  have e1 : ∀ x : P3, lineDepth cam x lo hi σ = euclid cam x * meanBetween (extinctionAt lo hi σ) cam.2.2 x.2.2 := fun x => rfl
  have hl := mean_lipschitz _ S he hint cam.2.2 δ _ hδ hconst p.2.2 q.2.2
  have hq : |meanBetween (extinctionAt lo hi σ) cam.2.2 q.2.2| ≤ S := by
    unfold meanBetween
    have := intervalIntegral.norm_integral_le_of_norm_le_const (a := 0) (b := 1) (f := fun t : ℝ => extinctionAt lo hi σ (cam.2.2 + t * (q.2.2 - cam.2.2))) (C := S)
      (fun t _ => by rw [Real.norm_of_nonneg (he _).1]; exact (he _).2)
    simpa using this
  rw [e1, e1]
  set A := meanBetween (extinctionAt lo hi σ) cam.2.2 p.2.2
  set B := meanBetween (extinctionAt lo hi σ) cam.2.2 q.2.2
  have hsplit : euclid cam p * A - euclid cam q * B = euclid cam p * (A - B) + (euclid cam p - euclid cam q) * B := by ring
  rw [hsplit]
  have c1 : |euclid cam p * (A - B)| ≤ euclid cam p * (S * euclid p q / δ) := by
    rw [abs_mul, abs_of_nonneg (euclid_nonneg _ _)]
    apply mul_le_mul_of_nonneg_left _ (euclid_nonneg _ _)
    refine hl.trans ?_
    gcongr
    exact height_le_euclid p q
  have c2 : |(euclid cam p - euclid cam q) * B| ≤ euclid p q * S := by
    rw [abs_mul]
    exact mul_le_mul (euclid_displaced cam p q) hq (abs_nonneg _) (euclid_nonneg _ _)
  calc _ ≤ _ := abs_add_le _ _
    _ ≤ _ := add_le_add c1 c2
    _ = S * euclid p q * (1 + euclid cam p / δ) := by ring

/-- **C129, partial.** The computed distances in every layer change by at most `|p - q| · (1 + L / δ)` if an LED is at `q` instead of `p`, if
the camera is not at a border of a layer. Missing (and false): cameras at a border. -/
theorem C129_layers_partial (cam p q : P3) (lo hi : ℝ) (n : ℕ) (hn : 1 ≤ n) (h : lo < hi) (hp : RayInDomain cam p lo hi) (hq : RayInDomain cam q lo hi)
    (δ : ℝ) (hδ : 0 < δ) (hcam : CameraClear lo hi n δ cam.2.2) :
    ∃ ds ds', distPerLayer cam p (layers lo hi n) = .dists ds ∧ distPerLayer cam q (layers lo hi n) = .dists ds' ∧
      ∀ k < n, |ds.getD k 0 - ds'.getD k 0| ≤ euclid p q * (1 + euclid cam p / δ) := by
  obtain ⟨ds, h1, _, _, h2⟩ := C95_distances cam p lo hi n hn h hp
  obtain ⟨ds', h1', _, _, h2'⟩ := C95_distances cam q lo hi n hn h hq
  refine ⟨ds, ds', h1, h1', ?_⟩
  intro k hk
  have e := C129_depth cam p q lo hi h (fun j : Fin n => if j = ⟨k, hk⟩ then (1 : ℝ) else 0) 1
    (fun j => by by_cases hj : j = ⟨k, hk⟩ <;> simp [hj]) δ hδ hcam
  rw [← h2, ← h2'] at e
  simpa using e

/-- **C129, total length.** The distances of the layers together change by at most the displacement, wherever the camera is. -/
theorem C129_total (cam p q : P3) (lo hi : ℝ) (n : ℕ) (hn : 1 ≤ n) (h : lo < hi) (hp : RayInDomain cam p lo hi) (hq : RayInDomain cam q lo hi) :
    ∃ ds ds', distPerLayer cam p (layers lo hi n) = .dists ds ∧ distPerLayer cam q (layers lo hi n) = .dists ds' ∧
      |ds.sum - ds'.sum| ≤ euclid p q := by
  obtain ⟨ds, h1, _, h2⟩ := C40_sum_partial cam p lo hi n hn h hp.ne hp.cam_in hp.led_in hp.top
  obtain ⟨ds', h1', _, h2'⟩ := C40_sum_partial cam q lo hi n hn h hq.ne hq.cam_in hq.led_in hq.top
  exact ⟨ds, ds', h1, h1', by rw [h2, h2']; exact euclid_displaced cam p q⟩

/-- **C129 refuted** for a camera at a border: LEDs as near to each other as you like, the whole line of sight in different layers. -/
theorem C129_border_false (ε : ℝ) (hε : 0 < ε) (h1 : ε ≤ 1) :
    ∃ ds ds', distPerLayer (0, 0, 1) (5, 0, 1) (layers 0 2 2) = .dists ds ∧ distPerLayer (0, 0, 1) (5, 0, 1 - ε) (layers 0 2 2) = .dists ds' ∧
      euclid (5, 0, 1) (5, 0, 1 - ε) = ε ∧ 5 ≤ |ds.getD 1 0 - ds'.getD 1 0| := by
  have r1 : RayInDomain (0, 0, 1) (5, 0, 1) 0 2 := ⟨by simp, by norm_num, by norm_num, by norm_num⟩
  have r2 : RayInDomain (0, 0, 1) (5, 0, 1 - ε) 0 2 := ⟨by simp, by norm_num, by constructor <;> simp only <;> linarith, by norm_num⟩
  obtain ⟨ds, g1, _, _, g2⟩ := C95_distances _ _ 0 2 2 (by norm_num) (by norm_num) r1
  obtain ⟨ds', g1', _, _, g2'⟩ := C95_distances _ _ 0 2 2 (by norm_num) (by norm_num) r2
  refine ⟨ds, ds', g1, g1', ?_, ?_⟩
  · unfold euclid
    rw [show ((5 : ℝ) - 5) ^ 2 + (0 - 0) ^ 2 + (1 - (1 - ε)) ^ 2 = ε ^ 2 by ring]
    exact Real.sqrt_sq hε.le
  · have a := g2 fun j => if j = 1 then 1 else 0
    have b := g2' fun j => if j = 1 then 1 else 0
    rw [Fin.sum_univ_two] at a b
    simp only [Fin.isValue, zero_ne_one, if_false, mul_zero, if_true, mul_one, zero_add, Fin.val_one] at a b
    rw [a, b]
    rw [lineDepth_horizontal (0, 0, 1) (5, 0, 1) rfl, lineDepth_slanted (0, 0, 1) (5, 0, 1 - ε) (by simp only; intro hc; linarith)]
    have hh : horizontalDist (0, 0, 1) (5, 0, 1) = 5 := by
      unfold horizontalDist
      rw [show ((0 : ℝ) - 5) ^ 2 + (0 - 0) ^ 2 = 5 ^ 2 by norm_num]
      exact Real.sqrt_sq (by norm_num)
    have hx : extinctionAt 0 2 (fun j : Fin 2 => if j = 1 then (1 : ℝ) else 0) 1 = 1 := by
      rw [extinctionAt_slice 0 2 (by norm_num) _ 1 1 (by norm_num)]
      simp
    rw [hh, hx, Fin.sum_univ_two]
    simp only [Fin.isValue, zero_ne_one, if_false, mul_zero, if_true, mul_one, zero_add, Fin.val_one]
    have hz : lengthInside (0, 0, 1) (5, 0, 1 - ε) (border 0 2 2 1) (border 0 2 2 (1 + 1)) = 0 := by
      unfold lengthInside
      rw [volume_inside _ _ _ _ (by simp only; intro hc; linarith), heightInLayer_eq]
      have hb : border 0 2 2 1 = 1 := by unfold border; norm_num
      rw [hb]
      simp only
      rw [max_eq_left (by linarith : 1 - ε ≤ (1 : ℝ)), min_eq_right (by linarith : 1 - ε ≤ (1 : ℝ)), max_eq_right (by linarith : 1 - ε ≤ (1 : ℝ)),
        max_eq_left (by linarith [min_le_left (1 : ℝ) (border 0 2 2 (1 + 1))])]
      simp
    rw [hz]
    norm_num

/-! ### C130: from the measured edge LEDs to the coefficients -/

theorem within_exp {γ x a b : ℝ} (hx : 0 ≤ x) (h : |a - b| ≤ γ) : Within γ (x * Real.exp (-a)) (x * Real.exp (-b)) := by
  rw [abs_le] at h
  constructor
  · rw [mul_assoc, ← Real.exp_add]
    exact mul_le_mul_of_nonneg_left (Real.exp_le_exp.2 (by linarith)) hx
  · rw [mul_assoc, ← Real.exp_add]
    exact mul_le_mul_of_nonneg_left (Real.exp_le_exp.2 (by linarith)) hx

/-- What a displacement of at most `ε` makes of the optical depths, for coefficients up to `S`, lines up to `L` and a camera `δ` from the borders. -/
noncomputable def displacementError (S L δ ε : ℝ) : ℝ := S * ε * (1 + L / δ)

/-- Light of LEDs at `truth` is light of LEDs at `pos` with a larger error. -/
theorem NoisyLight.displaced {a : ArrayAnalysis} {leds : List ℕ} {pos truth : ℕ → P3} {N : ℕ} {v : ℕ → ℕ → ℝ} {γ : ℝ} {emit : ℕ → ℝ}
    {smoke : ℕ → Fin a.layers → ℝ} (h : NoisyLight a leds truth N v γ emit smoke) (hd : a.lo < a.hi) {S L δ ε : ℝ} (hδ : 0 < δ) (hε : 0 ≤ ε)
    (hcam : CameraClear a.lo a.hi a.layers δ a.cam.2.2) (hS : ∀ i, 1 ≤ i → i ≤ N → ∀ k, smoke i k ≤ S)
    (hL : ∀ l ∈ leds, euclid a.cam (truth l) ≤ L) (hpos : ∀ l ∈ leds, euclid (truth l) (pos l) ≤ ε)
    (hthin : ∀ i, 1 ≤ i → i ≤ N → ∀ l ∈ leds, lineDepth a.cam (truth l) a.lo a.hi (smoke i) + displacementError S L δ ε ≤ 23) :
    NoisyLight a leds pos N v (γ + displacementError S L δ ε) emit smoke := by
  have hdepth : ∀ i, 1 ≤ i → i ≤ N → ∀ l ∈ leds,
      |lineDepth a.cam (truth l) a.lo a.hi (smoke i) - lineDepth a.cam (pos l) a.lo a.hi (smoke i)| ≤ displacementError S L δ ε := by
    intro i h1 h2 l hl
    have hk0 : 0 < a.layers := by
      obtain ⟨k, hk, _⟩ := hcam
      omega
    have hS0 : 0 ≤ S := (h.nonneg i h1 h2 ⟨0, hk0⟩).trans (hS i h1 h2 ⟨0, hk0⟩)
    refine (C129_depth a.cam (truth l) (pos l) a.lo a.hi hd (smoke i) S (fun k => ⟨h.nonneg i h1 h2 k, hS i h1 h2 k⟩) δ hδ hcam).trans ?_
    unfold displacementError
    have hL0 : 0 ≤ euclid a.cam (truth l) := euclid_nonneg _ _
    apply mul_le_mul
    · exact mul_le_mul_of_nonneg_left (hpos l hl) hS0
    · have := div_le_div_of_nonneg_right (hL l hl) hδ.le
      linarith
    · have := div_nonneg hL0 hδ.le
      linarith
    · exact mul_nonneg hS0 hε
  refine ⟨h.emits, ?_, h.clear, h.reference, h.nonneg, ?_⟩
  · intro i h1 h2 l hl
    have := (within_exp (h.emits l hl).le (hdepth i h1 h2 l hl)).trans (h.light i h1 h2 l hl)
    rwa [add_comm] at this
  · intro i h1 h2 l hl
    have := hdepth i h1 h2 l hl
    rw [abs_le] at this
    linarith [hthin i h1 h2 l hl]

theorem near6_euclid (p q : P3) (h : Near6 p q) : euclid q p ≤ 1 / 10 ^ 6 := by
  obtain ⟨h1, h2, h3⟩ := h
  unfold euclid
  apply Real.sqrt_le_iff.2
  refine ⟨by positivity, ?_⟩
  have a1 := sq_le_sq' (abs_le.1 h1).1 (abs_le.1 h1).2
  have a2 := sq_le_sq' (abs_le.1 h2).1 (abs_le.1 h2).2
  have a3 := sq_le_sq' (abs_le.1 h3).1 (abs_le.1 h3).2
  nlinarith

theorem euclid_triangle (p q r : P3) : euclid p r ≤ euclid p q + euclid q r := by
  have h := euclid_displaced p r q
  have hs : euclid r q = euclid q r := by
    unfold euclid
    congr 1
    ring
  rw [hs] at h
  linarith [(abs_le.1 h).2]

theorem block_member (arrays : List (List ℕ)) (k x : ℕ) (h : x ∈ blockOf arrays k) : ∃ i old, IsMember arrays x k i old := by
  obtain ⟨h1, h2⟩ := List.mem_range'_1.1 h
  cases e : arrays[k]? with
  | none => rw [e] at h2; simp only [Option.getD_none, List.length_nil] at h2; omega
  | some a =>
    rw [e, Option.getD_some] at h2
    have hi : x - (arrays.take k).flatten.length < a.length := by omega
    refine ⟨x - (arrays.take k).flatten.length, a[x - (arrays.take k).flatten.length], by omega, ?_⟩
    unfold member
    rw [e, Option.bind_some]
    exact List.getElem?_eq_getElem hi

/-- The analysis of array `k` with the files of the extraction: ids of the index file, coordinates of the coordinates command. -/
def ArrayAnalysis.withFiles (a : ArrayAnalysis) (k : ℕ) (ids : List ℕ) (rows : List CoordRow) : ArrayAnalysis :=
  { a with arr := k, ids := ids, coordinates := rows.map (·.pos) }

/-- The setting of C130: LEDs at `truth`, at most `η` from the points where the camera sees them between the measured edge LEDs of the array;
layers and camera such that the rays are inside the domain with this error and the rounding of the file. -/
structure SurveyedArray (a : ArrayAnalysis) (t : LedTable) (arrays : List (List ℕ)) (k : ℕ) (T B : P3) (truth : ℕ → P3) (η : ℝ) : Prop where
  layers : 3 ≤ a.layers
  domain : a.lo < a.hi
  camera : a.lo ≤ a.cam.2.2 ∧ a.cam.2.2 ≤ a.hi
  seen : ∀ ak f l pf pl, arrays[k]? = some ak → ak.head? = some f → ak.getLast? = some l → (f, pf) ∈ t → (l, pl) ∈ t →
    ∀ x i old p s, IsMember arrays x k i old → (old, p) ∈ t → IsFraction (realPix pf) (realPix pl) (realPix p) s →
      euclid (truth x) (lerp3 T B s) ≤ η
  inside : ∀ x ∈ blockOf arrays k, a.lo + (η + 1 / 10 ^ 6) ≤ (truth x).2.2 ∧ (truth x).2.2 + (η + 1 / 10 ^ 6) < a.hi
  apart : ∀ x ∈ blockOf arrays k, η + 1 / 10 ^ 6 < euclid a.cam (truth x)

/-- **C130.** After any history of invocations that ends with matched LEDs, the coordinates command and the analysis of an array: if the LEDs
are at most `η` from where the camera sees them between the measured edge LEDs, the found coefficients reproduce the optical depths of the
smoke along the lines of sight, with an error bounded by that of the light, `η` and a micrometre for rounding, and the smoothing. -/
theorem C130_edges_to_coefficients (maxLoc : Image ℚ → ℕ × ℕ) (m : Metric D) (h : List ExtCmd) (t : LedTable) (arrays : List (List ℕ))
    (groups : Option (List (List ℤ))) (hs : Stage.ofHistory maxLoc m h = .matched t arrays groups) (fit : List P3 → Plane)
    (edges : List (P3 × P3)) (he : arrays.length ≤ edges.length) (h4 : 4 ≤ arrays.flatten.length) (hp : EndsMeasured t arrays arrays.length)
    (k : ℕ) (hk : k < arrays.length) (T B : P3) (hTB : edges[k]? = some (T, B)) :
    ∃ rows ids, calculateCoordinates fit arrays.length edges (runHistory maxLoc m .empty h) = .ok rows ∧
      loadIndexFile ((runHistory maxLoc m .empty h).index (indexFileName k [])) = .ok (ids.map (Nat.cast : ℕ → ℤ)) ∧
      ∀ (a0 : ArrayAnalysis) (truth : ℕ → P3) (η : ℝ), SurveyedArray a0 t arrays k T B truth η → 0 ≤ η → 0 ≤ a0.lam →
      ∃ pos : ℕ → P3, (∀ x ∈ blockOf arrays k, (rows.map (·.pos))[x]? = some (pos x) ∧ euclid (truth x) (pos x) ≤ η + 1 / 10 ^ 6) ∧
      ∀ (N : ℕ) (v : ℕ → ℕ → ℝ) (γ : ℝ) (emit : ℕ → ℝ) (smoke : ℕ → Fin a0.layers → ℝ) (S L δ : ℝ),
        NoisyLight a0 (blockOf arrays k) truth N v γ emit smoke → 0 < δ → CameraClear a0.lo a0.hi a0.layers δ a0.cam.2.2 →
        (∀ i, 1 ≤ i → i ≤ N → ∀ j, smoke i j ≤ S) → (∀ x ∈ blockOf arrays k, euclid a0.cam (truth x) ≤ L) →
        (∀ i, 1 ≤ i → i ≤ N → ∀ x ∈ blockOf arrays k,
          lineDepth a0.cam (truth x) a0.lo a0.hi (smoke i) + displacementError S L δ (η + 1 / 10 ^ 6) ≤ 23) →
      ∀ files : ℕ → List (ℕ × ℕ × ℝ), (∀ i, 1 ≤ i → i ≤ N → ((files i).map (·.1)).Nodup) →
        (∀ i, 1 ≤ i → i ≤ N → ∀ x y, (x, k, y) ∈ files i ↔ x ∈ blockOf arrays k ∧ y = v i x) →
      ∀ r, (a0.withFiles k ids rows).Result files N r → ∃ found : ℕ → Fin a0.layers → ℝ, r = .ok ((firstImgs N).map found) ∧
        ∀ i, 1 ≤ i → i ≤ N → (∀ j, 0 ≤ found i j) ∧
          ((blockOf arrays k).map fun x => (lineDepth a0.cam (pos x) a0.lo a0.hi (found i) - lineDepth a0.cam (pos x) a0.lo a0.hi (smoke i)) ^ 2).sum +
            a0.lam * bending (fun j => found i j - smoke i j) ≤
            (blockOf arrays k).length * (2 * (γ + displacementError S L δ (η + 1 / 10 ^ 6))) ^ 2 + a0.lam * bending (smoke i) := by
  have hd := history_agrees maxLoc m h
  rw [hs] at hd
  obtain ⟨rows, c1, c2, c3⟩ := C126_positions_partial maxLoc m h t arrays groups hs fit edges he h4 hp
  have hidx : loadIndexFile ((runHistory maxLoc m .empty h).index (indexFileName k [])) =
      .ok ((blockOf arrays k).reverse.map (Nat.cast : ℕ → ℤ)) := by
    obtain ⟨t', files, a1, a2, a3, a4, a5, a6, a7⟩ := hd
    rw [a7]
    exact index_written arrays groups files k hk
  refine ⟨rows, (blockOf arrays k).reverse, c1, hidx, ?_⟩
  intro a0 truth η hsv hη hlam
  obtain ⟨ak, f, l, pf, pl, e1, e2, e3, e4, e5, e6⟩ := hp k hk
  -- positions of the file
  set pos : ℕ → P3 := fun x => ((rows[x]?).map (·.pos)).getD (0, 0, 0) with hposdef
  have hrow : ∀ x ∈ blockOf arrays k, (rows.map (·.pos))[x]? = some (pos x) ∧ euclid (truth x) (pos x) ≤ η + 1 / 10 ^ 6 := by
    intro x hx
    obtain ⟨i, old, hmem⟩ := block_member arrays k x hx
    obtain ⟨row, r1, r2, r3, r4⟩ := c3 x k i old hmem
    obtain ⟨s, s1, s2, _⟩ := r4 ak T B f l pf pl e1 hTB e2 e3 e4 e5
    have hpx : pos x = row.pos := by
      rw [hposdef]
      simp only [r1, Option.map_some, Option.getD_some]
    constructor
    · rw [List.getElem?_map, r1, hpx]
      rfl
    · rw [hpx]
      have t1 := hsv.seen ak f l pf pl e1 e2 e3 e4 e5 x i old row.pix s hmem r3 s1
      have t2 := near6_euclid _ _ s2
      exact (euclid_triangle _ _ _).trans (add_le_add t1 t2)
  refine ⟨pos, hrow, ?_⟩
  intro N v γ emit smoke S L δ hl hδ hcam hS hL hthin files hnd hm r hr
  have hseen : SeenArray (a0.withFiles k (blockOf arrays k).reverse rows) (blockOf arrays k) pos := by
    refine ⟨rfl, List.pairwise_lt_range' , ?_, fun x hx => (hrow x hx).1, hsv.layers, hsv.domain, ?_⟩
    · obtain ⟨xf, x1, _⟩ := isMember_head arrays k ak e1 f e2
      intro hc
      rw [hc] at x1
      cases x1
    · intro x hx
      have hr := (hrow x hx).2
      have hz := height_le_euclid (truth x) (pos x)
      have hin := hsv.inside x hx
      have hap := hsv.apart x hx
      rw [abs_le] at hz
      refine ⟨?_, hsv.camera, ⟨?_, ?_⟩, ?_⟩
      · rintro hc
        have hc' : a0.cam = pos x := hc
        rw [hc'] at hap
        have hsym : euclid (pos x) (truth x) = euclid (truth x) (pos x) := by
          unfold euclid
          congr 1
          ring
        linarith
      · show a0.lo ≤ _
        linarith [hz.1, hz.2, hin.1]
      · show _ ≤ a0.hi
        linarith [hz.1, hz.2, hin.2]
      · rintro ⟨_, hc⟩
        have hc' : (pos x).2.2 = a0.hi := hc
        linarith [hz.1, hz.2, hin.2]
  have hnoisy := hl.displaced (pos := pos) hsv.domain hδ (by positivity : (0 : ℝ) ≤ η + 1 / 10 ^ 6) hcam hS hL (fun x hx => (hrow x hx).2) hthin
  have hnoisy' : NoisyLight (a0.withFiles k (blockOf arrays k).reverse rows) (blockOf arrays k) pos N v
      (γ + displacementError S L δ (η + 1 / 10 ^ 6)) emit smoke :=
    ⟨hnoisy.emits, hnoisy.light, hnoisy.clear, hnoisy.reference, hnoisy.nonneg, hnoisy.thin⟩
  obtain ⟨found, g1, g2⟩ := C111_depths _ _ pos hseen hlam N v _ emit smoke hnoisy' files hnd hm r hr
  exact ⟨found, g1, g2⟩

/-! Cases: an LED 1 cm too high, seen from 4 m; the column of five LEDs with its edge LEDs at the heights 4 and 0, seen from 5 m. -/

example : ∃ ds ds', distPerLayer (0, 0, 3 / 2) (4, 0, 3 / 2) (layers 0 3 3) = .dists ds ∧
    distPerLayer (0, 0, 3 / 2) (4, 0, 151 / 100) (layers 0 3 3) = .dists ds' ∧
    ∀ k < 3, |ds.getD k 0 - ds'.getD k 0| ≤ 9 / 100 := by
  obtain ⟨ds, ds', h1, h2, h3⟩ := C129_layers_partial (0, 0, 3 / 2) (4, 0, 3 / 2) (4, 0, 151 / 100) 0 3 3 (by norm_num) (by norm_num)
    ⟨by simp, by norm_num, by norm_num, by norm_num⟩ ⟨by simp, by norm_num, by norm_num, by norm_num⟩ (1 / 2) (by norm_num)
    ⟨1, by norm_num, by norm_num, by norm_num⟩
  refine ⟨ds, ds', h1, h2, fun k hk => (h3 k hk).trans (le_of_eq ?_)⟩
  have e1 : euclid (4, 0, 3 / 2) (4, 0, 151 / 100) = 1 / 100 := by
    unfold euclid
    rw [show ((4 : ℝ) - 4) ^ 2 + (0 - 0) ^ 2 + (3 / 2 - 151 / 100) ^ 2 = (1 / 100) ^ 2 by norm_num]
    exact Real.sqrt_sq (by norm_num)
  have e2 : euclid (0, 0, 3 / 2) (4, 0, 3 / 2) = 4 := by
    unfold euclid
    rw [show ((0 : ℝ) - 4) ^ 2 + (0 - 0) ^ 2 + (3 / 2 - 3 / 2) ^ 2 = 4 ^ 2 by norm_num]
    exact Real.sqrt_sq (by norm_num)
  rw [e1, e2]
  norm_num

/-- The analysis of the column: three layers of 2 m. -/
def columnAnalysis : ArrayAnalysis := ⟨(5, 0, 2), -1, 5, 3, [], [], 0, .first 1, 1, false⟩

theorem column_surveyed : SurveyedArray columnAnalysis columnTable [[0, 1, 2, 3, 4]] 0 (0, 0, 4) (0, 0, 0) (fun x => (0, 0, 4 - x)) 0 := by
  have hb : blockOf [[0, 1, 2, 3, 4]] 0 = [0, 1, 2, 3, 4] := rfl
  have hroot : ∀ x ∈ blockOf [[0, 1, 2, 3, 4]] 0, (x : ℝ) ≤ 4 := by
    intro x hx
    have : x ≤ 4 := by
      rw [hb] at hx
      simp only [List.mem_cons, List.not_mem_nil, or_false] at hx
      omega
    exact_mod_cast this
  refine ⟨le_rfl, by unfold columnAnalysis; norm_num, by unfold columnAnalysis; norm_num, ?_, ?_, ?_⟩
  · intro ak f l pf pl h1 h2 h3 h4 h5 x i old p s hm hp hs
    obtain rfl : [0, 1, 2, 3, 4] = ak := by simpa using h1
    obtain rfl : 0 = f := by simpa using h2
    obtain rfl : 4 = l := by simpa using h3
    have e1 : pf = (2, 3) := row_unique columnTable rfl 0 _ _ h4 (by decide)
    have e2 : pl = (14, 3) := row_unique columnTable rfl 4 _ _ h5 (by decide)
    obtain ⟨m1, m2⟩ := hm
    have hx : x = i := by simpa using m1
    have hold : ([0, 1, 2, 3, 4] : List ℕ)[i]? = some old := m2
    have hi : i < 5 := by
      by_contra hc
      rw [List.getElem?_eq_none (by simpa using hc)] at hold
      cases hold
    have hpos : old = i ∧ p = (2 + 3 * (i : ℤ), 3) := by
      interval_cases i <;> simp at hold <;> subst hold <;> exact ⟨rfl, row_unique columnTable rfl _ _ _ hp (by decide)⟩
    have hs' : s = i / 4 := by
      apply C33_fraction_unique (realPix pf) (realPix pl) (realPix p) _ s _ hs
      · rw [e1, e2, hpos.2]
        unfold IsFraction lerp2 realPix
        push_cast
        ring_nf
      · rw [e1, e2]
        unfold realPix
        norm_num
    rw [hs', hx]
    unfold lerp3 euclid
    rw [Real.sqrt_eq_zero (by positivity) |>.2]
    ring
  · intro x hx
    have := hroot x hx
    have h0 : (0 : ℝ) ≤ x := by positivity
    unfold columnAnalysis
    simp only
    constructor <;> linarith
  · intro x hx
    have h5 : (5 : ℝ) ≤ euclid columnAnalysis.cam (0, 0, 4 - x) := by
      unfold euclid columnAnalysis
      apply Real.le_sqrt_of_sq_le
      nlinarith [sq_nonneg ((2 : ℝ) - (4 - x))]
    linarith

end Ledsa
