import Verif.Props.Displacement

/-!
# Errors of the camera position (C185)

The position of the camera is entered in the analysis configuration, /repo/ledsa/analysis/ExperimentData.py 97-101, and used for all
lines of sight, /repo/ledsa/analysis/Experiment.py 170-248. Here the light comes to a camera at another place than the entered one.
-/

namespace Ledsa
open MeasureTheory

/-- The heights `z` and `z'` are on one side of `c`, `z'` farther: the means from `c` differ by at most `S |z' - z| / |z' - c|`. -/
theorem mean_far (e : ℝ → ℝ) (S : ℝ) (he : ∀ z, 0 ≤ e z ∧ e z ≤ S) (hi : ∀ a b, IntervalIntegrable e volume a b) (c : ℝ)
    (z z' : ℝ) (h1 : z ≠ c) (h1' : z' ≠ c) : |meanBetween e c z' - meanBetween e c z| ≤ S * |z' - z| / |z' - c| := by
  have d1 : z - c ≠ 0 := sub_ne_zero.2 h1
  have d2 : z' - c ≠ 0 := sub_ne_zero.2 h1'
  have hS : 0 ≤ S := (he 0).1.trans (he 0).2
  have mean_bounds : 0 ≤ meanBetween e c z ∧ meanBetween e c z ≤ S := by
    unfold meanBetween
    refine ⟨intervalIntegral.integral_nonneg zero_le_one fun t _ => (he _).1, ?_⟩
    have := intervalIntegral.norm_integral_le_of_norm_le_const (a := 0) (b := 1) (f := fun t : ℝ => e (c + t * (z - c))) (C := S)
      (fun t _ => by rw [Real.norm_of_nonneg (he _).1]; exact (he _).2)
    rw [sub_zero, abs_one, mul_one, Real.norm_eq_abs] at this
    exact (le_abs_self _).trans this
  have hsplit : ∫ x in c..z', e x = (∫ x in c..z, e x) + ∫ x in z..z', e x := (intervalIntegral.integral_add_adjacent_intervals (hi c z) (hi z z')).symm
  have hmz : ∫ x in c..z, e x = (z - c) * meanBetween e c z := by
    rw [meanBetween_ne e c z h1]
    field_simp
  have hdiff : meanBetween e c z' - meanBetween e c z = (z' - c)⁻¹ * ((∫ x in z..z', e x) - (z' - z) * meanBetween e c z) := by
    rw [meanBetween_ne e c z' h1', hsplit, hmz]
    field_simp
    ring
  have hb : |(∫ x in z..z', e x) - (z' - z) * meanBetween e c z| ≤ S * |z' - z| := by
    have : (∫ x in z..z', e x) - (z' - z) * meanBetween e c z = ∫ x in z..z', (e x - meanBetween e c z) := by
      rw [intervalIntegral.integral_sub (hi z z') intervalIntegrable_const]
      simp
    rw [this, ← Real.norm_eq_abs]
    apply intervalIntegral.norm_integral_le_of_norm_le_const
    intro x _
    rw [Real.norm_eq_abs, abs_le]
    have := he x
    constructor <;> linarith [mean_bounds.1, mean_bounds.2, this.1, this.2]
  rw [hdiff, abs_mul, abs_inv]
  calc |z' - c|⁻¹ * |(∫ x in z..z', e x) - (z' - z) * meanBetween e c z| ≤ |z' - c|⁻¹ * (S * |z' - z|) :=
        mul_le_mul_of_nonneg_left hb (by positivity)
    _ = S * |z' - z| / |z' - c| := by ring

theorem meanBetween_comm (e : ℝ → ℝ) (c z : ℝ) : meanBetween e c z = meanBetween e z c := by
  by_cases h : z = c
  · rw [h]
  · rw [meanBetween_ne e c z h, meanBetween_ne e z c (Ne.symm h), intervalIntegral.integral_symm z c]
    have : z - c ≠ 0 := sub_ne_zero.2 h
    have : c - z ≠ 0 := sub_ne_zero.2 (Ne.symm h)
    rw [mul_neg, ← neg_mul, ← inv_neg, neg_sub]

/-- The mean extinction depends on the height of the camera with the constant `S / δ`, inside its layer. -/
theorem mean_camera (e : ℝ → ℝ) (S : ℝ) (he : ∀ z, 0 ≤ e z ∧ e z ≤ S) (hi : ∀ a b, IntervalIntegrable e volume a b) (c δ s : ℝ)
    (hδ : 0 < δ) (hc : ∀ z, |z - c| < δ → e z = s) (c' z : ℝ) (hc' : |c' - c| < δ) :
    |meanBetween e c z - meanBetween e c' z| ≤ S * |c - c'| / δ := by
  have hS : 0 ≤ S := (he 0).1.trans (he 0).2
  by_cases hz : |z - c| < δ
  · have hconst : ∀ w, |w - c| < δ → meanBetween e w z = s := by
      intro w hw
      unfold meanBetween
      rw [intervalIntegral.integral_congr (g := fun _ => s)]
      · simp
      · intro t ht
        rw [Set.uIcc_of_le zero_le_one] at ht
        apply hc
        have e1 : w + t * (z - w) - c = (1 - t) * (w - c) + t * (z - c) := by ring
        rw [e1]
        rw [abs_lt] at hw hz ⊢
        obtain ⟨t0, t1⟩ := ht
        constructor
        · nlinarith [mul_nonneg (sub_nonneg.2 t1) (by linarith : 0 ≤ w - c + δ), mul_nonneg t0 (by linarith : 0 ≤ z - c + δ)]
        · nlinarith [mul_nonneg (sub_nonneg.2 t1) (by linarith : 0 ≤ δ - (w - c)), mul_nonneg t0 (by linarith : 0 ≤ δ - (z - c))]
    rw [hconst c (by simpa using hδ), hconst c' hc', sub_self, abs_zero]
    positivity
  · push Not at hz
    have n1 : c ≠ z := by
      rintro rfl
      rw [sub_self, abs_zero] at hz
      linarith
    have n2 : c' ≠ z := by
      rintro rfl
      linarith
    rw [meanBetween_comm e c z, meanBetween_comm e c' z]
    refine (mean_far e S he hi z c' c n2 n1).trans ?_
    rw [abs_sub_comm c z]
    exact div_le_div_of_nonneg_left (by positivity) hδ hz

theorem euclid_comm (p q : P3) : euclid p q = euclid q p := by
  unfold euclid
  congr 1
  ring

/-- **C185, optical depth.** A camera at `cam'` instead of `cam`, in the same layer, changes the optical depth of a line of sight by at most
`S · |cam - cam'| · (1 + L / δ)`: `S` the largest coefficient, `L` the length of the line, `δ` the distance of the camera to the next border. -/
theorem C185_depth (cam cam' p : P3) (lo hi : ℝ) (h : lo < hi) {n : ℕ} (σ : Fin n → ℝ) (S : ℝ) (hσ : ∀ k, 0 ≤ σ k ∧ σ k ≤ S) (δ : ℝ) (hδ : 0 < δ)
    (hcam : CameraClear lo hi n δ cam.2.2) (hnear : |cam'.2.2 - cam.2.2| < δ) :
    |lineDepth cam p lo hi σ - lineDepth cam' p lo hi σ| ≤ S * euclid cam cam' * (1 + euclid cam p / δ) := by
  obtain ⟨k, hk, hk1, hk2⟩ := hcam
  have hS : 0 ≤ S := (hσ ⟨k, hk⟩).1.trans (hσ ⟨k, hk⟩).2
  have he := extinctionAt_bounds lo hi h σ S hS hσ
  have hint := extinctionAt_integrable lo hi h σ S hS hσ
  have hconst : ∀ z, |z - cam.2.2| < δ → extinctionAt lo hi σ z = σ ⟨k, hk⟩ := by
    intro z hz
    rw [abs_lt] at hz
    exact extinctionAt_slice lo hi h σ ⟨k, hk⟩ z ⟨by simp only; linarith, by simp only; linarith⟩
  have e1 : ∀ x : P3, lineDepth x p lo hi σ = euclid x p * meanBetween (extinctionAt lo hi σ) x.2.2 p.2.2 := fun x => rfl
  have hl := mean_camera _ S he hint cam.2.2 δ _ hδ hconst cam'.2.2 p.2.2 hnear
  have hq : |meanBetween (extinctionAt lo hi σ) cam'.2.2 p.2.2| ≤ S := by
    unfold meanBetween
    have := intervalIntegral.norm_integral_le_of_norm_le_const (a := 0) (b := 1)
      (f := fun t : ℝ => extinctionAt lo hi σ (cam'.2.2 + t * (p.2.2 - cam'.2.2))) (C := S)
      (fun t _ => by rw [Real.norm_of_nonneg (he _).1]; exact (he _).2)
    simpa using this
  rw [e1, e1]
  set A := meanBetween (extinctionAt lo hi σ) cam.2.2 p.2.2
  set B := meanBetween (extinctionAt lo hi σ) cam'.2.2 p.2.2
  have hsplit : euclid cam p * A - euclid cam' p * B = euclid cam p * (A - B) + (euclid cam p - euclid cam' p) * B := by ring
  rw [hsplit]
  have c1 : |euclid cam p * (A - B)| ≤ euclid cam p * (S * euclid cam cam' / δ) := by
    rw [abs_mul, abs_of_nonneg (euclid_nonneg _ _)]
    apply mul_le_mul_of_nonneg_left _ (euclid_nonneg _ _)
    refine hl.trans ?_
    gcongr
    exact height_le_euclid cam cam'
  have c2 : |(euclid cam p - euclid cam' p) * B| ≤ euclid cam cam' * S := by
    rw [abs_mul]
    refine mul_le_mul ?_ hq (abs_nonneg _) (euclid_nonneg _ _)
    have := euclid_displaced p cam cam'
    rwa [euclid_comm p cam, euclid_comm p cam'] at this
  calc _ ≤ _ := abs_add_le _ _
    _ ≤ _ := add_le_add c1 c2
    _ = S * euclid cam cam' * (1 + euclid cam p / δ) := by ring

/-- **C185, distances per layer.** -/
theorem C185_layers_partial (cam cam' p : P3) (lo hi : ℝ) (n : ℕ) (hn : 1 ≤ n) (h : lo < hi) (hp : RayInDomain cam p lo hi)
    (hp' : RayInDomain cam' p lo hi) (δ : ℝ) (hδ : 0 < δ) (hcam : CameraClear lo hi n δ cam.2.2) (hnear : |cam'.2.2 - cam.2.2| < δ) :
    ∃ ds ds', distPerLayer cam p (layers lo hi n) = .dists ds ∧ distPerLayer cam' p (layers lo hi n) = .dists ds' ∧
      ∀ k < n, |ds.getD k 0 - ds'.getD k 0| ≤ euclid cam cam' * (1 + euclid cam p / δ) := by
  obtain ⟨ds, h1, _, _, h2⟩ := C95_distances cam p lo hi n hn h hp
  obtain ⟨ds', h1', _, _, h2'⟩ := C95_distances cam' p lo hi n hn h hp'
  refine ⟨ds, ds', h1, h1', ?_⟩
  intro k hk
  have e := C185_depth cam cam' p lo hi h (fun j : Fin n => if j = ⟨k, hk⟩ then (1 : ℝ) else 0) 1
    (fun j => by by_cases hj : j = ⟨k, hk⟩ <;> simp [hj]) δ hδ hcam hnear
  rw [← h2, ← h2'] at e
  simpa using e

/-- **C185, total length.** The distances of the layers together change by at most the error of the camera position, wherever it is. -/
theorem C185_total (cam cam' p : P3) (lo hi : ℝ) (n : ℕ) (hn : 1 ≤ n) (h : lo < hi) (hp : RayInDomain cam p lo hi) (hq : RayInDomain cam' p lo hi) :
    ∃ ds ds', distPerLayer cam p (layers lo hi n) = .dists ds ∧ distPerLayer cam' p (layers lo hi n) = .dists ds' ∧
      |ds.sum - ds'.sum| ≤ euclid cam cam' := by
  obtain ⟨ds, h1, _, h2⟩ := C40_sum_partial cam p lo hi n hn h hp.ne hp.cam_in hp.led_in hp.top
  obtain ⟨ds', h1', _, h2'⟩ := C40_sum_partial cam' p lo hi n hn h hq.ne hq.cam_in hq.led_in hq.top
  refine ⟨ds, ds', h1, h1', ?_⟩
  rw [h2, h2', euclid_comm cam p, euclid_comm cam' p]
  exact euclid_displaced p cam cam'

/-- **C185, horizontal errors.** If the height of the camera is right, every depth changes by the factor of the lengths, whatever the smoke. -/
theorem C185_horizontal (cam cam' p : P3) (hz : cam'.2.2 = cam.2.2) (lo hi : ℝ) {n : ℕ} (σ : Fin n → ℝ) :
    lineDepth cam' p lo hi σ * euclid cam p = lineDepth cam p lo hi σ * euclid cam' p := by
  unfold lineDepth
  rw [hz]
  ring

/-- A series of images taken by a camera at `camera`. -/
structure SeenFrom (camera : P3) (a : ArrayAnalysis) (leds : List ℕ) (pos : ℕ → P3) (N : ℕ) (v : ℕ → ℕ → ℝ) (emit : ℕ → ℝ)
    (smoke : ℕ → Fin a.layers → ℝ) : Prop where
  emits : ∀ l ∈ leds, 0 < emit l
  light : ∀ i, 1 ≤ i → i ≤ N → ∀ l ∈ leds, v i l = emit l * Real.exp (-lineDepth camera (pos l) a.lo a.hi (smoke i))
  clear : ∀ i, 1 ≤ i → i ≤ N → a.ref.selects i = true → smoke i = fun _ => 0
  reference : ∃ i, 1 ≤ i ∧ i ≤ N ∧ a.ref.selects i = true
  nonneg : ∀ i, 1 ≤ i → i ≤ N → ∀ k, 0 ≤ smoke i k
  thin : ∀ i, 1 ≤ i → i ≤ N → ∀ l ∈ leds, lineDepth a.cam (pos l) a.lo a.hi (smoke i) ≤ 23

/-- Light that reaches a camera at another place is light with an error. -/
theorem C185_noisy {camera : P3} {a : ArrayAnalysis} {leds : List ℕ} {pos : ℕ → P3} {N : ℕ} {v : ℕ → ℕ → ℝ} {emit : ℕ → ℝ}
    {smoke : ℕ → Fin a.layers → ℝ} (h : SeenFrom camera a leds pos N v emit smoke) (hd : a.lo < a.hi) {S L δ : ℝ} (hδ : 0 < δ)
    (hcam : CameraClear a.lo a.hi a.layers δ a.cam.2.2) (hnear : |camera.2.2 - a.cam.2.2| < δ)
    (hS : ∀ i, 1 ≤ i → i ≤ N → ∀ k, smoke i k ≤ S) (hL : ∀ l ∈ leds, euclid a.cam (pos l) ≤ L) :
    NoisyLight a leds pos N v (displacementError S L δ (euclid a.cam camera)) emit smoke where
  emits := h.emits
  light := by
    intro i h1 h2 l hl
    rw [h.light i h1 h2 l hl]
    refine within_exp (h.emits l hl).le ?_
    have hk0 : 0 < a.layers := by
      obtain ⟨k, hk, _⟩ := hcam
      omega
    have hS0 : 0 ≤ S := (h.nonneg i h1 h2 ⟨0, hk0⟩).trans (hS i h1 h2 ⟨0, hk0⟩)
    rw [abs_sub_comm]
    refine (C185_depth a.cam camera (pos l) a.lo a.hi hd (smoke i) S (fun k => ⟨h.nonneg i h1 h2 k, hS i h1 h2 k⟩) δ hδ hcam hnear).trans ?_
    unfold displacementError
    refine mul_le_mul_of_nonneg_left ?_ (mul_nonneg hS0 (euclid_nonneg _ _))
    have := div_le_div_of_nonneg_right (hL l hl) hδ.le
    linarith
  clear := h.clear
  reference := h.reference
  nonneg := h.nonneg
  thin := h.thin

/-- **C185.** The coefficients of the analysis with a camera position that is off by `ε`, in the same layer: the error is bounded by a constant of
the array and the camera, the largest coefficient and `ε`, besides the smoothing. -/
theorem C185_coefficients_partial (a : ArrayAnalysis) (leds : List ℕ) (pos : ℕ → P3) (h : SeenArray a leds pos) (hlam : 0 < a.lam)
    (hdet : ∀ σ τ : Fin a.layers → ℝ, Affine σ → Affine τ →
      (∀ l ∈ leds, lineDepth a.cam (pos l) a.lo a.hi σ = lineDepth a.cam (pos l) a.lo a.hi τ) → σ = τ)
    (δ L : ℝ) (hδ : 0 < δ) (hcam : CameraClear a.lo a.hi a.layers δ a.cam.2.2) (hL : ∀ l ∈ leds, euclid a.cam (pos l) ≤ L) :
    ∃ K : ℝ, 0 < K ∧ ∀ (camera : P3) (N : ℕ) (v : ℕ → ℕ → ℝ) (emit : ℕ → ℝ) (smoke : ℕ → Fin a.layers → ℝ) (S : ℝ),
      |camera.2.2 - a.cam.2.2| < δ → SeenFrom camera a leds pos N v emit smoke → (∀ i, 1 ≤ i → i ≤ N → ∀ k, smoke i k ≤ S) →
      ∀ files : ℕ → List (ℕ × ℕ × ℝ), (∀ i, 1 ≤ i → i ≤ N → ((files i).map (·.1)).Nodup) →
      (∀ i, 1 ≤ i → i ≤ N → ∀ l x, (l, a.arr, x) ∈ files i ↔ l ∈ leds ∧ x = v i l) →
      ∀ r, a.Result files N r → ∃ found : ℕ → Fin a.layers → ℝ, r = .ok ((firstImgs N).map found) ∧
        ∀ i, 1 ≤ i → i ≤ N → ∑ k, (found i k - smoke i k) ^ 2 ≤
          K * (leds.length * (2 * (S * euclid a.cam camera * (1 + L / δ))) ^ 2 + a.lam * bending (smoke i)) := by
  obtain ⟨K, hK, hall⟩ := C111_coefficients a leds pos h hlam hdet
  refine ⟨K, hK, fun camera N v emit smoke S hn hc hS files hnd hm r hr => ?_⟩
  exact hall N _ _ _ _ (C185_noisy hc h.domain hδ hcam hn hS hL) files hnd hm r hr

/-! ### Refutation -/

/-- An error of the camera position changes the distances per layer by at most a constant times the error. -/
def CameraErrorsAreHarmless : Prop := ∀ (lo hi : ℝ) (n : ℕ) (p cam : P3), lo < hi → 1 ≤ n → RayInDomain cam p lo hi →
  ∃ K, ∀ cam', RayInDomain cam' p lo hi → ∀ ds ds', distPerLayer cam p (layers lo hi n) = .dists ds →
    distPerLayer cam' p (layers lo hi n) = .dists ds' → ∀ k < n, |ds.getD k 0 - ds'.getD k 0| ≤ K * euclid cam cam'

theorem upperDepth_level : lineDepth (0, 0, 1) (5, 0, 1) 0 2 (fun j : Fin 2 => if j = 1 then (1 : ℝ) else 0) = 5 := by
  rw [lineDepth_horizontal (0, 0, 1) (5, 0, 1) rfl]
  have hh : horizontalDist (0, 0, 1) (5, 0, 1) = 5 := by
    unfold horizontalDist
    rw [show ((0 : ℝ) - 5) ^ 2 + (0 - 0) ^ 2 = 5 ^ 2 by norm_num]
    exact Real.sqrt_sq (by norm_num)
  have hx : extinctionAt 0 2 (fun j : Fin 2 => if j = 1 then (1 : ℝ) else 0) 1 = 1 := by
    rw [extinctionAt_slice 0 2 (by norm_num) _ 1 1 (by norm_num)]
    simp
  rw [hh, hx, mul_one]

theorem upperDepth_below (ε : ℝ) (hε : 0 < ε) :
    lineDepth (0, 0, 1 - ε) (5, 0, 1) 0 2 (fun j : Fin 2 => if j = 1 then (1 : ℝ) else 0) = 0 := by
  rw [lineDepth_slanted (0, 0, 1 - ε) (5, 0, 1) (by simp only; intro hc; linarith), Fin.sum_univ_two]
  simp only [Fin.isValue, zero_ne_one, if_false, mul_zero, if_true, mul_one, zero_add, Fin.val_one]
  unfold lengthInside
  rw [volume_inside _ _ _ _ (by simp only; intro hc; linarith), heightInLayer_eq]
  have hb : border 0 2 2 1 = 1 := by unfold border; norm_num
  rw [hb]
  simp only
  rw [max_eq_right (by linarith : 1 - ε ≤ (1 : ℝ)), min_eq_left (by linarith : 1 - ε ≤ (1 : ℝ)), max_eq_right (by linarith : 1 - ε ≤ (1 : ℝ)),
    max_eq_left (by linarith [min_le_left (1 : ℝ) (border 0 2 2 (1 + 1))])]
  simp

/-- **C185 refuted** for a camera at a border and an LED at its height: however little the camera is lower, the whole line is in another layer. -/
theorem C185_false : ¬ CameraErrorsAreHarmless := by
  intro h
  have r1 : RayInDomain (0, 0, 1) (5, 0, 1) 0 2 := ⟨by simp, by norm_num, by norm_num, by norm_num⟩
  obtain ⟨K, hK⟩ := h 0 2 2 (5, 0, 1) (0, 0, 1) (by norm_num) (by norm_num) r1
  obtain ⟨ds, g1, _, _, g2⟩ := C95_distances _ _ 0 2 2 (by norm_num) (by norm_num) r1
  have key : ∀ ε : ℝ, 0 < ε → ε ≤ 1 → 5 ≤ K * ε := by
    intro ε hε h1
    have r2 : RayInDomain (0, 0, 1 - ε) (5, 0, 1) 0 2 := ⟨by simp, by constructor <;> simp only <;> linarith, by norm_num, by norm_num⟩
    obtain ⟨ds', g1', _, _, g2'⟩ := C95_distances _ _ 0 2 2 (by norm_num) (by norm_num) r2
    have e : euclid (0, 0, 1) (0, 0, 1 - ε) = ε := by
      unfold euclid
      rw [show ((0 : ℝ) - 0) ^ 2 + (0 - 0) ^ 2 + (1 - (1 - ε)) ^ 2 = ε ^ 2 by ring]
      exact Real.sqrt_sq hε.le
    have hk := hK (0, 0, 1 - ε) r2 ds ds' g1 g1' 1 (by norm_num)
    have a := g2 fun j => if j = 1 then 1 else 0
    have b := g2' fun j => if j = 1 then 1 else 0
    rw [upperDepth_level, Fin.sum_univ_two] at a
    rw [upperDepth_below ε hε, Fin.sum_univ_two] at b
    simp only [Fin.isValue, zero_ne_one, if_false, mul_zero, if_true, mul_one, zero_add, Fin.val_one] at a b
    rw [a, b, e] at hk
    norm_num at hk
    exact hk
  have k1 := key 1 one_pos le_rfl
  have hK0 : 0 < K := by linarith
  have k2 := key (1 / K) (by positivity) (by rw [div_le_one hK0]; linarith)
  rw [mul_one_div_cancel hK0.ne'] at k2
  norm_num at k2

-- camera 25 cm from the borders of its layer, 1 cm off, an LED 5 m away, coefficients up to 0.5 per metre: depth right up to 0.105
example (σ : Fin 4 → ℝ) (hσ : ∀ k, 0 ≤ σ k ∧ σ k ≤ 1 / 2) :
    |lineDepth (0, 0, 5 / 4) (3, 4, 5 / 4) 0 2 σ - lineDepth (0, 1 / 100, 5 / 4) (3, 4, 5 / 4) 0 2 σ| ≤ 1 / 2 * (1 / 100) * (1 + 5 / (1 / 4)) := by
  have e1 : euclid (0, 0, 5 / 4) (0, 1 / 100, 5 / 4) = 1 / 100 := by
    unfold euclid
    rw [show ((0 : ℝ) - 0) ^ 2 + (0 - 1 / 100) ^ 2 + (5 / 4 - 5 / 4) ^ 2 = (1 / 100) ^ 2 by ring]
    exact Real.sqrt_sq (by norm_num)
  have e2 : euclid (0, 0, 5 / 4) (3, 4, 5 / 4) = 5 := by
    unfold euclid
    rw [show ((0 : ℝ) - 3) ^ 2 + (0 - 4) ^ 2 + (5 / 4 - 5 / 4) ^ 2 = 5 ^ 2 by norm_num]
    exact Real.sqrt_sq (by norm_num)
  have := C185_depth (0, 0, 5 / 4) (0, 1 / 100, 5 / 4) (3, 4, 5 / 4) 0 2 (by norm_num) σ (1 / 2) hσ (1 / 4) (by norm_num)
    ⟨2, by norm_num, by norm_num, by norm_num⟩ (by norm_num)
  rwa [e1, e2] at this

end Ledsa
