import Verif.Props.Robust
import Verif.Props.Locality
import Verif.Props.Frames

/-!
# Denser smoke

What the linear analysis makes of smoke that is denser by a factor, of a single LED that gets darker, and of the smoke of two sources.
-/

namespace Ledsa

/-! ### When a profile is the result -/

/-- Half the derivative of the squared error with respect to the coefficient of layer `l`. -/
def slope {ι : Type} [Fintype ι] {n : ℕ} (B : ι → Fin n → ℝ) (b : ι → ℝ) (x : Fin n → ℝ) (l : Fin n) : ℝ :=
  ∑ i, B i l * (∑ k, B i k * x k - b i)

theorem residual_expand {ι : Type} [Fintype ι] {n : ℕ} (B : ι → Fin n → ℝ) (b : ι → ℝ) (x y : Fin n → ℝ) :
    residual B b y = residual B b x + 2 * (∑ l, slope B b x l * (y l - x l)) + ∑ i, (∑ l, B i l * (x l - y l)) ^ 2 := by
  have e : ∑ l, slope B b x l * (y l - x l) = ∑ i, (∑ k, B i k * x k - b i) * (∑ l, B i l * y l - ∑ l, B i l * x l) := by
    simp only [slope, Finset.sum_mul]
    rw [Finset.sum_comm]
    refine Finset.sum_congr rfl fun i _ => ?_
    rw [← Finset.sum_sub_distrib, Finset.mul_sum]
    exact Finset.sum_congr rfl fun l _ => by ring
  rw [e]
  unfold residual
  rw [Finset.mul_sum, ← Finset.sum_add_distrib, ← Finset.sum_add_distrib]
  refine Finset.sum_congr rfl fun i _ => ?_
  have : ∑ l, B i l * (x l - y l) = ∑ l, B i l * x l - ∑ l, B i l * y l := by
    rw [← Finset.sum_sub_distrib]
    exact Finset.sum_congr rfl fun l _ => by ring
  rw [this]; ring

theorem minimiser_iff {ι : Type} [Fintype ι] {n : ℕ} (B : ι → Fin n → ℝ) (b : ι → ℝ) (x : Fin n → ℝ) :
    IsMinimiser B b x ↔ ∀ l, 0 ≤ x l ∧ 0 ≤ slope B b x l ∧ x l * slope B b x l = 0 := by
  constructor
  · intro h
    have key : ∀ y : Fin n → ℝ, (∀ l, 0 ≤ y l) → 0 ≤ ∑ l, slope B b x l * (y l - x l) := by
      intro y hy
      have h1 := minimiser_pythagoras B b x h y hy
      rw [residual_expand B b x y] at h1
      linarith
    have single : ∀ (l : Fin n) (v : ℝ), ∑ k, slope B b x k * (Function.update x l v k - x k) = slope B b x l * (v - x l) := by
      intro l v
      rw [Finset.sum_eq_single l]
      · simp
      · intro k _ hk; simp [Function.update_of_ne hk]
      · simp
    intro l
    have h1 : 0 ≤ slope B b x l := by
      have := key (Function.update x l (x l + 1)) fun k => by
        by_cases hk : k = l
        · subst hk; simp; linarith [h.nonneg k]
        · rw [Function.update_of_ne hk]; exact h.nonneg k
      rw [single] at this
      linarith
    refine ⟨h.nonneg l, h1, ?_⟩
    have := key (Function.update x l 0) fun k => by
      by_cases hk : k = l
      · subst hk; simp
      · rw [Function.update_of_ne hk]; exact h.nonneg k
    rw [single] at this
    have := mul_nonneg (h.nonneg l) h1
    linarith
  · intro h
    refine ⟨fun l => (h l).1, fun y hy => ?_⟩
    rw [residual_expand B b x y]
    have h1 : 0 ≤ ∑ l, slope B b x l * (y l - x l) := Finset.sum_nonneg fun l _ => by
      have := mul_nonneg (h l).2.1 (hy l)
      linarith [(h l).2.2]
    have h2 : 0 ≤ ∑ i, (∑ l, B i l * (x l - y l)) ^ 2 := Finset.sum_nonneg fun _ _ => sq_nonneg _
    linarith

/-! ### Smoke denser by a factor -/

theorem nnls_scaled {ι : Type} [Fintype ι] {n : ℕ} {t : ℝ} (ht : 0 < t) (B : ι → Fin n → ℝ) (b : ι → ℝ) (x : Fin n → ℝ) (h : IsNnls B b x) :
    IsNnls B (fun i => t * b i) (fun l => t * x l) := by
  have e : ∀ l, slope B (fun i => t * b i) (fun l => t * x l) l = t * slope B b x l := by
    intro l
    unfold slope
    rw [Finset.mul_sum]
    refine Finset.sum_congr rfl fun i _ => ?_
    have : ∑ k, B i k * (t * x k) = t * ∑ k, B i k * x k := by
      rw [Finset.mul_sum]; exact Finset.sum_congr rfl fun k _ => by ring
    rw [this]; ring
  refine ⟨(minimiser_iff _ _ _).2 fun l => ?_, fun hs => ?_⟩
  · obtain ⟨h1, h2, h3⟩ := (minimiser_iff B b x).1 h.toIsMinimiser l
    rw [e]
    refine ⟨by positivity, by positivity, ?_⟩
    rw [show t * x l * (t * slope B b x l) = t ^ 2 * (x l * slope B b x l) by ring, h3, mul_zero]
  · have := h.start fun l => by
      have := hs l
      have e2 : ∑ i, B i l * (t * b i) = t * ∑ i, B i l * b i := by
        rw [Finset.mul_sum]; exact Finset.sum_congr rfl fun k _ => by ring
      rw [e2] at this
      by_contra hc
      exact absurd this (not_le.2 (mul_pos ht (not_le.1 hc)))
    subst this
    funext l; simp

theorem linearSolution_depths {m n : ℕ} (A : Fin m → Fin n → ℝ) (lam : ℝ) {rel rel' : Fin m → ℝ} (h : ∀ i, opticalDepth (rel' i) = opticalDepth (rel i))
    (σ : Fin n → ℝ) : LinearSolution A lam rel' σ ↔ LinearSolution A lam rel σ := by
  have : augRhs n rel' = augRhs n rel := by
    funext i
    cases i with
    | inl i => exact h i
    | inr i => rfl
  unfold LinearSolution
  rw [this]

theorem linearSolution_times {m n : ℕ} (A : Fin m → Fin n → ℝ) (lam : ℝ) {rel rel' : Fin m → ℝ} {t : ℝ} (ht : 0 < t)
    (h : ∀ i, opticalDepth (rel' i) = t * opticalDepth (rel i)) (σ : Fin n → ℝ) :
    LinearSolution A lam rel' (fun l => t * σ l) ↔ LinearSolution A lam rel σ := by
  have e : augRhs n rel' = fun i => t * augRhs n rel i := by
    funext i
    cases i with
    | inl i => exact h i
    | inr i => simp [augRhs]
  unfold LinearSolution
  rw [e]
  constructor
  · intro hs
    have := nnls_scaled (inv_pos.2 ht) _ _ _ hs
    have e1 : (fun i => t⁻¹ * (t * augRhs n rel i)) = augRhs n rel := by funext i; field_simp
    have e2 : (fun l => t⁻¹ * (t * σ l)) = σ := by funext l; field_simp
    rwa [e1, e2] at this
  · exact nnls_scaled ht _ _ _

theorem tenth_exp : (1 : ℝ) / 10 ^ 10 = Real.exp (-(10 * Real.log 10)) := by
  have h : 10 * Real.log 10 = Real.log (10 ^ 10) := by rw [Real.log_pow]; norm_num
  rw [Real.exp_neg, one_div, h, Real.exp_log (by norm_num)]

/-- The optical depth used by the program for light reduced by `exp (-t)`. -/
theorem opticalDepth_any (t : ℝ) : opticalDepth (Real.exp (-t)) = max 0 (min t (10 * Real.log 10)) := by
  have hlog : 0 < Real.log 10 := Real.log_pos (by norm_num)
  rcases le_total t (10 * Real.log 10) with h | h
  · rw [min_eq_left h]
    rcases le_total 0 t with h0 | h0
    · rw [opticalDepth_exp h0 h, max_eq_right h0]
    · rw [max_eq_left h0]
      unfold opticalDepth clip
      have h1 : 1 ≤ Real.exp (-t) := Real.one_le_exp (by linarith)
      rw [max_eq_left (le_trans (by norm_num) h1), min_eq_right h1, Real.log_one, neg_zero]
  · rw [min_eq_right h, max_eq_right (by positivity)]
    have h2 : Real.exp (-t) ≤ 1 / 10 ^ 10 := by rw [tenth_exp, Real.exp_le_exp]; linarith
    unfold opticalDepth clip
    rw [max_eq_right h2, min_eq_left (by norm_num), tenth_exp, Real.log_exp]
    ring

theorem opticalDepth_power {r t : ℝ} (ht : 0 < t) (hr : 1 / 10 ^ 10 ≤ r) (hrt : 1 / 10 ^ 10 ≤ r ^ t) :
    opticalDepth (r ^ t) = t * opticalDepth r := by
  have h0 : 0 < r := lt_of_lt_of_le (by norm_num) hr
  have e : r = Real.exp (-(-Real.log r)) := by rw [neg_neg, Real.exp_log h0]
  have e2 : r ^ t = Real.exp (-(t * -Real.log r)) := by rw [Real.rpow_def_of_pos h0]; congr 1; ring
  rw [tenth_exp] at hr hrt
  rw [e2, Real.exp_le_exp] at hrt
  rw [e, Real.exp_le_exp] at hr
  rw [e2, opticalDepth_any]
  nth_rewrite 2 [e]
  rw [opticalDepth_any, min_eq_left (by linarith), min_eq_left (by linarith)]
  rcases le_total 0 (-Real.log r) with h | h
  · rw [max_eq_right h, max_eq_right (by positivity)]
  · rw [max_eq_left h, max_eq_left (mul_nonpos_of_nonneg_of_nonpos ht.le h), mul_zero]

/-- **C154** (partial): with all relative intensities raised to the power `t`, which is what smoke denser by the factor `t` does, the
linear analysis returns `t` times the coefficients, for any data, consistent or not, and returns nothing else. Missing: light below the
`1e-10` to which the program raises intensities (`C154_dense_false`). -/
theorem C154_denser_partial {m n : ℕ} (A : Fin m → Fin n → ℝ) (lam : ℝ) (rel : Fin m → ℝ) {t : ℝ} (ht : 0 < t)
    (hr : ∀ i, 1 / 10 ^ 10 ≤ rel i) (hrt : ∀ i, 1 / 10 ^ 10 ≤ rel i ^ t) (σ : Fin n → ℝ) :
    LinearSolution A lam (fun i => rel i ^ t) (fun l => t * σ l) ↔ LinearSolution A lam rel σ :=
  linearSolution_times A lam ht (fun i => opticalDepth_power ht (hr i) (hrt i)) σ

/-- **C154 refuted** for light below `1e-10`. -/
theorem C154_dense_false : ¬ ∀ (m n : ℕ) (A : Fin m → Fin n → ℝ) (lam : ℝ) (rel : Fin m → ℝ) (t : ℝ) (σ : Fin n → ℝ), 3 ≤ n → (∀ i l, 0 ≤ A i l) →
    DeterminesAffine A → 0 < lam → 0 < t → (∀ i, 0 < rel i) → LinearSolution A lam rel σ →
    LinearSolution A lam (fun i => rel i ^ t) (fun l => t * σ l) := by
  intro h
  have hlog0 : 0 < Real.log 10 := Real.log_pos (by norm_num)
  have hlog : Real.log 10 < 3 := by
    rw [Real.log_lt_iff_lt_exp (by norm_num)]
    have h1 := Real.exp_one_gt_d9
    have h2 : Real.exp 3 = Real.exp 1 ^ 3 := by rw [← Real.exp_nat_mul]; norm_num
    rw [h2]
    calc (10 : ℝ) < 2.7 ^ 3 := by norm_num
      _ < Real.exp 1 ^ 3 := by gcongr; linarith
  have hlog1 : 1 ≤ Real.log 10 := by
    rw [Real.le_log_iff_exp_le (by norm_num)]
    linarith [Real.exp_one_lt_d9]
  have hA : ∀ i l, 0 ≤ threeRays 1 i l := fun i l => by unfold threeRays; split <;> norm_num
  have hI : ∀ (s : ℝ) (led : Fin 3), calcIntensities (threeRays 1) (fun _ => s) led = Real.exp (-s) := by
    intro s led
    rw [C42_beer_lambert]
    have : ∑ l, s * threeRays 1 led l = depth (fun _ => s) (threeRays 1 led) := Finset.sum_congr rfl fun l _ => mul_comm _ _
    rw [this, depth_threeRays, one_mul]
  have hsol : ∀ s : ℝ, 0 ≤ s → s ≤ 10 * Real.log 10 → ∀ x, LinearSolution (threeRays 1) 1 (fun _ => Real.exp (-s)) x ↔ x = fun _ => s := by
    intro s h0 h1 x
    have := C43_linear_profile_partial (le_refl 3) (threeRays 1) hA (threeRays_determines (by norm_num)) 1 one_pos (fun _ => s) (fun _ => h0)
      ⟨s, 0, fun _ => by simp⟩ (fun led => by rw [depth_threeRays, one_mul]; exact h1) x
    rw [← this]
    congr! 2
    rw [hI]
  have h1 := h 3 3 (threeRays 1) 1 (fun _ => Real.exp (-1)) 30 (fun _ => 1) (le_refl _) hA (threeRays_determines (by norm_num)) one_pos (by norm_num)
    (fun _ => Real.exp_pos _) ((hsol 1 zero_le_one (by linarith) _).2 rfl)
  have h2 : LinearSolution (threeRays 1) 1 (fun _ => Real.exp (-(10 * Real.log 10))) (fun _ => 30 * 1) := by
    refine (linearSolution_depths (threeRays 1) 1 (fun i => ?_) _).1 h1
    have : Real.exp (-1) ^ (30 : ℝ) = Real.exp (-30) := by rw [← Real.exp_mul]; norm_num
    rw [this, opticalDepth_any, opticalDepth_any, min_eq_right (by linarith), min_self]
  have h3 := congrFun ((hsol _ (by positivity) le_rfl _).1 h2) 0
  linarith

/-- **C154, analysis of an array**: two series of photos of the same array with the same reference images, all light losses of the
second `t` times those of the first on the logarithmic scale and none beyond the range of the program. The analysis of the second finds
`t` times the coefficients of the first, for every image. -/
theorem C154_series (a : ArrayAnalysis) (files files' : ℕ → List (ℕ × ℕ × ℝ)) (N : ℕ) (leds : List ℕ) (emit : ℕ → ℝ) (loss : ℕ → ℕ → ℝ)
    {t : ℝ} (ht : 0 < t) (hemit : ∀ l ∈ leds, 0 < emit l) (hclear : ∀ i, a.ref.selects i = true → ∀ l ∈ leds, loss i l = 0)
    (hrange : ∀ i, ∀ l ∈ leds, loss i l ≤ 10 * Real.log 10 ∧ t * loss i l ≤ 10 * Real.log 10)
    (hc : CompleteSeries a.ref a.arr files N leds fun i l => emit l * Real.exp (-loss i l))
    (hc' : CompleteSeries a.ref a.arr files' N leds fun i l => emit l * Real.exp (-(t * loss i l)))
    (cs : List (Fin a.layers → ℝ)) :
    a.Result files' N (.ok (cs.map fun σ l => t * σ l)) ↔ a.Result files N (.ok cs) := by
  have hrel : ∀ (u : ℝ) (i : ℕ), relOf a.ref N leds (fun i l => emit l * Real.exp (-(u * loss i l))) i = leds.map fun l => Real.exp (-(u * loss i l)) := by
    intro u i
    unfold relOf
    refine List.map_congr_left fun l hl => ?_
    have hm : meanOver ((firstImgs N).filter a.ref.selects) (fun i l => emit l * Real.exp (-(u * loss i l))) l = emit l := by
      unfold meanOver
      have hne : (firstImgs N).filter a.ref.selects ≠ [] := by
        obtain ⟨i, h1, h2, h3⟩ := hc.ref
        exact List.ne_nil_of_mem (List.mem_filter.2 ⟨(mem_firstImgs N i).2 ⟨h1, h2⟩, h3⟩)
      have e : ((firstImgs N).filter a.ref.selects).map (fun j => emit l * Real.exp (-(u * loss j l))) =
          List.replicate ((firstImgs N).filter a.ref.selects).length (emit l) := by
        rw [← List.map_const']
        refine List.map_congr_left fun j hj => ?_
        rw [hclear j (List.mem_filter.1 hj).2 l hl]; simp
      rw [e, List.sum_replicate, nsmul_eq_mul]
      have : ((((firstImgs N).filter a.ref.selects).length : ℕ) : ℝ) ≠ 0 := by
        rw [Nat.cast_ne_zero]; exact fun h => hne (List.length_eq_zero_iff.1 h)
      field_simp
    rw [hm]
    have := (hemit l hl).ne'
    field_simp
  cases hp : ledPositions a.coordinates a.ids with
  | error e =>
    unfold ArrayAnalysis.Result
    rw [positions_missing a files N e hp, positions_missing a files' N e hp]
    constructor <;> intro h <;> cases h
  | ok pos =>
    unfold ArrayAnalysis.Result
    rw [hc.input pos hp, hc'.input pos hp]
    have h1 : relOf a.ref N leds (fun i l => emit l * Real.exp (-loss i l)) = fun i => leds.map fun l => Real.exp (-loss i l) := by
      funext i
      have := hrel 1 i
      simpa only [one_mul] using this
    rw [h1, show relOf a.ref N leds (fun i l => emit l * Real.exp (-(t * loss i l))) = _ from funext (hrel t)]
    have hS : ∀ (rels : List (List ℝ)) (ds : List (Fin a.layers → ℝ)),
        a.ResultOf (.ok (distanceArray a.cam (layers a.lo a.hi a.layers) pos, rels)) (.ok ds) ↔
        SeriesResult (LinearImage a.layers (distanceArray a.cam (layers a.lo a.hi a.layers) pos) a.lam) rels (.ok ds) := fun _ _ => Iff.rfl
    rw [hS, hS, seriesResult_ok_iff, seriesResult_ok_iff, List.forall₂_map_left_iff, List.forall₂_map_left_iff, List.forall₂_map_right_iff]
    generalize distanceArray a.cam (layers a.lo a.hi a.layers) pos = rows
    have hi : ∀ (i : ℕ) (σ : Fin a.layers → ℝ),
        LinearImage a.layers rows a.lam (leds.map fun l => Real.exp (-(t * loss i l))) (.ok fun l => t * σ l) ↔
        LinearImage a.layers rows a.lam (leds.map fun l => Real.exp (-loss i l)) (.ok σ) := by
      intro i σ
      unfold LinearImage
      cases rows.mapM id with
      | none => simp
      | some M =>
        simp only [List.length_map]
        split
        · next hlen =>
          simp only [Except.ok.injEq, exists_eq_left']
          refine linearSolution_times (distEntry M) a.lam ht (fun j => ?_) σ
          have hj : (j : ℕ) < leds.length := by rw [hlen]; exact j.2
          rw [List.getD_eq_getElem?_getD, List.getD_eq_getElem?_getD, List.getElem?_map, List.getElem?_map, List.getElem?_eq_getElem hj]
          simp only [Option.map_some, Option.getD_some]
          obtain ⟨r1, r2⟩ := hrange i _ (List.getElem_mem hj)
          rw [opticalDepth_any, opticalDepth_any, min_eq_left r1, min_eq_left r2]
          rcases le_total 0 (loss i leds[(j : ℕ)]) with h | h
          · rw [max_eq_right h, max_eq_right (by positivity)]
          · rw [max_eq_left h, max_eq_left (mul_nonpos_of_nonneg_of_nonpos ht.le h), mul_zero]
        · simp
    simp only [hi]

/-! ### One LED gets darker -/

theorem minimisers_monotone {ι : Type} [Fintype ι] {n : ℕ} (B : ι → Fin n → ℝ) (b b' : ι → ℝ) (x x' : Fin n → ℝ)
    (h : IsMinimiser B b x) (h' : IsMinimiser B b' x') :
    ∑ i, (∑ l, B i l * x' l - ∑ l, B i l * x l) ^ 2 ≤ ∑ i, (b' i - b i) * (∑ l, B i l * x' l - ∑ l, B i l * x l) := by
  have k := (minimiser_iff B b x).1 h
  have k' := (minimiser_iff B b' x').1 h'
  have h1 : 0 ≤ ∑ l, slope B b x l * (x' l - x l) := Finset.sum_nonneg fun l _ => by
    have := mul_nonneg (k l).2.1 (k' l).1
    linarith [(k l).2.2]
  have h2 : 0 ≤ ∑ l, slope B b' x' l * (x l - x' l) := Finset.sum_nonneg fun l _ => by
    have := mul_nonneg (k' l).2.1 (k l).1
    linarith [(k' l).2.2]
  have e : ∀ (b : ι → ℝ) (x z : Fin n → ℝ), ∑ l, slope B b x l * (z l - x l) = ∑ i, (∑ k, B i k * x k - b i) * (∑ l, B i l * z l - ∑ l, B i l * x l) := by
    intro b x z
    simp only [slope, Finset.sum_mul]
    rw [Finset.sum_comm]
    refine Finset.sum_congr rfl fun i _ => ?_
    rw [← Finset.sum_sub_distrib, Finset.mul_sum]
    exact Finset.sum_congr rfl fun l _ => by ring
  rw [e] at h1 h2
  have : ∑ i, (b' i - b i) * (∑ l, B i l * x' l - ∑ l, B i l * x l) - ∑ i, (∑ l, B i l * x' l - ∑ l, B i l * x l) ^ 2 =
      ∑ i, (∑ k, B i k * x k - b i) * (∑ l, B i l * x' l - ∑ l, B i l * x l) +
      ∑ i, (∑ k, B i k * x' k - b' i) * (∑ l, B i l * x l - ∑ l, B i l * x' l) := by
    rw [← Finset.sum_sub_distrib, ← Finset.sum_add_distrib]
    exact Finset.sum_congr rfl fun i _ => by ring
  linarith

theorem opticalDepth_anti {r s : ℝ} (h : s ≤ r) : opticalDepth r ≤ opticalDepth s := by
  unfold opticalDepth clip
  have h0 : (0 : ℝ) < min (max s (1 / 10 ^ 10)) 1 := lt_min (lt_of_lt_of_le (by norm_num) (le_max_right _ _)) one_pos
  exact neg_le_neg (Real.log_le_log h0 (by gcongr))

/-- **C154, one LED**: if of all LEDs only one gets darker, the light loss that the new coefficients give for it is not smaller than the
one before, and it grows by no more than its measured light loss does. -/
theorem C154_own_ray {m n : ℕ} (A : Fin m → Fin n → ℝ) (lam : ℝ) (rel rel' : Fin m → ℝ) (led : Fin m) (hsame : ∀ i, i ≠ led → rel' i = rel i)
    (hdark : rel' led ≤ rel led) (x x' : Fin n → ℝ) (h : LinearSolution A lam rel x) (h' : LinearSolution A lam rel' x') :
    depth x (A led) ≤ depth x' (A led) ∧
    depth x' (A led) - depth x (A led) ≤ opticalDepth (rel' led) - opticalDepth (rel led) := by
  have hm := minimisers_monotone _ _ _ x x' h.toIsMinimiser h'.toIsMinimiser
  have hΔ : 0 ≤ opticalDepth (rel' led) - opticalDepth (rel led) := sub_nonneg.2 (opticalDepth_anti hdark)
  have hd : ∀ (z : Fin n → ℝ) (i : Fin m), ∑ l, augMatrix A lam (.inl i) l * z l = depth z (A i) := fun z i => rfl
  rw [Fintype.sum_sum_type, Fintype.sum_sum_type] at hm
  simp only [hd, augRhs, sub_self, zero_mul, Finset.sum_const_zero, add_zero] at hm
  rw [Finset.sum_eq_single (f := fun i => (opticalDepth (rel' i) - opticalDepth (rel i)) * (depth x' (A i) - depth x (A i))) led
    (fun i _ hi => by rw [hsame i hi]; ring) (by simp)] at hm
  have h1 : (depth x' (A led) - depth x (A led)) ^ 2 ≤ ∑ i, (depth x' (A i) - depth x (A i)) ^ 2 :=
    Finset.single_le_sum (f := fun i => (depth x' (A i) - depth x (A i)) ^ 2) (fun _ _ => sq_nonneg _) (Finset.mem_univ led)
  have h2 : 0 ≤ ∑ i : Fin (regRows n), (∑ l, augMatrix A lam (.inr i) l * x' l - ∑ l, augMatrix A lam (.inr i) l * x l) ^ 2 :=
    Finset.sum_nonneg fun _ _ => sq_nonneg _
  rw [← sub_nonneg]
  generalize depth x' (A led) - depth x (A led) = w at *
  have hw : w ^ 2 ≤ (opticalDepth (rel' led) - opticalDepth (rel led)) * w := by linarith
  have : 0 ≤ w := by
    by_contra hc
    have := mul_nonpos_of_nonneg_of_nonpos hΔ (not_le.1 hc).le
    have := pow_pos (neg_pos.2 (not_le.1 hc)) 2
    nlinarith
  refine ⟨this, ?_⟩
  by_contra hc
  nlinarith

/-! ### All LEDs get darker -/

/-- Three LEDs: the first is seen through one layer, the second through two, the third through all three. -/
def stairRays : Fin 3 → Fin 3 → ℝ := fun i l => if l ≤ i then 1 else 0

theorem depth_stair (σ : Fin 3 → ℝ) : depth σ (stairRays 0) = σ 0 ∧ depth σ (stairRays 1) = σ 0 + σ 1 ∧ depth σ (stairRays 2) = σ 0 + σ 1 + σ 2 := by
  simp [depth, stairRays, Fin.sum_univ_three, Fin.le_def]

theorem stair_determines : DeterminesAffine stairRays := by
  intro σ τ _ _ h
  obtain ⟨a0, a1, a2⟩ := depth_stair σ
  obtain ⟨b0, b1, b2⟩ := depth_stair τ
  have h0 := h 0; have h1 := h 1; have h2 := h 2
  rw [a0, b0] at h0; rw [a1, b1] at h1; rw [a2, b2] at h2
  funext l
  fin_cases l <;> simp <;> linarith

theorem stair_solution {lam : ℝ} (hl : 0 < lam) (σ : Fin 3 → ℝ) (h0 : ∀ l, 0 ≤ σ l) (haff : Affine σ) (hd : ∀ i, depth σ (stairRays i) ≤ 10 * Real.log 10) (x : Fin 3 → ℝ) :
    LinearSolution stairRays lam (calcIntensities stairRays σ) x ↔ x = σ :=
  C43_linear_profile_partial (le_refl 3) stairRays (fun i l => by unfold stairRays; split <;> norm_num) stair_determines lam hl σ h0 haff hd x

/-- **C154 refuted** for all LEDs together: no LED gets brighter and two get darker, and yet the (only) coefficient found for the third
layer falls from 1 to 0; with any weight of the smoothness. -/
theorem C154_layer_false {lam : ℝ} (hl : 0 < lam) : ∃ rel rel' : Fin 3 → ℝ, (∀ i, 0 < rel' i ∧ rel' i ≤ rel i ∧ rel i ≤ 1) ∧
    rel' 0 < rel 0 ∧ rel' 1 < rel 1 ∧
    (∀ x, LinearSolution stairRays lam rel x ↔ x = ![1, 1, 1]) ∧ ∀ x, LinearSolution stairRays lam rel' x ↔ x = ![2, 1, 0] := by
  have hlog1 : 1 ≤ Real.log 10 := by
    rw [Real.le_log_iff_exp_le (by norm_num)]
    linarith [Real.exp_one_lt_d9]
  have hI : ∀ (σ : Fin 3 → ℝ) i, calcIntensities stairRays σ i = Real.exp (-depth σ (stairRays i)) := by
    intro σ i
    rw [C42_beer_lambert]
    congr 2
    exact Finset.sum_congr rfl fun l _ => mul_comm _ _
  obtain ⟨a0, a1, a2⟩ := depth_stair ![1, 1, 1]
  obtain ⟨b0, b1, b2⟩ := depth_stair ![2, 1, 0]
  simp at a0 a1 a2 b0 b1 b2
  refine ⟨calcIntensities stairRays ![1, 1, 1], calcIntensities stairRays ![2, 1, 0], ?_, ?_, ?_, ?_, ?_⟩
  · intro i
    simp only [hI]
    refine ⟨Real.exp_pos _, Real.exp_le_exp.2 ?_, Real.exp_le_one_iff.2 ?_⟩ <;> fin_cases i <;>
      simp only [Fin.zero_eta, Fin.mk_one, Fin.reduceFinMk, a0, a1, a2, b0, b1, b2] <;> norm_num
  · rw [hI, hI, a0, b0]; exact Real.exp_lt_exp.2 (by norm_num)
  · rw [hI, hI, a1, b1]; exact Real.exp_lt_exp.2 (by norm_num)
  · refine stair_solution hl _ (fun l => by fin_cases l <;> simp) ⟨1, 0, fun l => by fin_cases l <;> simp⟩ fun i => ?_
    fin_cases i <;> simp only [Fin.zero_eta, Fin.mk_one, Fin.reduceFinMk, a0, a1, a2] <;> linarith
  · refine stair_solution hl _ (fun l => by fin_cases l <;> simp) ⟨2, -1, fun l => by fin_cases l <;> norm_num⟩ fun i => ?_
    fin_cases i <;> simp only [Fin.zero_eta, Fin.mk_one, Fin.reduceFinMk, b0, b1, b2] <;> linarith

/-! ### Two sources of smoke -/

theorem opticalDepth_mul {r s : ℝ} (hr : 0 < r) (hr1 : r ≤ 1) (hs : 0 < s) (hs1 : s ≤ 1) (hrs : 1 / 10 ^ 10 ≤ r * s) :
    opticalDepth (r * s) = opticalDepth r + opticalDepth s := by
  have e : ∀ x : ℝ, 0 < x → x ≤ 1 → 1 / 10 ^ 10 ≤ x → opticalDepth x = -Real.log x := by
    intro x _ h1 h2
    unfold opticalDepth clip
    rw [max_eq_left h2, min_eq_left h1]
  rw [e _ (by positivity) (by nlinarith) hrs, e r hr hr1 (by nlinarith), e s hs hs1 (by nlinarith), Real.log_mul hr.ne' hs.ne']
  ring

theorem slope_add {ι : Type} [Fintype ι] {n : ℕ} (B : ι → Fin n → ℝ) (b b' : ι → ℝ) (x x' : Fin n → ℝ) (l : Fin n) :
    slope B (fun i => b i + b' i) (fun k => x k + x' k) l = slope B b x l + slope B b' x' l := by
  unfold slope
  rw [← Finset.sum_add_distrib]
  refine Finset.sum_congr rfl fun i _ => ?_
  have : ∑ k, B i k * (x k + x' k) = ∑ k, B i k * x k + ∑ k, B i k * x' k := by
    rw [← Finset.sum_add_distrib]; exact Finset.sum_congr rfl fun k _ => by ring
  rw [this]; ring

theorem opticalDepth_nonneg (r : ℝ) : 0 ≤ opticalDepth r := by
  unfold opticalDepth clip
  rw [neg_nonneg]
  exact Real.log_nonpos (le_trans (by norm_num) (le_min (le_max_right r (1 / 10 ^ 10)) (show (1 / 10 ^ 10 : ℝ) ≤ 1 by norm_num))) (min_le_right _ _)

/-- How strongly the measured values of a layer speak for less smoke in it than the coefficients `x` have (half the derivative of the
squared error); 0 in every layer where the solver finds smoke. -/
noncomputable def tooMuch {m n : ℕ} (A : Fin m → Fin n → ℝ) (lam : ℝ) (rel : Fin m → ℝ) (x : Fin n → ℝ) (l : Fin n) : ℝ :=
  slope (augMatrix A lam) (augRhs n rel) x l

/-- **C154, two sources**: if the light is weakened by the smoke of two sources one after the other, the linear analysis finds the sum of
the coefficients exactly if no layer with smoke of one source is held at zero for the other. -/
theorem C154_two_sources {m n : ℕ} (A : Fin m → Fin n → ℝ) (hA : ∀ i l, 0 ≤ A i l) (lam : ℝ) (r s : Fin m → ℝ)
    (hr : ∀ i, 0 < r i ∧ r i ≤ 1) (hs : ∀ i, 0 < s i ∧ s i ≤ 1) (hrs : ∀ i, 1 / 10 ^ 10 ≤ r i * s i) (x y : Fin n → ℝ)
    (hx : LinearSolution A lam r x) (hy : LinearSolution A lam s y) :
    LinearSolution A lam (fun i => r i * s i) (fun l => x l + y l) ↔
      ∀ l, (0 < x l → tooMuch A lam s y l = 0) ∧ (0 < y l → tooMuch A lam r x l = 0) := by
  have e : augRhs n (fun i => r i * s i) = fun i => augRhs n r i + augRhs n s i := by
    funext i
    cases i with
    | inl i => exact opticalDepth_mul (hr i).1 (hr i).2 (hs i).1 (hs i).2 (hrs i)
    | inr i => simp [augRhs]
  have kx := (minimiser_iff _ _ _).1 hx.toIsMinimiser
  have ky := (minimiser_iff _ _ _).1 hy.toIsMinimiser
  unfold tooMuch
  constructor
  · intro h l
    have k := (minimiser_iff _ _ _).1 h.toIsMinimiser l
    rw [e, slope_add] at k
    obtain ⟨x1, x2, x3⟩ := kx l
    obtain ⟨y1, y2, y3⟩ := ky l
    have p1 := mul_nonneg x1 y2
    have p2 := mul_nonneg y1 x2
    have hz := k.2.2
    constructor
    · intro hp
      have : x l * slope (augMatrix A lam) (augRhs n s) y l = 0 := by nlinarith
      exact (mul_eq_zero.1 this).resolve_left hp.ne'
    · intro hp
      have : y l * slope (augMatrix A lam) (augRhs n r) x l = 0 := by nlinarith
      exact (mul_eq_zero.1 this).resolve_left hp.ne'
  · intro h
    refine ⟨(minimiser_iff _ _ _).2 fun l => ?_, fun hst => ?_⟩
    · rw [e, slope_add]
      obtain ⟨x1, x2, x3⟩ := kx l
      obtain ⟨y1, y2, y3⟩ := ky l
      refine ⟨add_nonneg x1 y1, add_nonneg x2 y2, ?_⟩
      have p1 : x l * slope (augMatrix A lam) (augRhs n s) y l = 0 := by
        rcases x1.lt_or_eq with hp | hp
        · rw [(h l).1 hp, mul_zero]
        · rw [← hp, zero_mul]
      have p2 : y l * slope (augMatrix A lam) (augRhs n r) x l = 0 := by
        rcases y1.lt_or_eq with hp | hp
        · rw [(h l).2 hp, mul_zero]
        · rw [← hp, zero_mul]
      linear_combination x3 + y3 + p1 + p2
    · have hle : ∀ (u v : Fin m → ℝ), (∀ i, opticalDepth (u i) ≤ opticalDepth (r i * s i)) → ∀ l, ∑ i, augMatrix A lam i l * augRhs n u i ≤ 0 := by
        intro u v hu l
        refine le_trans ?_ (hst l)
        rw [Fintype.sum_sum_type, Fintype.sum_sum_type]
        simp only [augRhs, mul_zero, Finset.sum_const_zero, add_zero]
        exact Finset.sum_le_sum fun i _ => mul_le_mul_of_nonneg_left (hu i) (hA i l)
      have z1 := hx.start (hle r r fun i => opticalDepth_anti (by nlinarith [(hr i).1, (hs i).2]))
      have z2 := hy.start (hle s s fun i => opticalDepth_anti (by nlinarith [(hs i).1, (hr i).2]))
      funext l
      rw [z1, z2]; simp

/-- **C154, two sources of smoke in every layer**: the coefficients add up. -/
theorem C154_sum {m n : ℕ} (A : Fin m → Fin n → ℝ) (hA : ∀ i l, 0 ≤ A i l) (lam : ℝ) (r s : Fin m → ℝ)
    (hr : ∀ i, 0 < r i ∧ r i ≤ 1) (hs : ∀ i, 0 < s i ∧ s i ≤ 1) (hrs : ∀ i, 1 / 10 ^ 10 ≤ r i * s i) (x y : Fin n → ℝ)
    (hx : LinearSolution A lam r x) (hy : LinearSolution A lam s y) (hpos : ∀ l, 0 < x l ∧ 0 < y l) :
    LinearSolution A lam (fun i => r i * s i) (fun l => x l + y l) := by
  refine (C154_two_sources A hA lam r s hr hs hrs x y hx hy).2 fun l => ⟨fun _ => ?_, fun _ => ?_⟩
  · exact (mul_eq_zero.1 ((minimiser_iff _ _ _).1 hy.toIsMinimiser l).2.2).resolve_left (hpos l).2.ne'
  · exact (mul_eq_zero.1 ((minimiser_iff _ _ _).1 hx.toIsMinimiser l).2.2).resolve_left (hpos l).1.ne'

/-- Two LEDs: the first is seen through one layer, the second through two of three. -/
def shortStair : Fin 2 → Fin 3 → ℝ := fun i l => if (l : ℕ) ≤ i then 1 else 0

theorem shortStair_slope (u v : ℝ) (h1 : 0 ≤ u) (h2 : u ≤ 2) (h3 : 0 ≤ v) (h4 : v ≤ 2) (x : Fin 3 → ℝ) :
      slope (augMatrix shortStair 0) (augRhs 3 ![Real.exp (-u), Real.exp (-v)]) x 0 = (x 0 - u) + (x 0 + x 1 - v) ∧
      slope (augMatrix shortStair 0) (augRhs 3 ![Real.exp (-u), Real.exp (-v)]) x 1 = x 0 + x 1 - v ∧
      slope (augMatrix shortStair 0) (augRhs 3 ![Real.exp (-u), Real.exp (-v)]) x 2 = 0 := by
  have hlog1 : 1 ≤ Real.log 10 := by
    rw [Real.le_log_iff_exp_le (by norm_num)]
    linarith [Real.exp_one_lt_d9]
  have eu : opticalDepth (Real.exp (-u)) = u := opticalDepth_exp h1 (by linarith)
  have ev : opticalDepth (Real.exp (-v)) = v := opticalDepth_exp h3 (by linarith)
  unfold slope
  simp only [Fintype.sum_sum_type, Fin.sum_univ_two, Fin.sum_univ_three, augMatrix, augRhs, Real.sqrt_zero, zero_mul, Finset.sum_const_zero, add_zero]
  simp [shortStair, eu, ev]

theorem shortStair_solution : LinearSolution shortStair 0 ![Real.exp (-2), Real.exp (-1)] ![3 / 2, 0, 0] := by
  obtain ⟨s0, s1, s2⟩ := shortStair_slope 2 1 (by norm_num) (by norm_num) (by norm_num) (by norm_num) ![3 / 2, 0, 0]
  refine ⟨(minimiser_iff _ _ _).2 fun l => ?_, fun hst => ?_⟩
  · fin_cases l
    · show 0 ≤ (3 / 2 : ℝ) ∧ 0 ≤ slope _ _ _ 0 ∧ (3 / 2 : ℝ) * slope _ _ _ 0 = 0
      rw [s0]; norm_num
    · show 0 ≤ (0 : ℝ) ∧ 0 ≤ slope _ _ _ 1 ∧ (0 : ℝ) * slope _ _ _ 1 = 0
      rw [s1]; norm_num
    · show 0 ≤ (0 : ℝ) ∧ 0 ≤ slope _ _ _ 2 ∧ (0 : ℝ) * slope _ _ _ 2 = 0
      rw [s2]; norm_num
  · exfalso
    obtain ⟨t0, -, -⟩ := shortStair_slope 2 1 (by norm_num) (by norm_num) (by norm_num) (by norm_num) 0
    have := hst 0
    unfold slope at t0
    simp only [Pi.zero_apply, mul_zero, Finset.sum_const_zero, zero_sub, mul_neg, Finset.sum_neg_distrib] at t0
    linarith

/-- **C154 refuted** for any two sources: measured light losses (2, 1) and (0, 1), without smoothing. -/
theorem C154_sum_false : ∃ r s : Fin 2 → ℝ, (∀ i, 0 < r i ∧ r i ≤ 1) ∧ (∀ i, 0 < s i ∧ s i ≤ 1) ∧ (∀ i, 1 / 10 ^ 10 ≤ r i * s i) ∧
    LinearSolution shortStair 0 r ![3 / 2, 0, 0] ∧ LinearSolution shortStair 0 s ![0, 1, 0] ∧
    ¬ LinearSolution shortStair 0 (fun i => r i * s i) (fun l => ![3 / 2, 0, 0] l + ![0, 1, 0] l) := by
  have hlog1 : 1 ≤ Real.log 10 := by
    rw [Real.le_log_iff_exp_le (by norm_num)]
    linarith [Real.exp_one_lt_d9]
  have hr : ∀ (u v : ℝ), 0 ≤ u → u ≤ 2 → 0 ≤ v → v ≤ 2 → ∀ i : Fin 2, 0 < (![Real.exp (-u), Real.exp (-v)] : Fin 2 → ℝ) i ∧ (![Real.exp (-u), Real.exp (-v)] : Fin 2 → ℝ) i ≤ 1 := by
    intro u v h1 h2 h3 h4 i
    fin_cases i
    · exact ⟨Real.exp_pos _, Real.exp_le_one_iff.2 (by simpa using h1)⟩
    · exact ⟨Real.exp_pos _, Real.exp_le_one_iff.2 (by simpa using h3)⟩
  have hrs : ∀ i : Fin 2, 1 / 10 ^ 10 ≤ (![Real.exp (-2), Real.exp (-1)] : Fin 2 → ℝ) i * (![Real.exp (-0), Real.exp (-1)] : Fin 2 → ℝ) i := by
    intro i
    rw [tenth_exp]
    fin_cases i
    · show _ ≤ Real.exp (-2) * Real.exp (-0)
      rw [← Real.exp_add, Real.exp_le_exp]; linarith
    · show _ ≤ Real.exp (-1) * Real.exp (-1)
      rw [← Real.exp_add, Real.exp_le_exp]; linarith
  have hA : ∀ i l, 0 ≤ shortStair i l := fun i l => by unfold shortStair; split <;> norm_num
  have hs := shortStair_slope
  have h1 := shortStair_solution
  have h2 : LinearSolution shortStair 0 ![Real.exp (-0), Real.exp (-1)] ![0, 1, 0] := by
    obtain ⟨s0, s1, s2⟩ := hs 0 1 (by norm_num) (by norm_num) (by norm_num) (by norm_num) ![0, 1, 0]
    refine ⟨(minimiser_iff _ _ _).2 fun l => ?_, fun hst => ?_⟩
    · fin_cases l
      · show 0 ≤ (0 : ℝ) ∧ 0 ≤ slope _ _ _ 0 ∧ (0 : ℝ) * slope _ _ _ 0 = 0
        rw [s0]; norm_num
      · show 0 ≤ (1 : ℝ) ∧ 0 ≤ slope _ _ _ 1 ∧ (1 : ℝ) * slope _ _ _ 1 = 0
        rw [s1]; norm_num
      · show 0 ≤ (0 : ℝ) ∧ 0 ≤ slope _ _ _ 2 ∧ (0 : ℝ) * slope _ _ _ 2 = 0
        rw [s2]; norm_num
    · exfalso
      obtain ⟨t0, -, -⟩ := hs 0 1 (by norm_num) (by norm_num) (by norm_num) (by norm_num) 0
      have := hst 0
      unfold slope at t0
      simp only [Pi.zero_apply, mul_zero, Finset.sum_const_zero, zero_sub, mul_neg, Finset.sum_neg_distrib] at t0
      linarith
  refine ⟨![Real.exp (-2), Real.exp (-1)], ![Real.exp (-0), Real.exp (-1)], hr 2 1 (by norm_num) (by norm_num) (by norm_num) (by norm_num),
    hr 0 1 (by norm_num) (by norm_num) (by norm_num) (by norm_num), hrs, h1, h2, fun h3 => ?_⟩
  have := ((C154_two_sources shortStair hA 0 _ _ (hr 2 1 (by norm_num) (by norm_num) (by norm_num) (by norm_num))
    (hr 0 1 (by norm_num) (by norm_num) (by norm_num) (by norm_num)) hrs _ _ h1 h2).1 h3 1).2 (by simp)
  unfold tooMuch at this
  rw [(hs 2 1 (by norm_num) (by norm_num) (by norm_num) (by norm_num) _).2.1] at this
  norm_num at this

/-! ### The nonlinear solver -/

/-- **C154 refuted** for the nonlinear solver with its default weights, one LED and one layer: coefficients are at most 10. -/
theorem C154_nonlinear_false : ∃ (A : Fin 1 → Fin 1 → ℝ) (rel : Fin 1 → ℝ) (σ : Fin 1 → ℝ), BestFit A defaultCurv defaultPref rel σ ∧
    (∀ i, 1 / 10 ^ 10 ≤ rel i ∧ 1 / 10 ^ 10 ≤ rel i ^ (2 : ℝ)) ∧ ¬ BestFit A defaultCurv defaultPref (fun i => rel i ^ (2 : ℝ)) (fun l => 2 * σ l) := by
  have hlog1 : 2 ≤ Real.log 10 := by
    rw [Real.le_log_iff_exp_le (by norm_num)]
    have h1 := Real.exp_one_lt_d9
    have h2 : Real.exp 2 = Real.exp 1 ^ 2 := by rw [← Real.exp_nat_mul]; norm_num
    rw [h2]
    nlinarith [Real.exp_pos 1]
  refine ⟨fun _ _ => 1, fun _ => Real.exp (-10), fun _ => 10, ⟨fun _ => by norm_num, fun τ hτ => ?_⟩, fun i => ?_, fun h => ?_⟩
  · have h0 : rmse (fun (_ : Fin 1) (_ : Fin 1) => (1 : ℝ)) (fun _ => Real.exp (-10)) (fun _ => 10) = 0 := by
      rw [rmse_eq_zero _ _ _]
      intro led
      rw [C42_beer_lambert]
      simp
    unfold costFunction
    rw [h0]
    have h1 := rmse_nonneg (fun (_ : Fin 1) (_ : Fin 1) => (1 : ℝ)) (fun _ => Real.exp (-10)) τ
    have h2 : ∀ z : Fin 1 → ℝ, curvature 1 defaultCurv z = 0 := fun z => by unfold curvature; simp
    rw [h2, h2]
    unfold preference defaultPref
    have := (hτ 0).2
    simp
    linarith
  · rw [tenth_exp, ← Real.exp_mul, Real.exp_le_exp, Real.exp_le_exp]
    constructor <;> linarith
  · have := (h.1 0).2
    norm_num at this

/-! ### Concrete cases -/

/-- Light losses (2, 1) do not fit to any smoke; three times as large they give three times the coefficients. -/
example : LinearSolution shortStair 0 (fun i => (![Real.exp (-2), Real.exp (-1)] : Fin 2 → ℝ) i ^ (3 : ℝ)) (fun l => 3 * (![3 / 2, 0, 0] : Fin 3 → ℝ) l) := by
  have hlog1 : 1 ≤ Real.log 10 := by
    rw [Real.le_log_iff_exp_le (by norm_num)]
    linarith [Real.exp_one_lt_d9]
  refine (C154_denser_partial shortStair 0 _ (by norm_num) ?_ ?_ _).2 shortStair_solution
  · intro i
    rw [tenth_exp]
    fin_cases i
    · exact Real.exp_le_exp.2 (by linarith)
    · exact Real.exp_le_exp.2 (by linarith)
  · intro i
    rw [tenth_exp]
    fin_cases i
    · show _ ≤ Real.exp (-2) ^ (3 : ℝ)
      rw [← Real.exp_mul]; exact Real.exp_le_exp.2 (by linarith)
    · show _ ≤ Real.exp (-1) ^ (3 : ℝ)
      rw [← Real.exp_mul]; exact Real.exp_le_exp.2 (by linarith)

/-- Result files that hold the values `v` of an array. -/
noncomputable def filesOf (arr : ℕ) (leds : List ℕ) (v : ℕ → ℕ → ℝ) (i : ℕ) : List (ℕ × ℕ × ℝ) := leds.map fun l => (l, arr, v i l)

theorem filesOf_complete (c : RefChoice) (arr N : ℕ) (hN : 0 < N) (leds : List ℕ) (hs : leds.Pairwise (· < ·)) (hne : leds ≠ []) (v : ℕ → ℕ → ℝ)
    (href : ∃ i, 1 ≤ i ∧ i ≤ N ∧ c.selects i = true) : CompleteSeries c arr (filesOf arr leds v) N leds v := by
  refine ⟨hN, hs, hne, fun i _ _ => ?_, fun i _ _ l x => ?_, href⟩
  · unfold filesOf
    rw [List.map_map]
    have : ((fun (r : ℕ × ℕ × ℝ) => r.1) ∘ fun l => (l, arr, v i l)) = id := rfl
    rw [this, List.map_id]
    exact hs.imp fun h => h.ne
  · unfold filesOf
    simp only [List.mem_map, Prod.mk.injEq]
    constructor
    · rintro ⟨k, hk, rfl, _, rfl⟩; exact ⟨hk, rfl⟩
    · rintro ⟨h, rfl⟩; exact ⟨l, h, rfl, trivial, rfl⟩

/-- Two LEDs, a clear first photo and one with smoke: with smoke twice as dense the results are twice as large. -/
example (a : ArrayAnalysis) (ha : a.ref = .first 1) (cs : List (Fin a.layers → ℝ)) :
    a.Result (filesOf a.arr [3, 5] fun i l => 1000 * Real.exp (-(2 * if i ≤ 1 then 0 else (l : ℝ) / 10))) 2 (.ok (cs.map fun σ l => 2 * σ l)) ↔
    a.Result (filesOf a.arr [3, 5] fun i l => 1000 * Real.exp (-if i ≤ 1 then 0 else (l : ℝ) / 10)) 2 (.ok cs) := by
  have hlog1 : 1 ≤ Real.log 10 := by
    rw [Real.le_log_iff_exp_le (by norm_num)]
    linarith [Real.exp_one_lt_d9]
  have href : ∃ i, 1 ≤ i ∧ i ≤ 2 ∧ a.ref.selects i = true := ⟨1, le_rfl, by norm_num, by rw [ha]; rfl⟩
  refine C154_series a _ _ 2 [3, 5] (fun _ => 1000) (fun i l => if i ≤ 1 then 0 else (l : ℝ) / 10) two_pos (fun _ _ => by norm_num) ?_ ?_
    (filesOf_complete _ _ _ two_pos _ (by decide) (by decide) _ href) (filesOf_complete _ _ _ two_pos _ (by decide) (by decide) _ href) cs
  · intro i hi l _
    rw [ha] at hi
    have : i ≤ 1 := by simpa [RefChoice.selects] using hi
    rw [if_pos this]
  · intro i l hl
    simp only [List.mem_cons, List.not_mem_nil, or_false] at hl
    rcases hl with rfl | rfl <;> split <;> constructor <;> norm_num <;> linarith

end Ledsa
