import Verif.Props.Averaging
import Verif.Props.Robust
import Verif.Props.RayGeometry
import Mathlib.Analysis.SpecialFunctions.Trigonometric.Series
import Mathlib.Analysis.SpecialFunctions.Trigonometric.DerivHyp

/-!
# The smoke that averaged images show (C176)

`average_all_fitpar`, /repo/ledsa/core/file_handling.py 169-200, averages the light of two images; the analysis takes the logarithm
afterwards. The specification is a series of images, each the mean of two photos taken through different smoke.
-/

namespace Ledsa
open scoped BigOperators

/-- The light of an LED in the mean of two photos with the losses `a` and `b`. -/
noncomputable def meanLight (emit a b : ℝ) : ℝ := (emit * Real.exp (-a) + emit * Real.exp (-b)) / 2

/-- **C176.** The mean of two photos has more light than a photo through the mean smoke, by the factor `cosh` of half the difference of
the losses. -/
theorem C176_light (emit a b : ℝ) : meanLight emit a b = emit * Real.exp (-((a + b) / 2)) * Real.cosh ((a - b) / 2) := by
  unfold meanLight
  rw [Real.cosh_eq, mul_div_assoc', mul_assoc emit, mul_add, ← Real.exp_add, ← Real.exp_add]
  ring_nf

/-- **C176.** The optical depth from the mean of two photos: the mean depth less the logarithm of a hyperbolic cosine. It is never above the
mean, equal to it only if the losses were the same, never below the smaller one, and at most an eighth of the squared difference
below the mean. -/
theorem C176_depth (emit a b : ℝ) (h : 0 < emit) :
    -Real.log (meanLight emit a b / emit) = (a + b) / 2 - Real.log (Real.cosh ((a - b) / 2)) ∧
    -Real.log (meanLight emit a b / emit) ≤ (a + b) / 2 ∧
    (-Real.log (meanLight emit a b / emit) = (a + b) / 2 ↔ a = b) ∧
    min a b ≤ -Real.log (meanLight emit a b / emit) ∧
    (a + b) / 2 - (a - b) ^ 2 / 8 ≤ -Real.log (meanLight emit a b / emit) := by
  have hc : 0 < Real.cosh ((a - b) / 2) := Real.cosh_pos _
  have e : -Real.log (meanLight emit a b / emit) = (a + b) / 2 - Real.log (Real.cosh ((a - b) / 2)) := by
    rw [C176_light, mul_assoc, mul_div_cancel_left₀ _ h.ne', Real.log_mul (Real.exp_pos _).ne' hc.ne', Real.log_exp]
    ring
  have h0 : 0 ≤ Real.log (Real.cosh ((a - b) / 2)) := Real.log_nonneg (Real.one_le_cosh _)
  refine ⟨e, by rw [e]; linarith, ?_, ?_, ?_⟩
  · rw [e]
    constructor
    · intro he
      by_contra hne
      have h1 : 1 < Real.cosh ((a - b) / 2) := Real.one_lt_cosh.2 (div_ne_zero (sub_ne_zero.2 hne) two_ne_zero)
      linarith [Real.log_pos h1]
    · rintro rfl
      simp
  · have h1 : meanLight emit a b / emit ≤ Real.exp (-min a b) := by
      unfold meanLight
      rw [div_le_iff₀ h]
      have ha : Real.exp (-a) ≤ Real.exp (-min a b) := Real.exp_le_exp.2 (neg_le_neg (min_le_left _ _))
      have hb : Real.exp (-b) ≤ Real.exp (-min a b) := Real.exp_le_exp.2 (neg_le_neg (min_le_right _ _))
      nlinarith
    have h2 : 0 < meanLight emit a b / emit := by
      unfold meanLight
      positivity
    have := (Real.log_le_iff_le_exp h2).2 h1
    linarith
  · rw [e]
    have h1 := (Real.log_le_iff_le_exp hc).2 (Real.cosh_le_exp_half_sq ((a - b) / 2))
    nlinarith

-- losses of 1 and 3: the averaged images show a loss between 3/2 and 2
example : 3 / 2 ≤ -Real.log (meanLight 50 1 3 / 50) ∧ -Real.log (meanLight 50 1 3 / 50) < 2 := by
  obtain ⟨_, h2, h3, _, h5⟩ := C176_depth 50 1 3 (by norm_num)
  norm_num at h2 h3 h5
  exact ⟨by linarith, lt_of_le_of_ne (by linarith) (fun h => h3 (by linarith))⟩

theorem truncZero_close (q : ℚ) : |(truncZero q : ℚ) - q| < 1 := by
  unfold truncZero
  split
  · rw [abs_lt]
    constructor <;> linarith [Int.floor_le q, Int.lt_floor_add_one q]
  · rw [abs_lt]
    constructor <;> linarith [Int.le_ceil q, Int.ceil_lt_add_one q]

/-- **C176.** The values of the averaged table are these means: with the mean of the pixels as reference property, averaged image
`r + 1 + g` has the mean of the values of the images `r + 2 g + 1` and `r + 2 g + 2` of the LED. -/
theorem C176_table (r : ℕ) (rows : List AvgRow) (a led g : ℕ) (x y : AvgRow) (hx : (rowsOfLed a led rows)[r + 2 * g]? = some x)
    (hy : (rowsOfLed a led rows)[r + 2 * g + 1]? = some y) :
    ∃ z, (rowsOfLed a led (averageTable r 2 rows))[r + g]? = some z ∧ z.img = r + 1 + g ∧ z.mean = (x.mean + y.mean) / 2 ∧
      z.max = (x.max + y.max) / 2 ∧ |z.sum - (x.sum + y.sum) / 2| < 1 := by
  obtain ⟨hx1, hx2⟩ := List.getElem?_eq_some_iff.1 hx
  obtain ⟨hy1, hy2⟩ := List.getElem?_eq_some_iff.1 hy
  have hv := (C167_values r 2 (by omega) rows a led).2 g (by omega)
  have hG : ((rowsOfLed a led rows).drop (r + g * 2)).take 2 = [x, y] := by
    rw [Nat.mul_comm g 2, List.drop_eq_getElem_cons hx1, List.drop_eq_getElem_cons hy1, hx2, hy2]
    rfl
  simp only [hG] at hv
  refine ⟨_, hv, rfl, by simp [colMean], by simp [colMean], ?_⟩
  have ht := truncZero_close (colMean (·.sum) [x, y])
  simpa [colMean] using ht

-- the averaged table of an LED: images 2 and 3 become image 2
example : ∃ z, (rowsOfLed 2 3 (averageTable 1 2 [⟨1, 3, 2, 10, 1, 7⟩, ⟨2, 3, 2, 21, 2, 8⟩, ⟨3, 3, 2, 30, 3, 9⟩]))[1]? = some z ∧ z.img = 2 ∧
    z.mean = 5 / 2 := by
  obtain ⟨z, h1, h2, h3, _⟩ := C176_table 1 [⟨1, 3, 2, 10, 1, 7⟩, ⟨2, 3, 2, 21, 2, 8⟩, ⟨3, 3, 2, 30, 3, 9⟩] 2 3 0 ⟨2, 3, 2, 21, 2, 8⟩
    ⟨3, 3, 2, 30, 3, 9⟩ (by decide +kernel) (by decide +kernel)
  exact ⟨z, h1, h2, by rw [h3]; norm_num⟩

/-! ### A series of averaged images -/

/-- `N` images, each the mean of two photos taken through the smoke `before i` and `after i`. -/
noncomputable def averagedLight (a : ArrayAnalysis) (pos : ℕ → P3) (emit : ℕ → ℝ) (before after : ℕ → Fin a.layers → ℝ) (i l : ℕ) : ℝ :=
  meanLight (emit l) (lineDepth a.cam (pos l) a.lo a.hi (before i)) (lineDepth a.cam (pos l) a.lo a.hi (after i))

/-- The mean of the smoke of the two photos. -/
noncomputable def meanSmoke {n : ℕ} (before after : ℕ → Fin n → ℝ) (i : ℕ) : Fin n → ℝ := fun k => (before i k + after i k) / 2

theorem lineDepth_meanSmoke (cam p : P3) (lo hi : ℝ) {n : ℕ} (before after : ℕ → Fin n → ℝ) (i : ℕ) :
    lineDepth cam p lo hi (meanSmoke before after i) = (lineDepth cam p lo hi (before i) + lineDepth cam p lo hi (after i)) / 2 := by
  have : meanSmoke before after i = fun k => (1 / 2) * (before i k + after i k) := by
    funext k
    unfold meanSmoke
    ring
  rw [this, lineDepth_mul cam p lo hi (1 / 2) fun k => before i k + after i k, lineDepth_add]
  ring

/-- **C176.** For the analysis the averaged images are images of the mean smoke, right up to the factor `exp γ` if the losses of the two
photos differ by at most `√(8 γ)`. -/
theorem C176_noisy (a : ArrayAnalysis) (leds : List ℕ) (pos : ℕ → P3) (N : ℕ) (emit : ℕ → ℝ) (before after : ℕ → Fin a.layers → ℝ) (γ : ℝ)
    (hemit : ∀ l ∈ leds, 0 < emit l)
    (hclear : ∀ i, 1 ≤ i → i ≤ N → a.ref.selects i = true → before i = (fun _ => 0) ∧ after i = fun _ => 0)
    (href : ∃ i, 1 ≤ i ∧ i ≤ N ∧ a.ref.selects i = true) (hnn : ∀ i, 1 ≤ i → i ≤ N → ∀ k, 0 ≤ before i k ∧ 0 ≤ after i k)
    (hthin : ∀ i, 1 ≤ i → i ≤ N → ∀ l ∈ leds, lineDepth a.cam (pos l) a.lo a.hi (before i) + lineDepth a.cam (pos l) a.lo a.hi (after i) ≤ 46)
    (hclose : ∀ i, 1 ≤ i → i ≤ N → ∀ l ∈ leds,
      (lineDepth a.cam (pos l) a.lo a.hi (before i) - lineDepth a.cam (pos l) a.lo a.hi (after i)) ^ 2 ≤ 8 * γ) :
    NoisyLight a leds pos N (averagedLight a pos emit before after) γ emit (meanSmoke before after) where
  emits := hemit
  light := by
    intro i h1 h2 l hl
    have he := hemit l hl
    have hc := hclose i h1 h2 l hl
    unfold averagedLight
    rw [C176_light, lineDepth_meanSmoke]
    set d := lineDepth a.cam (pos l) a.lo a.hi (before i)
    set d' := lineDepth a.cam (pos l) a.lo a.hi (after i)
    have hp : 0 < emit l * Real.exp (-((d + d') / 2)) := mul_pos he (Real.exp_pos _)
    have hγ : 0 ≤ γ := by nlinarith [sq_nonneg (d - d')]
    constructor
    · apply mul_le_mul_of_nonneg_left _ hp.le
      exact (Real.exp_le_one_iff.2 (by linarith)).trans (Real.one_le_cosh _)
    · apply mul_le_mul_of_nonneg_left _ hp.le
      refine (Real.cosh_le_exp_half_sq _).trans (Real.exp_le_exp.2 ?_)
      nlinarith
  clear := by
    intro i h1 h2 h3
    obtain ⟨e1, e2⟩ := hclear i h1 h2 h3
    funext k
    unfold meanSmoke
    rw [e1, e2]
    norm_num
  reference := href
  nonneg := by
    intro i h1 h2 k
    obtain ⟨e1, e2⟩ := hnn i h1 h2 k
    unfold meanSmoke
    linarith
  thin := by
    intro i h1 h2 l hl
    rw [lineDepth_meanSmoke]
    linarith [hthin i h1 h2 l hl]

/-- **C176.** The coefficients of averaged images are those of the mean smoke, up to a constant of the array times the fourth power of the
differences of the losses of the two photos and the bending of the mean profile; smoke that does not change between the photos and is linear
in height is found exactly. -/
theorem C176_coefficients (a : ArrayAnalysis) (leds : List ℕ) (pos : ℕ → P3) (h : SeenArray a leds pos) (hlam : 0 < a.lam)
    (hdet : ∀ σ τ : Fin a.layers → ℝ, Affine σ → Affine τ →
      (∀ l ∈ leds, lineDepth a.cam (pos l) a.lo a.hi σ = lineDepth a.cam (pos l) a.lo a.hi τ) → σ = τ) :
    ∃ K : ℝ, 0 < K ∧ ∀ (N : ℕ) (emit : ℕ → ℝ) (before after : ℕ → Fin a.layers → ℝ) (d : ℝ), (∀ l ∈ leds, 0 < emit l) →
      (∀ i, 1 ≤ i → i ≤ N → a.ref.selects i = true → before i = (fun _ => 0) ∧ after i = fun _ => 0) →
      (∃ i, 1 ≤ i ∧ i ≤ N ∧ a.ref.selects i = true) → (∀ i, 1 ≤ i → i ≤ N → ∀ k, 0 ≤ before i k ∧ 0 ≤ after i k) →
      (∀ i, 1 ≤ i → i ≤ N → ∀ l ∈ leds, lineDepth a.cam (pos l) a.lo a.hi (before i) + lineDepth a.cam (pos l) a.lo a.hi (after i) ≤ 46) →
      (∀ i, 1 ≤ i → i ≤ N → ∀ l ∈ leds,
        |lineDepth a.cam (pos l) a.lo a.hi (before i) - lineDepth a.cam (pos l) a.lo a.hi (after i)| ≤ d) →
      ∀ files : ℕ → List (ℕ × ℕ × ℝ), (∀ i, 1 ≤ i → i ≤ N → ((files i).map (·.1)).Nodup) →
      (∀ i, 1 ≤ i → i ≤ N → ∀ l x, (l, a.arr, x) ∈ files i ↔ l ∈ leds ∧ x = averagedLight a pos emit before after i l) →
      ∀ r, a.Result files N r → ∃ found : ℕ → Fin a.layers → ℝ, r = .ok ((firstImgs N).map found) ∧
        ∀ i, 1 ≤ i → i ≤ N → ∑ k, (found i k - meanSmoke before after i k) ^ 2 ≤
          K * (leds.length * (d ^ 2 / 4) ^ 2 + a.lam * bending (meanSmoke before after i)) := by
  obtain ⟨K, hK, hall⟩ := C111_coefficients a leds pos h hlam hdet
  refine ⟨K, hK, ?_⟩
  intro N emit before after d he hc hr hn ht hd files hnd hm r hres
  have hno := C176_noisy a leds pos N emit before after (d ^ 2 / 8) he hc hr hn ht (by
    intro i h1 h2 l hl
    have := hd i h1 h2 l hl
    have h3 := sq_le_sq' (abs_le.1 this).1 (abs_le.1 this).2
    linarith)
  obtain ⟨found, e, hf⟩ := hall N _ _ emit _ hno files hnd hm r hres
  refine ⟨found, e, fun i h1 h2 => ?_⟩
  have := hf i h1 h2
  have e2 : 2 * (d ^ 2 / 8) = d ^ 2 / 4 := by ring
  rwa [e2] at this

/-- The second image of the example is the mean of a photo through clear air and one through smoke. -/
noncomputable def halfCleared (i : ℕ) : Fin 3 → ℝ := fun _ => if i = 1 then 0 else 1 / 2

theorem halfCleared_example : NoisyLight exampleAnalysis [0, 1] examplePos 2
    (averagedLight exampleAnalysis examplePos (fun l => if l = 0 then 50 else 70) (fun _ _ => 0) halfCleared) (9 / 32)
    (fun l => if l = 0 then 50 else 70) (meanSmoke (fun _ _ => 0) halfCleared) := by
  have hv : ∀ i k, 0 ≤ halfCleared i k ∧ halfCleared i k ≤ 1 / 2 := by
    intro i k
    unfold halfCleared
    split <;> norm_num
  apply C176_noisy
  · intro l _
    split <;> norm_num
  · intro i h1 h2 h3
    simp only [exampleAnalysis, RefChoice.selects, decide_eq_true_eq] at h3
    have : i = 1 := by omega
    subst this
    exact ⟨rfl, by funext k; simp [halfCleared]⟩
  · exact ⟨1, le_refl _, by norm_num, by simp [exampleAnalysis, RefChoice.selects]⟩
  · exact fun i _ _ k => ⟨le_rfl, (hv i k).1⟩
  · intro i _ _ l hl
    simp only [List.mem_cons, List.not_mem_nil, or_false] at hl
    rcases hl with rfl | rfl
    · refine le_of_eq_of_le (congrArg₂ (· + ·) (example_depth0 _) (example_depth0 _)) ?_
      linarith [hv i 0]
    · refine le_of_eq_of_le (congrArg₂ (· + ·) (example_depth1 _) (example_depth1 _)) ?_
      linarith [hv i 0, hv i 1, hv i 2]
  · intro i _ _ l hl
    simp only [List.mem_cons, List.not_mem_nil, or_false] at hl
    rcases hl with rfl | rfl
    · refine le_of_eq_of_le (congrArg (· ^ 2) (congrArg₂ (· - ·) (example_depth0 _) (example_depth0 _))) ?_
      have := hv i 0
      nlinarith
    · refine le_of_eq_of_le (congrArg (· ^ 2) (congrArg₂ (· - ·) (example_depth1 _) (example_depth1 _))) ?_
      have h0 := hv i 0
      have h1 := hv i 1
      have h2 := hv i 2
      nlinarith

/-! ### Refutation -/

/-- The coefficients for the mean light of two photos are the means of the coefficients of the photos. -/
def AveragesAreMeans : Prop := ∀ (m n : ℕ) (A : Fin m → Fin n → ℝ) (lam : ℝ), 3 ≤ n → (∀ i l, 0 ≤ A i l) → DeterminesAffine A → 0 < lam →
  ∀ (rel rel' : Fin m → ℝ) (σ τ ρ : Fin n → ℝ), LinearSolution A lam rel σ → LinearSolution A lam rel' τ →
    LinearSolution A lam (fun i => (rel i + rel' i) / 2) ρ → ρ = fun k => (σ k + τ k) / 2

theorem threeRays_uniform (c : ℝ) (h0 : 0 ≤ c) (h1 : c ≤ 20) (x : Fin 3 → ℝ) :
    LinearSolution (threeRays 1) 1 (fun _ => Real.exp (-c)) x ↔ x = fun _ => c := by
  have e : calcIntensities (threeRays 1) (fun _ => c) = fun _ => Real.exp (-c) := by
    funext led
    rw [C42_beer_lambert]
    have : ∑ l, c * threeRays 1 led l = depth (fun _ => c) (threeRays 1 led) := Finset.sum_congr rfl fun l _ => mul_comm _ _
    rw [this, depth_threeRays, one_mul]
  rw [← e]
  have hlog : (2 : ℝ) ≤ Real.log 10 := by
    rw [Real.le_log_iff_exp_le (by norm_num)]
    have h2 : Real.exp 2 = Real.exp 1 ^ 2 := by rw [← Real.exp_nat_mul]; norm_num
    rw [h2]
    have := Real.exp_one_lt_d9
    nlinarith [Real.exp_pos 1]
  apply C43_linear_profile_partial (le_refl _) _ _ (threeRays_determines one_ne_zero) _ one_pos
  · intro _; exact h0
  · exact ⟨c, 0, fun _ => by simp⟩
  · intro led
    rw [depth_threeRays]
    linarith
  · intro i l; unfold threeRays; split <;> norm_num

/-- **C176 refuted**: clear air in one photo and smoke of 2 per metre in the other: the averaged image shows less than 1 per metre. -/
theorem C176_false : ¬ AveragesAreMeans := by
  intro h
  obtain ⟨e, h2, h3, h4, _⟩ := C176_depth 1 0 2 one_pos
  rw [div_one] at e h2 h3 h4
  norm_num at h2 h3 h4
  set c := -Real.log (meanLight 1 0 2) with hc
  have hpos : 0 < meanLight 1 0 2 := by unfold meanLight; positivity
  have hrel : (fun _ : Fin 3 => (Real.exp (-0) + Real.exp (-2)) / 2) = fun _ => Real.exp (-c) := by
    funext _
    rw [hc, neg_neg, Real.exp_log hpos]
    unfold meanLight
    ring
  have hc0 : 0 ≤ c := by linarith
  have hc1 : c ≤ 1 := by linarith
  have := h 3 3 (threeRays 1) 1 le_rfl (fun i l => by unfold threeRays; split <;> norm_num) (threeRays_determines one_ne_zero) one_pos
    (fun _ => Real.exp (-0)) (fun _ => Real.exp (-2)) (fun _ => 0) (fun _ => 2) (fun _ => c)
    ((threeRays_uniform 0 le_rfl (by norm_num) _).2 rfl) ((threeRays_uniform 2 (by norm_num) (by norm_num) _).2 rfl)
    (by rw [hrel]; exact (threeRays_uniform c hc0 (by linarith) _).2 rfl)
  have h5 := congrFun this 0
  norm_num at h5
  exact h3 (by linarith)

end Ledsa
