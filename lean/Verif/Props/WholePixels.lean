import Verif.Props.CrossTalk
import Mathlib.Algebra.Order.Round

/-!
# Pixel values are whole numbers (C187)

Photos hold whole numbers; step 3 adds them up, /repo/ledsa/data_extraction/step_3_functions.py 157-159, and the corrected values of the
channels are cut off to whole numbers too, /repo/ledsa/analysis/data_preparation.py 26. The specification is the light that falls on the
pixels, as real numbers, and a conversion that is off by at most a given amount.
-/

namespace Ledsa
open scoped BigOperators

/-- **C187, sum.** The sum over a search area is off by at most the number of its pixels times the error of one. -/
theorem C187_sum {ι : Type} (pix : Finset ι) (conv : ℝ → ℝ) (e : ℝ) (hc : ∀ x, |conv x - x| ≤ e) (light : ι → ℝ) :
    |∑ p ∈ pix, conv (light p) - ∑ p ∈ pix, light p| ≤ pix.card * e := by
  rw [← Finset.sum_sub_distrib]
  refine (Finset.abs_sum_le_sum_abs _ _).trans ((Finset.sum_le_sum fun p _ => hc (light p)).trans ?_)
  rw [Finset.sum_const, nsmul_eq_mul]

/-- Rounding to the nearest whole number, and cutting off, are such conversions. -/
theorem C187_conversions : (∀ x : ℝ, |((round x : ℤ) : ℝ) - x| ≤ 1 / 2) ∧ (∀ x : ℝ, |((⌊x⌋ : ℤ) : ℝ) - x| ≤ 1) := by
  refine ⟨fun x => by rw [abs_sub_comm]; exact abs_sub_round x, fun x => ?_⟩
  rw [abs_le]
  constructor <;> linarith [Int.floor_le x, Int.lt_floor_add_one x]

/-- An absolute error that is a part `ρ` of the least value is a relative one. -/
theorem within_of_part {x y d T ρ : ℝ} (hd : |x - y| ≤ d) (hT : T ≤ y) (hρ : d ≤ ρ * T) (h0 : 0 ≤ ρ) (h1 : ρ < 1) (hy : 0 < y) :
    Within (-Real.log (1 - ρ)) x y := by
  have hp : 0 < 1 - ρ := by linarith
  have hb : d ≤ ρ * y := hρ.trans (mul_le_mul_of_nonneg_left hT h0)
  rw [abs_le] at hd
  constructor
  · rw [neg_neg, Real.exp_log hp]
    nlinarith
  · rw [Real.exp_neg, Real.exp_log hp, ← div_eq_mul_inv, le_div_iff₀ hp]
    nlinarith [mul_nonneg h0 h0, mul_nonneg (mul_nonneg h0 h0) hy.le]

/-- A series of photos whose pixels are converted: LED `l` puts `spot l p` on pixel `p` of its search area `pix l`; in every photo at least
`T` falls on every area, and the conversion of all pixels of an area is off by at most the part `ρ` of it. -/
structure ConvertedPhotos (a : ArrayAnalysis) (leds : List ℕ) (pos : ℕ → P3) (N : ℕ) (conv : ℝ → ℝ) (e : ℝ) (pix : ℕ → Finset (ℕ × ℕ))
    (spot : ℕ → ℕ × ℕ → ℝ) (smoke : ℕ → Fin a.layers → ℝ) (T ρ : ℝ) : Prop where
  error : ∀ x, |conv x - x| ≤ e
  positive : 0 < T
  bright : ∀ i, 1 ≤ i → i ≤ N → ∀ l ∈ leds, T ≤ ∑ p ∈ pix l, spot l p * Real.exp (-lineDepth a.cam (pos l) a.lo a.hi (smoke i))
  part : ∀ l ∈ leds, (pix l).card * e ≤ ρ * T
  small : 0 ≤ ρ ∧ ρ < 1
  clear : ∀ i, 1 ≤ i → i ≤ N → a.ref.selects i = true → smoke i = fun _ => 0
  reference : ∃ i, 1 ≤ i ∧ i ≤ N ∧ a.ref.selects i = true
  nonneg : ∀ i, 1 ≤ i → i ≤ N → ∀ k, 0 ≤ smoke i k
  thin : ∀ i, 1 ≤ i → i ≤ N → ∀ l ∈ leds, lineDepth a.cam (pos l) a.lo a.hi (smoke i) ≤ 23

/-- The sums that step 3 records. -/
noncomputable def convertedSum (a : ArrayAnalysis) (pos : ℕ → P3) (conv : ℝ → ℝ) (pix : ℕ → Finset (ℕ × ℕ)) (spot : ℕ → ℕ × ℕ → ℝ)
    (smoke : ℕ → Fin a.layers → ℝ) (i l : ℕ) : ℝ :=
  ∑ p ∈ pix l, conv (spot l p * Real.exp (-lineDepth a.cam (pos l) a.lo a.hi (smoke i)))

theorem C187_noisy {a : ArrayAnalysis} {leds : List ℕ} {pos : ℕ → P3} {N : ℕ} {conv : ℝ → ℝ} {e : ℝ} {pix : ℕ → Finset (ℕ × ℕ)}
    {spot : ℕ → ℕ × ℕ → ℝ} {smoke : ℕ → Fin a.layers → ℝ} {T ρ : ℝ} (h : ConvertedPhotos a leds pos N conv e pix spot smoke T ρ) :
    NoisyLight a leds pos N (convertedSum a pos conv pix spot smoke) (-Real.log (1 - ρ)) (fun l => ∑ p ∈ pix l, spot l p) smoke where
  emits := by
    intro l hl
    obtain ⟨i, h1, h2, _⟩ := h.reference
    have hb := h.bright i h1 h2 l hl
    rw [← Finset.sum_mul] at hb
    exact pos_of_mul_pos_left (lt_of_lt_of_le h.positive hb) (Real.exp_pos _).le
  light := by
    intro i h1 h2 l hl
    rw [Finset.sum_mul]
    have hb := h.bright i h1 h2 l hl
    exact within_of_part (C187_sum (pix l) conv e h.error _) hb (h.part l hl) h.small.1 h.small.2 (lt_of_lt_of_le h.positive hb)
  clear := h.clear
  reference := h.reference
  nonneg := h.nonneg
  thin := h.thin

/-- **C187, partial.** If the light in every search area is large compared with the number of its pixels in all photos, the coefficients are right up
to a bound by the ratio, besides the smoothing. Missing (and false): dim light. -/
theorem C187_coefficients_partial (a : ArrayAnalysis) (leds : List ℕ) (pos : ℕ → P3) (h : SeenArray a leds pos) (hlam : 0 < a.lam)
    (hdet : ∀ σ τ : Fin a.layers → ℝ, Affine σ → Affine τ →
      (∀ l ∈ leds, lineDepth a.cam (pos l) a.lo a.hi σ = lineDepth a.cam (pos l) a.lo a.hi τ) → σ = τ) :
    ∃ K : ℝ, 0 < K ∧ ∀ (N : ℕ) (conv : ℝ → ℝ) (e : ℝ) (pix : ℕ → Finset (ℕ × ℕ)) (spot : ℕ → ℕ × ℕ → ℝ) (smoke : ℕ → Fin a.layers → ℝ)
      (T ρ : ℝ), ConvertedPhotos a leds pos N conv e pix spot smoke T ρ → ∀ files : ℕ → List (ℕ × ℕ × ℝ),
      (∀ i, 1 ≤ i → i ≤ N → ((files i).map (·.1)).Nodup) →
      (∀ i, 1 ≤ i → i ≤ N → ∀ l x, (l, a.arr, x) ∈ files i ↔ l ∈ leds ∧ x = convertedSum a pos conv pix spot smoke i l) →
      ∀ r, a.Result files N r → ∃ found : ℕ → Fin a.layers → ℝ, r = .ok ((firstImgs N).map found) ∧
        ∀ i, 1 ≤ i → i ≤ N → ∑ k, (found i k - smoke i k) ^ 2 ≤
          K * (leds.length * (2 * -Real.log (1 - ρ)) ^ 2 + a.lam * bending (smoke i)) := by
  obtain ⟨K, hK, hall⟩ := C111_coefficients a leds pos h hlam hdet
  exact ⟨K, hK, fun N conv e pix spot smoke T ρ hc files hnd hm r hr => hall N _ _ _ _ (C187_noisy hc) files hnd hm r hr⟩

-- 400 pixels with rounding and a sum of at least 20000: the part is 1 %
example : (400 : ℝ) * (1 / 2) ≤ 1 / 100 * 20000 := by norm_num

/-! ### What cannot be seen -/

theorem round_of_near (x : ℝ) (n : ℤ) (h : |x - n| < 1 / 2) : round x = n := by
  rw [round_eq, Int.floor_eq_iff]
  rw [abs_lt] at h
  constructor <;> linarith

/-- **C187, thin smoke.** A pixel with a whole number of counts in clear air shows the same number behind smoke whose depth is below a bound. -/
theorem C187_thin (n : ℕ) (D : ℝ) (h0 : 0 ≤ D) (hD : n * D < 1 / 2) : round ((n : ℝ) * Real.exp (-D)) = n := by
  have := round_of_near ((n : ℝ) * Real.exp (-D)) n (by
    have h1 : Real.exp (-D) ≤ 1 := Real.exp_le_one_iff.2 (by linarith)
    have h2 : 1 - D ≤ Real.exp (-D) := by linarith [Real.add_one_le_exp (-D)]
    have hn : (0 : ℝ) ≤ n := Nat.cast_nonneg n
    rw [abs_lt, Int.cast_natCast]
    constructor <;> nlinarith)
  exact this

/-- **C187, dense smoke.** Behind smoke whose depth is above a bound a pixel is black, whatever the depth. -/
theorem C187_dense (x D : ℝ) (hx : 0 < x) (hD : Real.log (2 * x) < D) : round (x * Real.exp (-D)) = 0 := by
  refine round_of_near _ 0 ?_
  have hp : 0 < x * Real.exp (-D) := mul_pos hx (Real.exp_pos _)
  rw [Int.cast_zero, sub_zero, abs_of_pos hp]
  have h1 : 2 * x < Real.exp D := by rwa [← Real.log_lt_iff_lt_exp (by linarith)]
  rw [Real.exp_neg, ← div_eq_mul_inv, div_lt_iff₀ (Real.exp_pos D)]
  linarith

/-- **C187, no analysis can do better.** Whatever is calculated from the rounded values of the pixels is the same for two depths that are both below
the bound for thin smoke, or both above that for dense smoke. -/
theorem C187_indistinguishable {ι R : Type} (calculate : (ι → ℤ) → R) (counts : ι → ℕ) (D D' : ι → ℝ)
    (h : ∀ p, (0 ≤ D p ∧ 0 ≤ D' p ∧ counts p * D p < 1 / 2 ∧ counts p * D' p < 1 / 2) ∨
      (0 < counts p ∧ Real.log (2 * counts p) < D p ∧ Real.log (2 * counts p) < D' p)) :
    calculate (fun p => round ((counts p : ℝ) * Real.exp (-D p))) = calculate (fun p => round ((counts p : ℝ) * Real.exp (-D' p))) := by
  congr 1
  funext p
  rcases h p with ⟨a, b, c, d⟩ | ⟨a, b, c⟩
  · rw [C187_thin _ _ a c, C187_thin _ _ b d]
  · rw [C187_dense _ _ (by exact_mod_cast a) b, C187_dense _ _ (by exact_mod_cast a) c]

-- pixels with 200 counts: depths of 0.001 and 0.002 are not seen, 7 and 9 are alike
example : round ((200 : ℕ) * Real.exp (-(1 / 500) : ℝ)) = 200 := C187_thin 200 (1 / 500) (by norm_num) (by norm_num)

/-- Rounding the values of the LEDs does not change the coefficients. -/
def RoundingIsHarmless : Prop := ∀ (m n : ℕ) (A : Fin m → Fin n → ℝ) (lam : ℝ), 3 ≤ n → (∀ i l, 0 ≤ A i l) → DeterminesAffine A → 0 < lam →
  ∀ (counts : Fin m → ℕ) (rel : Fin m → ℝ) (σ τ : Fin n → ℝ), (∀ i, 0 < counts i) → (∀ i, 0 < rel i ∧ rel i ≤ 1) → LinearSolution A lam rel σ →
    LinearSolution A lam (fun i => ((round (counts i * rel i) : ℤ) : ℝ) / counts i) τ → τ = σ

/-- **C187 refuted**: thin smoke in front of LEDs with ten counts is taken for clear air. -/
theorem C187_false : ¬ RoundingIsHarmless := by
  intro h
  have hr : (fun i : Fin 3 => ((round (((fun _ => 10 : Fin 3 → ℕ) i : ℝ) * Real.exp (-(1 / 100 * ((i : ℕ) : ℝ)))) : ℤ) : ℝ) / ((fun _ => 10 : Fin 3 → ℕ) i)) =
      fun i : Fin 3 => Real.exp (-(0 * ((i : ℕ) : ℝ))) := by
    funext i
    have hi : ((i : ℕ) : ℝ) ≤ 2 := by exact_mod_cast Nat.lt_succ_iff.1 i.2
    have h0 : (0 : ℝ) ≤ ((i : ℕ) : ℝ) := Nat.cast_nonneg _
    have := C187_thin 10 (1 / 100 * ((i : ℕ) : ℝ)) (by positivity) (by push_cast; linarith)
    simp only
    rw [this]
    simp
  have := h 3 3 (threeRays 1) 1 le_rfl (fun i l => by unfold threeRays; split <;> norm_num) (threeRays_determines one_ne_zero) one_pos
    (fun _ => 10) (fun i => Real.exp (-(1 / 100 * ((i : ℕ) : ℝ)))) (fun i => 1 / 100 * ((i : ℕ) : ℝ)) (fun i => 0 * ((i : ℕ) : ℝ))
    (fun _ => by norm_num)
    (fun i => ⟨Real.exp_pos _, Real.exp_le_one_iff.2 (by have : (0 : ℝ) ≤ ((i : ℕ) : ℝ) := Nat.cast_nonneg _; linarith)⟩)
    ((threeRays_slope (1 / 100) (by norm_num) (by norm_num) _).2 rfl)
    (by rw [hr]; exact (threeRays_slope 0 le_rfl (by norm_num) _).2 rfl)
  have h1 := congrFun this 1
  norm_num at h1

end Ledsa
