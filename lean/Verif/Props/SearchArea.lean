import Verif.Props.Step3
import Mathlib.Analysis.SpecialFunctions.Log.Basic
/-
C169: the size of the search areas and light that does not come from the LED.
-/
namespace Ledsa

/-! ### Specification -/

/-- The search area with radius `R` lies in the photo as far as the upper and left border are concerned, and is not empty. -/
structure SearchInside {V : Type} (img : Image V) (r c : ℤ) (R : ℕ) : Prop where
  size : 0 < R
  top : (R : ℤ) ≤ r
  left : (R : ℤ) ≤ c
  bottom : r < img.h
  right : c < img.w

/-- The photo shows a spot within the search area of radius `R`, on a background of the constant value `b`. -/
structure SpotOn (img : Image ℚ) (r c : ℤ) (R : ℕ) (b : ℚ) (spot : ℕ → ℕ → ℚ) : Prop where
  values : ∀ i j, img.px i j = spot i j + b
  nonneg : ∀ i j, 0 ≤ spot i j
  inside : ∀ i j, (i, j) ∉ area img r c R → spot i j = 0

/-! ### Proofs -/

theorem area_mono (img : Image ℚ) (r c : ℤ) {R R' : ℕ} (h : R ≤ R') : area img r c R ⊆ area img r c R' := by
  intro p hp
  simp only [area, Finset.mem_filter, Finset.mem_product, Finset.mem_range] at hp ⊢
  omega

theorem SearchInside.smaller {img : Image ℚ} {r c : ℤ} {R R' : ℕ} (h : SearchInside img r c R') (h0 : 0 < R) (hle : R ≤ R') : SearchInside img r c R :=
  ⟨h0, by have := h.top; omega, by have := h.left; omega, h.bottom, h.right⟩

theorem SearchInside.card_pos {img : Image ℚ} {r c : ℤ} {R : ℕ} (h : SearchInside img r c R) : 0 < (area img r c R).card := by
  refine Finset.card_pos.2 ⟨(r.toNat, c.toNat), ?_⟩
  have := h.size
  have := h.top
  have := h.left
  have := h.bottom
  have := h.right
  simp only [area, Finset.mem_filter, Finset.mem_product, Finset.mem_range]
  omega

theorem SearchInside.card_lt {img : Image ℚ} {r c : ℤ} {R R' : ℕ} (h : SearchInside img r c R') (hlt : R < R') :
    (area img r c R).card < (area img r c R').card := by
  refine Finset.card_lt_card ⟨area_mono img r c hlt.le, fun hsub => ?_⟩
  have h1 := h.size
  have h2 := h.top
  have h3 := h.left
  have h4 := h.bottom
  have h5 := h.right
  have : ((r - R').toNat, c.toNat) ∈ area img r c R' := by
    simp only [area, Finset.mem_filter, Finset.mem_product, Finset.mem_range]
    omega
  have := hsub this
  simp only [area, Finset.mem_filter, Finset.mem_product, Finset.mem_range] at this
  omega

theorem SpotOn.sum {img : Image ℚ} {r c : ℤ} {R : ℕ} {b : ℚ} {spot : ℕ → ℕ → ℚ} (h : SpotOn img r c R b spot) {R' : ℕ} (hle : R ≤ R') :
    ∑ p ∈ area img r c R', img.px p.1 p.2 = (∑ p ∈ area img r c R, spot p.1 p.2) + b * (area img r c R').card := by
  simp only [h.values]
  rw [Finset.sum_add_distrib, Finset.sum_const, nsmul_eq_mul, mul_comm b]
  congr 1
  exact (Finset.sum_subset (area_mono img r c hle) fun p _ hp => h.inside _ _ hp).symm

/-- **C169 (dark background).** On a dark background the sum, the maximum and the product of mean and size of a spot do not depend on the
radius. -/
theorem C169_dark (img : Image ℚ) (r c : ℤ) (R R' : ℕ) (h0 : 0 < R) (hle : R ≤ R') (hin : SearchInside img r c R') (spot : ℕ → ℕ → ℚ)
    (hs : SpotOn img r c R 0 spot) :
    ∃ m m', measure img r c R = .ok m ∧ measure img r c R' = .ok m' ∧ m'.sum = m.sum ∧ m'.max = m.max ∧
      m'.mean * (area img r c R').card = m.mean * (area img r c R).card := by
  have hin0 := hin.smaller h0 hle
  obtain ⟨m, hm, hsum, hmean, hmax⟩ := C25_window_values img r c R hin0.size hin0.top hin0.left hin0.bottom hin0.right
  obtain ⟨m', hm', hsum', hmean', hmax'⟩ := C25_window_values img r c R' hin.size hin.top hin.left hin.bottom hin.right
  have e : m'.sum = m.sum := by rw [hsum, hsum', hs.sum hle, hs.sum le_rfl]; ring
  refine ⟨m, m', hm, hm', e, ?_, by rw [hmean, hmean', e]⟩
  have hpos : ∀ i j, 0 ≤ img.px i j := fun i j => by rw [hs.values]; linarith [hs.nonneg i j]
  obtain ⟨⟨p, hp, hpv⟩, hub⟩ := hmax
  obtain ⟨⟨p', hp', hpv'⟩, hub'⟩ := hmax'
  apply le_antisymm
  · rw [← hpv']
    by_cases hq : p' ∈ area img r c R
    · exact hub ⟨p', hq, rfl⟩
    · rw [hs.values, hs.inside _ _ hq, ← hpv, add_zero]
      exact hpos _ _
  · rw [← hpv]
    exact hub' ⟨p, area_mono img r c hle hp, rfl⟩

/-- **C169 (dark background, relative intensities).** With sums, means or maxima the relative intensity of an LED between two photos of the
same size does not depend on the radius. -/
theorem C169_relative (img img0 : Image ℚ) (hsize : img.h = img0.h ∧ img.w = img0.w) (r c : ℤ) (R R' : ℕ) (h0 : 0 < R) (hle : R ≤ R')
    (hin : SearchInside img r c R') (spot spot0 : ℕ → ℕ → ℚ) (hs : SpotOn img r c R 0 spot) (hs0 : SpotOn img0 r c R 0 spot0) :
    ∃ m m' m0 m0', measure img r c R = .ok m ∧ measure img r c R' = .ok m' ∧ measure img0 r c R = .ok m0 ∧ measure img0 r c R' = .ok m0' ∧
      m'.sum / m0'.sum = m.sum / m0.sum ∧ m'.max / m0'.max = m.max / m0.max ∧ m'.mean / m0'.mean = m.mean / m0.mean := by
  have hin0 : SearchInside img0 r c R' := ⟨hin.size, hin.top, hin.left, by rw [← hsize.1]; exact hin.bottom, by rw [← hsize.2]; exact hin.right⟩
  obtain ⟨m, m', h1, h2, h3, h4, h5⟩ := C169_dark img r c R R' h0 hle hin spot hs
  obtain ⟨n, n', k1, k2, k3, k4, k5⟩ := C169_dark img0 r c R R' h0 hle hin0 spot0 hs0
  refine ⟨m, m', n, n', h1, h2, k1, k2, by rw [h3, k3], by rw [h4, k4], ?_⟩
  have ha : ∀ R, area img0 r c R = area img r c R := by intro R; simp only [area, hsize.1, hsize.2]
  rw [ha, ha] at k5
  have hA : ((area img r c R').card : ℚ) ≠ 0 := by exact_mod_cast hin.card_pos.ne'
  have hB : ((area img r c R).card : ℚ) ≠ 0 := by exact_mod_cast (hin.smaller h0 hle).card_pos.ne'
  rw [← mul_div_mul_right m'.mean n'.mean hA, h5, k5, mul_div_mul_right _ _ hB]

/-- The larger the common part, the nearer a ratio is to 1. -/
theorem ratio_background {s s0 x y : ℚ} (h0 : 0 ≤ s) (h1 : s < s0) (hx : 0 ≤ x) (hxy : x < y) : (s + x) / (s0 + x) < (s + y) / (s0 + y) := by
  rw [div_lt_div_iff₀ (by linarith) (by linarith)]
  nlinarith

/-- **C169 (background light).** With the light of the LED reduced from `s0` to `s` and a background `b` in both photos, the relative
intensity is larger than `s / s0` and grows with the radius, by at most the light of the background in units of `s0`. -/
theorem C169_background (img img0 : Image ℚ) (hsize : img.h = img0.h ∧ img.w = img0.w) (r c : ℤ) (R R' : ℕ) (h0 : 0 < R) (hlt : R < R')
    (hin : SearchInside img r c R') (b : ℚ) (hb : 0 < b) (spot spot0 : ℕ → ℕ → ℚ)
    (hs : SpotOn img r c R b spot) (hs0 : SpotOn img0 r c R b spot0) (s s0 : ℚ) (es : s = ∑ p ∈ area img r c R, spot p.1 p.2)
    (es0 : s0 = ∑ p ∈ area img r c R, spot0 p.1 p.2) (hless : s < s0) :
    ∃ m m' m0 m0', measure img r c R = .ok m ∧ measure img r c R' = .ok m' ∧ measure img0 r c R = .ok m0 ∧ measure img0 r c R' = .ok m0' ∧
      s / s0 < m.sum / m0.sum ∧ m.sum / m0.sum < m'.sum / m0'.sum ∧ m'.sum / m0'.sum < 1 ∧
      m'.sum / m0'.sum - s / s0 ≤ b * (area img r c R').card / s0 := by
  have hle := hlt.le
  have hgrow := hin.card_lt hlt
  have hin1 := hin.smaller h0 hle
  have hin0 : SearchInside img0 r c R' := ⟨hin.size, hin.top, hin.left, by rw [← hsize.1]; exact hin.bottom, by rw [← hsize.2]; exact hin.right⟩
  have hin01 := hin0.smaller h0 hle
  have ha : ∀ R, area img0 r c R = area img r c R := by intro R; simp only [area, hsize.1, hsize.2]
  obtain ⟨m, hm, hsum, -⟩ := C25_window_values img r c R hin1.size hin1.top hin1.left hin1.bottom hin1.right
  obtain ⟨m', hm', hsum', -⟩ := C25_window_values img r c R' hin.size hin.top hin.left hin.bottom hin.right
  obtain ⟨n, hn, nsum, -⟩ := C25_window_values img0 r c R hin01.size hin01.top hin01.left hin01.bottom hin01.right
  obtain ⟨n', hn', nsum', -⟩ := C25_window_values img0 r c R' hin0.size hin0.top hin0.left hin0.bottom hin0.right
  rw [hs.sum le_rfl, ← es] at hsum
  rw [hs.sum hle, ← es] at hsum'
  rw [hs0.sum le_rfl, ha, ← es0] at nsum
  rw [hs0.sum hle, ha, ha, ← es0] at nsum'
  have hs_nn : 0 ≤ s := by rw [es]; exact Finset.sum_nonneg fun p _ => hs.nonneg _ _
  have hx : 0 < b * ((area img r c R).card : ℚ) := mul_pos hb (by exact_mod_cast hin1.card_pos)
  have hxy : b * ((area img r c R).card : ℚ) < b * ((area img r c R').card : ℚ) := mul_lt_mul_of_pos_left (by exact_mod_cast hgrow) hb
  refine ⟨m, m', n, n', hm, hm', hn, hn', ?_, ?_, ?_, ?_⟩
  · rw [hsum, nsum]
    have := ratio_background hs_nn hless le_rfl hx
    simpa using this
  · rw [hsum, nsum, hsum', nsum']
    exact ratio_background hs_nn hless hx.le hxy
  · rw [hsum', nsum', div_lt_one (by linarith)]
    linarith
  · rw [hsum', nsum']
    generalize b * ((area img r c R').card : ℚ) = y at *
    have hs0p : 0 < s0 := by linarith
    have hy : 0 < s0 + y := by linarith
    have e : (s + y) / (s0 + y) - s / s0 = y * (s0 - s) / (s0 * (s0 + y)) := by field_simp; ring
    rw [e, div_le_div_iff₀ (by positivity) hs0p]
    nlinarith [mul_nonneg (mul_nonneg (show 0 ≤ y by linarith) hs0p.le) (show 0 ≤ s + y by linarith)]

/-- **C169 (background light, refuted).** The optical depth is underestimated, and the more so the larger the radius is. -/
theorem C169_depth_false (s s0 x y : ℝ) (h0 : 0 < s) (h1 : s < s0) (hx : 0 < x) (hxy : x < y) :
    0 < -Real.log ((s + y) / (s0 + y)) ∧ -Real.log ((s + y) / (s0 + y)) < -Real.log ((s + x) / (s0 + x)) ∧
      -Real.log ((s + x) / (s0 + x)) < -Real.log (s / s0) := by
  have step : ∀ a b : ℝ, 0 ≤ a → a < b → (s + a) / (s0 + a) < (s + b) / (s0 + b) := by
    intro a b ha hab
    rw [div_lt_div_iff₀ (by linarith) (by linarith)]
    nlinarith
  refine ⟨?_, ?_, ?_⟩
  · rw [neg_pos]
    exact Real.log_neg (by have : 0 < s0 + y := by linarith
                           have : 0 < s + y := by linarith
                           positivity) ((div_lt_one (by linarith)).2 (by linarith))
  · exact neg_lt_neg (Real.log_lt_log (div_pos (by linarith) (by linarith)) (step x y hx.le hxy))
  · refine neg_lt_neg (Real.log_lt_log (div_pos (by linarith) (by linarith)) ?_)
    simpa using step 0 x le_rfl hx

/-- A spot of 100 that is reduced to 50: exact with radius 1 and 2 on a dark background, 54/104 and 66/116 on a background of 1. -/
example : let photo (v b : ℚ) : Image ℚ := ⟨9, 9, fun i j => if i = 4 ∧ j = 4 then v + b else b⟩
    (measure (photo 50 0) 4 4 1).toOption.map (·.sum) = some 50 ∧ (measure (photo 50 0) 4 4 2).toOption.map (·.sum) = some 50 ∧
    (measure (photo 50 1) 4 4 1).toOption.map (·.sum) = some 54 ∧ (measure (photo 50 1) 4 4 2).toOption.map (·.sum) = some 66 ∧
    (measure (photo 100 1) 4 4 2).toOption.map (·.sum) = some 116 := by
  refine ⟨?_, ?_, ?_, ?_, ?_⟩ <;> decide +kernel

end Ledsa
