import Verif.Props.SearchArea
import Verif.Props.Exposure
import Verif.Props.DenserSmoke
import Mathlib.Analysis.SpecialFunctions.Pow.Real
/-
C170: overexposed photos. C171: photos that do not show the light itself but a tone curve of it.
-/
namespace Ledsa

/-! ### Specification -/

/-- The second photo is the first one with all light reduced to the part `t`. -/
structure DimmedTo {K : Type} [Mul K] (img0 img : Image K) (t : K) : Prop where
  height : img.h = img0.h
  width : img.w = img0.w
  values : ∀ i j, img.px i j = t * img0.px i j

/-- What a camera with the largest value `W` records. -/
def Image.clipped {K : Type} [Min K] (W : K) (img : Image K) : Image K := img.tone fun v => min v W

/-! ### Proofs -/

section
variable {K : Type} [Field K] [LinearOrder K]

theorem SearchInside.values [IsStrictOrderedRing K] {img : Image K} {r c : ℤ} {R : ℕ} (h : SearchInside img r c R) :
    ∃ m, measure img r c R = .ok m ∧ m.sum = ∑ p ∈ area img r c R, img.px p.1 p.2 ∧ m.mean * ((area img r c R).card : K) = m.sum ∧
      IsGreatest {v | ∃ p ∈ area img r c R, img.px p.1 p.2 = v} m.max :=
  C25_window_values img r c R h.size h.top h.left h.bottom h.right

theorem area_size {V W : Type} [Field V] [LinearOrder V] [Field W] [LinearOrder W] (img : Image V) (img' : Image W) (hh : img'.h = img.h)
    (hw : img'.w = img.w) (r c : ℤ) (R : ℕ) : area img' r c R = area img r c R := by simp only [area, hh, hw]

theorem SearchInside.size_only {V W : Type} {img : Image V} {img' : Image W} {r c : ℤ} {R : ℕ} (h : SearchInside img r c R) (hh : img'.h = img.h)
    (hw : img'.w = img.w) : SearchInside img' r c R :=
  ⟨h.size, h.top, h.left, by rw [hh]; exact h.bottom, by rw [hw]; exact h.right⟩

/-- What clipping does to one value. -/
theorem clip_dimmed [IsStrictOrderedRing K] {t x W : K} (h0 : 0 ≤ t) (h1 : t ≤ 1) (hx : 0 ≤ x) (hW : 0 < W) :
    t * min x W ≤ min (t * x) W ∧ (min (t * x) W = t * min x W ↔ t = 0 ∨ t = 1 ∨ x ≤ W) := by
  have htx : t * x ≤ x := mul_le_of_le_one_left hx h1
  have htW : t * W ≤ W := mul_le_of_le_one_left hW.le h1
  rcases le_or_gt x W with hxW | hxW
  · rw [min_eq_left hxW, min_eq_left (htx.trans hxW)]
    exact ⟨le_rfl, ⟨fun _ => .inr (.inr hxW), fun _ => rfl⟩⟩
  · rw [min_eq_right hxW.le]
    refine ⟨le_min (mul_le_mul_of_nonneg_left hxW.le h0) htW, fun h => ?_, fun h => ?_⟩
    · by_contra hcon
      push Not at hcon
      have ht0 : 0 < t := lt_of_le_of_ne h0 (Ne.symm hcon.1)
      have ht1 : t < 1 := lt_of_le_of_ne h1 hcon.2.1
      have a1 : t * W < t * x := mul_lt_mul_of_pos_left hxW ht0
      have a2 : t * W < W := mul_lt_of_lt_one_left hW ht1
      exact absurd h (lt_min a1 a2).ne'
    · rcases h with rfl | rfl | h
      · simp [hW.le]
      · simp [hxW.le]
      · exact absurd h (not_le.2 hxW)

/-- **C170 (sums).** With the light reduced to the part `t`, a camera that clips never records less than this part, and it records exactly
this part if and only if no pixel of the search area was clipped in the reference photo (or nothing or everything of the light is left). -/
theorem C170_sum [IsStrictOrderedRing K] (img0 img : Image K) (t W : K) (hd : DimmedTo img0 img t) (h0 : 0 ≤ t) (h1 : t ≤ 1) (hW : 0 < W)
    (hpos : ∀ i j, 0 ≤ img0.px i j) (r c : ℤ) (R : ℕ) (hin : SearchInside img0 r c R) :
    ∃ m m0, measure (img.clipped W) r c R = .ok m ∧ measure (img0.clipped W) r c R = .ok m0 ∧ t * m0.sum ≤ m.sum ∧
      (m.sum = t * m0.sum ↔ t = 0 ∨ t = 1 ∨ ∀ p ∈ area img0 r c R, img0.px p.1 p.2 ≤ W) := by
  obtain ⟨m, hm, hs, -⟩ := (hin.size_only (img' := img.clipped W) hd.height hd.width).values
  obtain ⟨m0, hm0, hs0, -⟩ := (hin.size_only (img' := img0.clipped W) rfl rfl).values
  rw [area_size img0 (img.clipped W) hd.height hd.width] at hs
  rw [area_size img0 (img0.clipped W) rfl rfl] at hs0
  have es : m.sum = ∑ p ∈ area img0 r c R, min (t * img0.px p.1 p.2) W := by
    rw [hs]
    refine Finset.sum_congr rfl fun p _ => ?_
    show min (img.px p.1 p.2) W = _
    rw [hd.values]
  have es0 : t * m0.sum = ∑ p ∈ area img0 r c R, t * min (img0.px p.1 p.2) W := by
    rw [hs0, Finset.mul_sum]
    rfl
  have hle : ∀ p ∈ area img0 r c R, t * min (img0.px p.1 p.2) W ≤ min (t * img0.px p.1 p.2) W := fun p _ => (clip_dimmed h0 h1 (hpos _ _) hW).1
  refine ⟨m, m0, hm, hm0, ?_, ?_⟩
  · rw [es, es0]
    exact Finset.sum_le_sum hle
  · rw [es, es0, eq_comm, Finset.sum_eq_sum_iff_of_le hle]
    have hk : ∀ p : ℕ × ℕ, (t * min (img0.px p.1 p.2) W = min (t * img0.px p.1 p.2) W ↔ t = 0 ∨ t = 1 ∨ img0.px p.1 p.2 ≤ W) := fun p => by
      rw [eq_comm]; exact (clip_dimmed h0 h1 (hpos _ _) hW).2
    simp only [hk]
    by_cases ha : t = 0
    · simp [ha]
    by_cases hb : t = 1
    · simp [hb]
    simp [ha, hb]

/-- **C170 (maxima).** The same for the maximum. If the brightest pixel is still clipped in the second photo, the maxima of the two photos
are equal: the loss of light is not seen at all. -/
theorem C170_max [IsStrictOrderedRing K] (img0 img : Image K) (t W : K) (hd : DimmedTo img0 img t) (h0 : 0 ≤ t) (h1 : t ≤ 1) (hW : 0 < W)
    (hpos : ∀ i j, 0 ≤ img0.px i j) (r c : ℤ) (R : ℕ) (hin : SearchInside img0 r c R) :
    ∃ m m0, measure (img.clipped W) r c R = .ok m ∧ measure (img0.clipped W) r c R = .ok m0 ∧ t * m0.max ≤ m.max ∧
      (m.max = t * m0.max ↔ t = 0 ∨ t = 1 ∨ ∀ p ∈ area img0 r c R, img0.px p.1 p.2 ≤ W) ∧
      ((∃ p ∈ area img0 r c R, W ≤ img.px p.1 p.2) → m.max = m0.max ∧ m0.max = W) := by
  obtain ⟨m, hm, -, -, hx⟩ := (hin.size_only (img' := img.clipped W) hd.height hd.width).values
  obtain ⟨m0, hm0, -, -, hx0⟩ := (hin.size_only (img' := img0.clipped W) rfl rfl).values
  rw [area_size img0 (img.clipped W) hd.height hd.width] at hx
  rw [area_size img0 (img0.clipped W) rfl rfl] at hx0
  obtain ⟨M, -, -, -, ⟨q, hq, hqM⟩, hub⟩ := hin.values
  have e0 : m0.max = min M.max W := by
    refine hx0.unique ⟨⟨q, hq, ?_⟩, ?_⟩
    · show min (img0.px q.1 q.2) W = _
      rw [hqM]
    · rintro v ⟨p, hp, rfl⟩
      exact min_le_min_right W (hub ⟨p, hp, rfl⟩)
  have e : m.max = min (t * M.max) W := by
    refine hx.unique ⟨⟨q, hq, ?_⟩, ?_⟩
    · show min (img.px q.1 q.2) W = _
      rw [hd.values, hqM]
    · rintro v ⟨p, hp, rfl⟩
      show min (img.px p.1 p.2) W ≤ _
      rw [hd.values]
      exact min_le_min_right W (mul_le_mul_of_nonneg_left (hub ⟨p, hp, rfl⟩) h0)
  have hMp : 0 ≤ M.max := hqM ▸ hpos _ _
  have hall : (∀ p ∈ area img0 r c R, img0.px p.1 p.2 ≤ W) ↔ M.max ≤ W :=
    ⟨fun h => hqM ▸ h q hq, fun h p hp => (hub ⟨p, hp, rfl⟩).trans h⟩
  refine ⟨m, m0, hm, hm0, ?_, ?_, ?_⟩
  · rw [e, e0]
    exact (clip_dimmed h0 h1 hMp hW).1
  · rw [e, e0, hall]
    exact (clip_dimmed h0 h1 hMp hW).2
  · rintro ⟨p, hp, hpW⟩
    rw [hd.values] at hpW
    have h2 : W ≤ t * M.max := hpW.trans (mul_le_mul_of_nonneg_left (hub ⟨p, hp, rfl⟩) h0)
    have h3 : W ≤ M.max := h2.trans (mul_le_of_le_one_left hMp h1)
    rw [e, e0, min_eq_right h2, min_eq_right h3]
    exact ⟨rfl, rfl⟩

end

/-- **C170 (optical depth).** The optical depth from clipped photos is never larger than the true one `-log t`, and smaller as soon as one
pixel of the search area of the reference photo was clipped. -/
theorem C170_depth (img0 img : Image ℝ) (t W : ℝ) (hd : DimmedTo img0 img t) (h0 : 0 < t) (h1 : t < 1) (hW : 0 < W)
    (hpos : ∀ i j, 0 ≤ img0.px i j) (r c : ℤ) (R : ℕ) (hin : SearchInside img0 r c R) (hlit : ∃ p ∈ area img0 r c R, 0 < img0.px p.1 p.2) :
    ∃ m m0, measure (img.clipped W) r c R = .ok m ∧ measure (img0.clipped W) r c R = .ok m0 ∧ 0 < m0.sum ∧
      -Real.log (m.sum / m0.sum) ≤ -Real.log t ∧
      ((∃ p ∈ area img0 r c R, W < img0.px p.1 p.2) → -Real.log (m.sum / m0.sum) < -Real.log t) := by
  obtain ⟨m, m0, hm, hm0, hle, hiff⟩ := C170_sum img0 img t W hd h0.le h1.le hW hpos r c R hin
  obtain ⟨m0', hm0', hs0, -⟩ := (hin.size_only (img' := img0.clipped W) rfl rfl).values
  obtain rfl : m0 = m0' := Except.ok.inj (hm0.symm.trans hm0')
  rw [area_size img0 (img0.clipped W) rfl rfl] at hs0
  have hp0 : 0 < m0.sum := by
    rw [hs0]
    obtain ⟨p, hp, hpp⟩ := hlit
    exact Finset.sum_pos' (fun q _ => le_min (hpos _ _) hW.le) ⟨p, hp, lt_min hpp hW⟩
  refine ⟨m, m0, hm, hm0, hp0, neg_le_neg (Real.log_le_log h0 ((le_div_iff₀ hp0).2 hle)), ?_⟩
  rintro ⟨p, hp, hpW⟩
  refine neg_lt_neg (Real.log_lt_log h0 ((lt_div_iff₀ hp0).2 (lt_of_le_of_ne hle fun he => ?_)))
  rcases hiff.1 he.symm with h | h | h
  · exact h0.ne' h
  · exact h1.ne h
  · exact absurd (h p hp) (not_le.2 hpW)

/-- **C170 refuted**: photos in which an LED has lost half of its light, clipped at 255. Without clipping the sums are 600 and 300 and the
maxima 500 and 250; the camera records the sums 355 and 300 and the maxima 255 and 250, and step 3 reports no problem. -/
theorem C170_false : ∃ img0 img : Image ℚ, DimmedTo img0 img (1 / 2) ∧
    (measure (img0.clipped 255) 1 1 1 = .ok ⟨355, 355 / 4, 255⟩ ∧ measure (img.clipped 255) 1 1 1 = .ok ⟨300, 75, 250⟩) := by
  refine ⟨⟨2, 2, fun i j => if i = 1 ∧ j = 1 then 500 else if i = 0 ∧ j = 0 then 100 else 0⟩,
    ⟨2, 2, fun i j => if i = 1 ∧ j = 1 then 250 else if i = 0 ∧ j = 0 then 50 else 0⟩, ⟨rfl, rfl, fun i j => ?_⟩, ?_, ?_⟩
  · dsimp only
    split
    · norm_num
    · split <;> norm_num
  · decide +kernel
  · decide +kernel

/-! ### C171 -/

/-- **C171 (power curves).** With a tone curve `v ^ g`, as photos with a gamma have, an LED that has lost light to the part `t` is recorded
with the part `t ^ g`: by the sum, the mean and the maximum. -/
theorem C171_power (img0 img : Image ℝ) (t g : ℝ) (hd : DimmedTo img0 img t) (h0 : 0 ≤ t) (hpos : ∀ i j, 0 ≤ img0.px i j)
    (r c : ℤ) (R : ℕ) (hin : SearchInside img0 r c R) :
    ∃ m m0, measure (img.tone fun v => v ^ g) r c R = .ok m ∧ measure (img0.tone fun v => v ^ g) r c R = .ok m0 ∧
      m.sum = t ^ g * m0.sum ∧ m.mean = t ^ g * m0.mean ∧ m.max = t ^ g * m0.max := by
  obtain ⟨m, hm, hs, hmean, hx⟩ := (hin.size_only (img' := img.tone fun v => v ^ g) hd.height hd.width).values
  obtain ⟨m0, hm0, hs0, hmean0, hx0⟩ := (hin.size_only (img' := img0.tone fun v => v ^ g) rfl rfl).values
  rw [area_size img0 (img.tone fun v => v ^ g) hd.height hd.width] at hs hmean hx
  rw [area_size img0 (img0.tone fun v => v ^ g) rfl rfl] at hs0 hmean0 hx0
  have hv : ∀ p : ℕ × ℕ, (img.tone fun v => v ^ g).px p.1 p.2 = t ^ g * (img0.tone fun v => v ^ g).px p.1 p.2 := fun p => by
    show (img.px p.1 p.2) ^ g = t ^ g * (img0.px p.1 p.2) ^ g
    rw [hd.values, Real.mul_rpow h0 (hpos _ _)]
  have es : m.sum = t ^ g * m0.sum := by
    rw [hs, hs0, Finset.mul_sum]
    exact Finset.sum_congr rfl fun p _ => hv p
  have hcard : ((area img0 r c R).card : ℝ) ≠ 0 := by
    obtain ⟨⟨p, hp, -⟩, -⟩ := hx
    exact_mod_cast (Finset.card_pos.2 ⟨p, hp⟩).ne'
  refine ⟨m, m0, hm, hm0, es, ?_, ?_⟩
  · refine mul_right_cancel₀ hcard ?_
    rw [hmean, es, mul_assoc, hmean0]
  · refine hx.unique ?_
    obtain ⟨⟨p, hp, hpv⟩, hub⟩ := hx0
    refine ⟨⟨p, hp, by rw [hv, hpv]⟩, ?_⟩
    rintro v ⟨q, hq, rfl⟩
    rw [hv]
    exact mul_le_mul_of_nonneg_left (hub ⟨q, hq, rfl⟩) (Real.rpow_nonneg h0 g)

/-- **C171 (coefficients).** The LEDs are seen on photos with a tone curve `v ^ g`. The coefficients that the linear analysis returns for
their sums, means or maxima are exactly `g` times those for photos of the light itself. -/
theorem C171_coefficients {n N : ℕ} (A : Fin n → Fin N → ℝ) (lam g : ℝ) (hg : 0 < g) (img0 img : Fin n → Image ℝ) (t : Fin n → ℝ)
    (hd : ∀ i, DimmedTo (img0 i) (img i) (t i)) (hpos : ∀ i a b, 0 ≤ (img0 i).px a b) (r c : Fin n → ℤ) (R : ℕ)
    (hin : ∀ i, SearchInside (img0 i) (r i) (c i) R) (hlit : ∀ i, ∃ p ∈ area (img0 i) (r i) (c i) R, 0 < (img0 i).px p.1 p.2)
    (ht : ∀ i, 1 / 10 ^ 10 ≤ t i ∧ 1 / 10 ^ 10 ≤ t i ^ g) (σ : Fin N → ℝ) :
    ∃ m m0 k k0 : Fin n → Measured ℝ, (∀ i, measure (img i) (r i) (c i) R = .ok (m i)) ∧ (∀ i, measure (img0 i) (r i) (c i) R = .ok (m0 i)) ∧
      (∀ i, measure ((img i).tone fun v => v ^ g) (r i) (c i) R = .ok (k i)) ∧
      (∀ i, measure ((img0 i).tone fun v => v ^ g) (r i) (c i) R = .ok (k0 i)) ∧
      (LinearSolution A lam (fun i => (k i).sum / (k0 i).sum) (fun l => g * σ l) ↔ LinearSolution A lam (fun i => (m i).sum / (m0 i).sum) σ) ∧
      (LinearSolution A lam (fun i => (k i).mean / (k0 i).mean) (fun l => g * σ l) ↔ LinearSolution A lam (fun i => (m i).mean / (m0 i).mean) σ) ∧
      (LinearSolution A lam (fun i => (k i).max / (k0 i).max) (fun l => g * σ l) ↔ LinearSolution A lam (fun i => (m i).max / (m0 i).max) σ) := by
  have hpt : ∀ i, 0 ≤ t i := fun i => le_trans (by norm_num) (ht i).1
  have h1 := fun i => C171_power (img0 i) (img i) (t i) 1 (hd i) (hpt i) (hpos i) (r i) (c i) R (hin i)
  have h2 := fun i => C171_power (img0 i) (img i) (t i) g (hd i) (hpt i) (hpos i) (r i) (c i) R (hin i)
  have hone : ∀ im : Image ℝ, (im.tone fun v => v ^ (1 : ℝ)) = im := fun im => by simp [Image.tone]
  simp only [Real.rpow_one] at h1
  choose m m0 hm hm0 hs hme hmx using h1
  choose k k0 hk hk0 ks kme kmx using h2
  have posv : ∀ (g : ℝ) (i : Fin n) (q : Measured ℝ), measure ((img0 i).tone fun v => v ^ g) (r i) (c i) R = .ok q → 0 < q.sum ∧ 0 < q.mean ∧ 0 < q.max := by
    intro g i q hq
    obtain ⟨q', hq', e1, e2, e3⟩ := ((hin i).size_only (img' := (img0 i).tone fun v => v ^ g) rfl rfl).values
    obtain rfl : q = q' := Except.ok.inj (hq.symm.trans hq')
    rw [area_size (img0 i) ((img0 i).tone fun v => v ^ g) rfl rfl] at e1 e2 e3
    obtain ⟨p, hp, hpp⟩ := hlit i
    have hp' : 0 < ((img0 i).tone fun v => v ^ g).px p.1 p.2 := Real.rpow_pos_of_pos hpp g
    have s1 : 0 < q.sum := by
      rw [e1]
      exact Finset.sum_pos' (fun x _ => Real.rpow_nonneg (hpos i _ _) g) ⟨p, hp, hp'⟩
    refine ⟨s1, ?_, lt_of_lt_of_le hp' (e3.2 ⟨p, hp, rfl⟩)⟩
    rw [← e2] at s1
    exact pos_of_mul_pos_left s1 (Nat.cast_nonneg _)
  have p0 : ∀ i, 0 < (m0 i).sum ∧ 0 < (m0 i).mean ∧ 0 < (m0 i).max := fun i => posv 1 i _ (by rw [hone]; exact hm0 i)
  have pk : ∀ i, 0 < (k0 i).sum ∧ 0 < (k0 i).mean ∧ 0 < (k0 i).max := fun i => posv g i _ (hk0 i)
  have main : LinearSolution A lam (fun i => t i ^ g) (fun l => g * σ l) ↔ LinearSolution A lam t σ :=
    C154_denser_partial A lam t hg (fun i => (ht i).1) (fun i => (ht i).2) σ
  refine ⟨m, m0, k, k0, hm, hm0, hk, hk0, ?_, ?_, ?_⟩
  · rw [show (fun i => (k i).sum / (k0 i).sum) = fun i => t i ^ g from funext fun i => by rw [ks, mul_div_assoc, div_self (pk i).1.ne', mul_one],
      show (fun i => (m i).sum / (m0 i).sum) = t from funext fun i => by rw [hs, mul_div_assoc, div_self (p0 i).1.ne', mul_one]]
    exact main
  · rw [show (fun i => (k i).mean / (k0 i).mean) = fun i => t i ^ g from funext fun i => by rw [kme, mul_div_assoc, div_self (pk i).2.1.ne', mul_one],
      show (fun i => (m i).mean / (m0 i).mean) = t from funext fun i => by rw [hme, mul_div_assoc, div_self (p0 i).2.1.ne', mul_one]]
    exact main
  · rw [show (fun i => (k i).max / (k0 i).max) = fun i => t i ^ g from funext fun i => by rw [kmx, mul_div_assoc, div_self (pk i).2.2.ne', mul_one],
      show (fun i => (m i).max / (m0 i).max) = t from funext fun i => by rw [hmx, mul_div_assoc, div_self (p0 i).2.2.ne', mul_one]]
    exact main

/-- **C171 (exact tone curves).** The relative sums are the parts of the light that are left, for all photos with values up to `W`, if and
only if the tone curve is proportional to the light. -/
theorem C171_linear_iff (f : ℝ → ℝ) {W : ℝ} (hW : 0 < W) :
    (∀ (img0 img : Image ℝ) (t : ℝ) (r c : ℤ) (R : ℕ), 0 ≤ t → t ≤ 1 → DimmedTo img0 img t → (∀ i j, 0 ≤ img0.px i j ∧ img0.px i j ≤ W) →
      SearchInside img0 r c R → ∃ m m0, measure (img.tone f) r c R = .ok m ∧ measure (img0.tone f) r c R = .ok m0 ∧ m.sum = t * m0.sum) ↔
    ∀ v, 0 ≤ v → v ≤ W → f v = v / W * f W := by
  constructor
  · intro h v hv hvW
    let img0 : Image ℝ := ⟨2, 2, fun _ _ => W⟩
    let img : Image ℝ := ⟨2, 2, fun _ _ => v⟩
    have hin : SearchInside img0 1 1 1 := ⟨by norm_num, by norm_num, by norm_num, by norm_num [img0], by norm_num [img0]⟩
    have hdim : DimmedTo img0 img (v / W) := ⟨rfl, rfl, fun i j => by simp only [img, img0]; field_simp⟩
    obtain ⟨m, m0, hm, hm0, e⟩ := h img0 img (v / W) 1 1 1 (by positivity) ((div_le_one hW).2 hvW) hdim (fun _ _ => ⟨hW.le, le_rfl⟩) hin
    obtain ⟨m', hm', hs, -⟩ := (hin.size_only (img' := img.tone f) rfl rfl).values
    obtain ⟨m0', hm0', hs0, -⟩ := (hin.size_only (img' := img0.tone f) rfl rfl).values
    obtain rfl := Except.ok.inj (hm.symm.trans hm')
    obtain rfl := Except.ok.inj (hm0.symm.trans hm0')
    rw [hs, hs0, area_size img0 (img.tone f) rfl rfl, area_size img0 (img0.tone f) rfl rfl] at e
    have e1 : ∑ p ∈ area img0 1 1 1, (img.tone f).px p.1 p.2 = (area img0 1 1 1).card * f v := by
      show ∑ _p ∈ area img0 1 1 1, f v = _
      rw [Finset.sum_const, nsmul_eq_mul]
    have e2 : ∑ p ∈ area img0 1 1 1, (img0.tone f).px p.1 p.2 = (area img0 1 1 1).card * f W := by
      show ∑ _p ∈ area img0 1 1 1, f W = _
      rw [Finset.sum_const, nsmul_eq_mul]
    have hcard : ((area img0 1 1 1).card : ℝ) ≠ 0 := by
      have : ((1 : ℕ), (1 : ℕ)) ∈ area img0 1 1 1 := by simp [area, img0]
      exact_mod_cast (Finset.card_pos.2 ⟨_, this⟩).ne'
    rw [e1, e2] at e
    refine mul_left_cancel₀ hcard ?_
    rw [e]; ring
  · intro h img0 img t r c R h0 h1 hd hv hin
    obtain ⟨m, hm, hs, -⟩ := (hin.size_only (img' := img.tone f) hd.height hd.width).values
    obtain ⟨m0, hm0, hs0, -⟩ := (hin.size_only (img' := img0.tone f) rfl rfl).values
    refine ⟨m, m0, hm, hm0, ?_⟩
    rw [hs, hs0, area_size img0 (img.tone f) hd.height hd.width, area_size img0 (img0.tone f) rfl rfl, Finset.mul_sum]
    refine Finset.sum_congr rfl fun p _ => ?_
    show f (img.px p.1 p.2) = t * f (img0.px p.1 p.2)
    obtain ⟨a, b⟩ := hv p.1 p.2
    rw [hd.values, h _ a b, h (t * img0.px p.1 p.2) (mul_nonneg h0 a) ((mul_le_of_le_one_left a h1).trans b)]
    ring

/-- **C171 (whole numbers).** Rounding the values of the pixels, by at most `e`, changes the relative sum by at most `2 e` for every pixel of
the search area in units of the sum of the reference photo. -/
theorem C171_rounding (f : ℝ → ℝ) {e : ℝ} (hf : ∀ v, |f v - v| ≤ e) (img0 img : Image ℝ) (t : ℝ) (h0 : 0 ≤ t) (h1 : t ≤ 1)
    (hd : DimmedTo img0 img t) (r c : ℤ) (R : ℕ) (hin : SearchInside img0 r c R) :
    ∃ m m0, measure (img.tone f) r c R = .ok m ∧ measure (img0.tone f) r c R = .ok m0 ∧
      (0 < m0.sum → |m.sum / m0.sum - t| ≤ 2 * e * (area img0 r c R).card / m0.sum) := by
  obtain ⟨m, hm, hs, -⟩ := (hin.size_only (img' := img.tone f) hd.height hd.width).values
  obtain ⟨m0, hm0, hs0, -⟩ := (hin.size_only (img' := img0.tone f) rfl rfl).values
  refine ⟨m, m0, hm, hm0, fun hp => ?_⟩
  have he : 0 ≤ e := (abs_nonneg _).trans (hf 0)
  rw [area_size img0 (img.tone f) hd.height hd.width] at hs
  rw [area_size img0 (img0.tone f) rfl rfl] at hs0
  have key : |m.sum - t * m0.sum| ≤ 2 * e * (area img0 r c R).card := by
    rw [hs, hs0, Finset.mul_sum, ← Finset.sum_sub_distrib]
    refine (Finset.abs_sum_le_sum_abs _ _).trans ?_
    rw [mul_comm, ← nsmul_eq_mul]
    refine Finset.sum_le_card_nsmul _ _ _ fun p _ => ?_
    show |f (img.px p.1 p.2) - t * f (img0.px p.1 p.2)| ≤ _
    have a := abs_le.1 (hf (img.px p.1 p.2))
    have b := abs_le.1 (hf (img0.px p.1 p.2))
    rw [hd.values] at a ⊢
    have b1 : t * (f (img0.px p.1 p.2) - img0.px p.1 p.2) ≤ e := by nlinarith [mul_le_mul_of_nonneg_left b.2 h0]
    have b2 : -e ≤ t * (f (img0.px p.1 p.2) - img0.px p.1 p.2) := by nlinarith [mul_le_mul_of_nonneg_left b.1 h0]
    rw [abs_le]
    constructor <;> linarith [a.1, a.2]
  rw [show m.sum / m0.sum - t = (m.sum - t * m0.sum) / m0.sum by field_simp, abs_div, abs_of_pos hp]
  exact div_le_div_of_nonneg_right key hp.le

/-- **C171 refuted**: with the square root as tone curve an LED with a quarter of its light left is recorded with half of it, and the
coefficients of smoke in one layer are half of the true ones. -/
theorem C171_false : ∃ img0 img : Image ℝ, DimmedTo img0 img (1 / 4) ∧
    ∃ m m0, measure (img.tone fun v => v ^ (1 / 2 : ℝ)) 1 1 1 = .ok m ∧ measure (img0.tone fun v => v ^ (1 / 2 : ℝ)) 1 1 1 = .ok m0 ∧
      0 < m0.sum ∧ m.sum / m0.sum = 1 / 2 := by
  let img0 : Image ℝ := ⟨2, 2, fun _ _ => 100⟩
  have hin : SearchInside img0 1 1 1 := ⟨by norm_num, by norm_num, by norm_num, by norm_num [img0], by norm_num [img0]⟩
  have hd : DimmedTo img0 ⟨2, 2, fun _ _ => 25⟩ (1 / 4) := ⟨rfl, rfl, fun _ _ => by norm_num [img0]⟩
  refine ⟨img0, ⟨2, 2, fun _ _ => 25⟩, hd, ?_⟩
  obtain ⟨m, m0, hm, hm0, hs, -, -⟩ := C171_power img0 _ (1 / 4) (1 / 2) hd (by norm_num) (fun _ _ => by norm_num [img0]) 1 1 1 hin
  obtain ⟨q, hq, e1, -⟩ := (hin.size_only (img' := img0.tone fun v => v ^ (1 / 2 : ℝ)) rfl rfl).values
  obtain rfl := Except.ok.inj (hm0.symm.trans hq)
  have hp : 0 < m0.sum := by
    rw [e1]
    refine Finset.sum_pos (fun p _ => Real.rpow_pos_of_pos (by norm_num [img0]) _) ⟨(1, 1), ?_⟩
    simp [area, img0, Image.tone]
  refine ⟨m, m0, hm, hm0, hp, ?_⟩
  rw [hs, mul_div_assoc, div_self hp.ne', mul_one, ← Real.sqrt_eq_rpow, show (1 / 4 : ℝ) = (1 / 2) ^ 2 by norm_num, Real.sqrt_sq (by norm_num)]

end Ledsa
