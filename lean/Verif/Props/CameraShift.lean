import Verif.Props.SearchArea
import Verif.Props.AveragedSmoke
import Mathlib.Order.Interval.Finset.Basic
import Mathlib.Data.Int.Interval
/-
C180: a camera that moves during the experiment. The search areas stay where step 1 found the LEDs in the reference photo,
/repo/ledsa/data_extraction/DataExtractor.py 226-229 and /repo/ledsa/data_extraction/step_3_functions.py 148-158, while the light moves with the photo.
-/
namespace Ledsa
open scoped BigOperators

/-! ### Specification -/

/-- The pixels of a search area. -/
noncomputable def boxZ (r c : ℤ) (R : ℕ) : Finset (ℤ × ℤ) := Finset.Ico (r - R) (r + R) ×ˢ Finset.Ico (c - R) (c + R)

/-- A photo and a later one that shows the same light, moved by `dr` rows and `dc` columns; the search area is within both. `light` is the light
on the plane of the photo, also outside of it. -/
structure CameraMoved (img img' : Image ℚ) (r c : ℤ) (R : ℕ) (dr dc : ℤ) (light : ℤ × ℤ → ℚ) : Prop where
  size : 0 < R
  top : (R : ℤ) ≤ r
  left : (R : ℤ) ≤ c
  bottom : r + R ≤ img.h ∧ r + R ≤ img'.h
  right : c + R ≤ img.w ∧ c + R ≤ img'.w
  first : ∀ i j : ℕ, img.px i j = light (i, j)
  later : ∀ i j : ℕ, img'.px i j = light (i - dr, j - dc)

/-! ### Proofs -/

theorem mem_boxZ {r c : ℤ} {R : ℕ} {p : ℤ × ℤ} : p ∈ boxZ r c R ↔ r - R ≤ p.1 ∧ p.1 < r + R ∧ c - R ≤ p.2 ∧ p.2 < c + R := by
  simp only [boxZ, Finset.mem_product, Finset.mem_Ico]
  tauto

theorem area_boxZ (img : Image ℚ) (r c : ℤ) (R : ℕ) (h1 : (R : ℤ) ≤ r) (h2 : (R : ℤ) ≤ c) (h3 : r + R ≤ img.h) (h4 : c + R ≤ img.w) (f : ℤ × ℤ → ℚ) :
    ∑ p ∈ area img r c R, f (p.1, p.2) = ∑ z ∈ boxZ r c R, f z := by
  refine Finset.sum_nbij' (fun p => ((p.1 : ℤ), (p.2 : ℤ))) (fun z => (z.1.toNat, z.2.toNat)) ?_ ?_ ?_ ?_ ?_
  · intro p hp
    simp only [area, Finset.mem_filter, Finset.mem_product, Finset.mem_range] at hp
    rw [mem_boxZ]
    exact hp.2
  · intro z hz
    rw [mem_boxZ] at hz
    simp only [area, Finset.mem_filter, Finset.mem_product, Finset.mem_range]
    omega
  · intro p _
    simp
  · intro z hz
    rw [mem_boxZ] at hz
    ext <;> simp <;> omega
  · intro p _
    rfl

theorem area_card_boxZ (img : Image ℚ) (r c : ℤ) (R : ℕ) (h1 : (R : ℤ) ≤ r) (h2 : (R : ℤ) ≤ c) (h3 : r + R ≤ img.h) (h4 : c + R ≤ img.w) :
    (area img r c R).card = (boxZ r c R).card := by
  have := area_boxZ img r c R h1 h2 h3 h4 fun _ => 1
  simpa using this

/-- Light that is in the search area and leaves it. -/
noncomputable def leaving (r c : ℤ) (R : ℕ) (dr dc : ℤ) (light : ℤ × ℤ → ℚ) : ℚ :=
  ∑ z ∈ (boxZ r c R).filter fun z => (z.1 + dr, z.2 + dc) ∉ boxZ r c R, light z

/-- Light from outside of the search area that enters it. -/
noncomputable def entering (r c : ℤ) (R : ℕ) (dr dc : ℤ) (light : ℤ × ℤ → ℚ) : ℚ :=
  ∑ z ∈ (boxZ r c R).filter fun z => (z.1 - dr, z.2 - dc) ∉ boxZ r c R, light (z.1 - dr, z.2 - dc)

theorem boxZ_flow (r c : ℤ) (R : ℕ) (dr dc : ℤ) (light : ℤ × ℤ → ℚ) :
    (∑ z ∈ boxZ r c R, light (z.1 - dr, z.2 - dc)) + leaving r c R dr dc light = (∑ z ∈ boxZ r c R, light z) + entering r c R dr dc light := by
  unfold leaving entering
  rw [← Finset.sum_filter_add_sum_filter_not (boxZ r c R) (fun z => (z.1 - dr, z.2 - dc) ∈ boxZ r c R) fun z => light (z.1 - dr, z.2 - dc),
    ← Finset.sum_filter_add_sum_filter_not (boxZ r c R) (fun z => (z.1 + dr, z.2 + dc) ∈ boxZ r c R) light]
  have : ∑ z ∈ (boxZ r c R).filter (fun z => (z.1 - dr, z.2 - dc) ∈ boxZ r c R), light (z.1 - dr, z.2 - dc) =
      ∑ z ∈ (boxZ r c R).filter (fun z => (z.1 + dr, z.2 + dc) ∈ boxZ r c R), light z := by
    refine Finset.sum_nbij' (fun z => (z.1 - dr, z.2 - dc)) (fun z => (z.1 + dr, z.2 + dc)) ?_ ?_ ?_ ?_ ?_
    · intro z hz
      rw [Finset.mem_filter] at hz ⊢
      simpa using ⟨hz.2, hz.1⟩
    · intro z hz
      rw [Finset.mem_filter] at hz ⊢
      simpa using ⟨hz.2, hz.1⟩
    · intro z _; simp
    · intro z _; simp
    · intro z _; rfl
  rw [this]
  ring

/-- **C180 (balance).** The value of an LED after the camera has moved is the value before, less the light that has left the search area, plus the
light that has entered it, whatever the photo shows. -/
theorem C180_balance {img img' : Image ℚ} {r c : ℤ} {R : ℕ} {dr dc : ℤ} {light : ℤ × ℤ → ℚ} (h : CameraMoved img img' r c R dr dc light) :
    ∃ m m', measure img r c R = .ok m ∧ measure img' r c R = .ok m' ∧
      m'.sum = m.sum - leaving r c R dr dc light + entering r c R dr dc light ∧ m'.mean * (4 * R ^ 2) = m'.sum ∧ m.mean * (4 * R ^ 2) = m.sum := by
  have h0 := h.size
  have h1 := h.top
  have h2 := h.left
  obtain ⟨h3, h3'⟩ := h.bottom
  obtain ⟨h4, h4'⟩ := h.right
  obtain ⟨m, hm, hsum, hmean, -⟩ := C25_window_values img r c R h0 h1 h2 (by omega) (by omega)
  obtain ⟨m', hm', hsum', hmean', -⟩ := C25_window_values img' r c R h0 h1 h2 (by omega) (by omega)
  refine ⟨m, m', hm, hm', ?_, ?_, ?_⟩
  · simp only [h.first] at hsum
    simp only [h.later] at hsum'
    rw [area_boxZ img r c R h1 h2 h3 h4 light] at hsum
    rw [area_boxZ img' r c R h1 h2 h3' h4' fun z => light (z.1 - dr, z.2 - dc)] at hsum'
    rw [hsum, hsum']
    linarith [boxZ_flow r c R dr dc light]
  · rw [← hmean', area_card_boxZ img' r c R h1 h2 h3' h4']
    simp only [boxZ, Finset.card_product, Int.card_Ico]
    rw [show (r + R - (r - R)).toNat = 2 * R by omega, show (c + R - (c - R)).toNat = 2 * R by omega]
    push_cast
    ring
  · rw [← hmean, area_card_boxZ img r c R h1 h2 h3 h4]
    simp only [boxZ, Finset.card_product, Int.card_Ico]
    rw [show (r + R - (r - R)).toNat = 2 * R by omega, show (c + R - (c - R)).toNat = 2 * R by omega]
    push_cast
    ring

/-- **C180 (isolated LED).** If no other light comes near the search area, a movement of the camera only takes light away, like smoke: nothing is lost
exactly if no lit pixel leaves the area. -/
theorem C180_loss {img img' : Image ℚ} {r c : ℤ} {R : ℕ} {dr dc : ℤ} {light : ℤ × ℤ → ℚ} (h : CameraMoved img img' r c R dr dc light)
    (hnn : ∀ z, 0 ≤ light z) (hiso : ∀ z, z ∉ boxZ r c R → light z = 0) :
    ∃ m m', measure img r c R = .ok m ∧ measure img' r c R = .ok m' ∧ m'.sum ≤ m.sum ∧
      (m'.sum = m.sum ↔ ∀ z, light z ≠ 0 → (z.1 + dr, z.2 + dc) ∈ boxZ r c R) := by
  obtain ⟨m, m', hm, hm', hs, -⟩ := C180_balance h
  have he : entering r c R dr dc light = 0 := Finset.sum_eq_zero fun z hz => hiso _ (Finset.mem_filter.1 hz).2
  have hl : 0 ≤ leaving r c R dr dc light := Finset.sum_nonneg fun z _ => hnn z
  refine ⟨m, m', hm, hm', by linarith, ?_⟩
  have h0 : m'.sum = m.sum ↔ leaving r c R dr dc light = 0 := by
    constructor
    · intro h; linarith
    · intro h; linarith
  rw [h0]
  unfold leaving
  rw [Finset.sum_eq_zero_iff_of_nonneg fun z _ => hnn z]
  constructor
  · intro h z hz
    by_contra hn
    exact hz (h z (Finset.mem_filter.2 ⟨by by_contra hb; exact hz (hiso z hb), hn⟩))
  · intro h z hz
    by_contra hn
    exact (Finset.mem_filter.1 hz).2 (h z hn)

/-- **C180 (margin).** If the light of the LED keeps a distance of `s` pixels to the border of its search area, on a background that is the same everywhere,
and there is no other light within `s` pixels, then a movement by at most `s` pixels changes none of the values. -/
theorem C180_margin {img img' : Image ℚ} {r c : ℤ} {R s : ℕ} {dr dc : ℤ} {light : ℤ × ℤ → ℚ} (h : CameraMoved img img' r c R dr dc light)
    (hs : s < R) (hr : |dr| ≤ s) (hc : |dc| ≤ s) (b : ℚ) (hb : ∀ z, b ≤ light z)
    (hspot : ∀ z, z ∈ boxZ r c (R + s) → z ∉ boxZ r c (R - s) → light z = b) :
    ∃ m, measure img r c R = .ok m ∧ measure img' r c R = .ok m := by
  rw [abs_le] at hr hc
  obtain ⟨m, m', hm, hm', hsum, hmean', hmean⟩ := C180_balance h
  have h0 := h.size
  have h1 := h.top
  have h2 := h.left
  obtain ⟨h3, h3'⟩ := h.bottom
  obtain ⟨h4, h4'⟩ := h.right
  have hl : leaving r c R dr dc light = leaving r c R dr dc fun _ => b := by
    refine Finset.sum_congr rfl fun z hz => ?_
    rw [Finset.mem_filter, mem_boxZ, mem_boxZ] at hz
    refine hspot z ?_ ?_
    · rw [mem_boxZ]; push_cast; omega
    · rw [mem_boxZ]; intro hh; apply hz.2; push_cast [hs.le] at hh; omega
  have he : entering r c R dr dc light = entering r c R dr dc fun _ => b := by
    refine Finset.sum_congr rfl fun z hz => ?_
    rw [Finset.mem_filter, mem_boxZ, mem_boxZ] at hz
    refine hspot _ ?_ ?_
    · rw [mem_boxZ]; push_cast; omega
    · rw [mem_boxZ]; intro hh; apply hz.2; push_cast [hs.le] at hh; simp only at hh ⊢; omega
  have hflow := boxZ_flow r c R dr dc fun _ => b
  have hsum' : m'.sum = m.sum := by rw [hsum, hl, he]; linarith
  have hR : (0 : ℚ) < 4 * (R : ℚ) ^ 2 := by
    have : (0 : ℚ) < R := by exact_mod_cast h0
    positivity
  have hmean'' : m'.mean = m.mean := by
    have : m'.mean * (4 * (R : ℚ) ^ 2) = m.mean * (4 * (R : ℚ) ^ 2) := by rw [hmean', hmean, hsum']
    exact mul_right_cancel₀ hR.ne' this
  obtain ⟨n, hn, -, -, ⟨p, hp, hpv⟩, hub⟩ := C25_window_values img r c R h0 h1 h2 (by omega) (by omega)
  obtain ⟨n', hn', -, -, ⟨p', hp', hpv'⟩, hub'⟩ := C25_window_values img' r c R h0 h1 h2 (by omega) (by omega)
  rw [hm] at hn
  rw [hm'] at hn'
  obtain rfl := Except.ok.inj hn
  obtain rfl := Except.ok.inj hn'
  simp only [area, Finset.mem_filter, Finset.mem_product, Finset.mem_range] at hp hp'
  have hmax : m'.max = m.max := by
    apply le_antisymm
    · rw [← hpv', h.later]
      by_cases hz : (((p'.1 : ℤ) - dr, (p'.2 : ℤ) - dc) : ℤ × ℤ) ∈ boxZ r c (R - s)
      · have hz' := mem_boxZ.1 hz
        push_cast [hs.le] at hz'
        refine hub ⟨(((p'.1 : ℤ) - dr).toNat, ((p'.2 : ℤ) - dc).toNat), ?_, ?_⟩
        · simp only [area, Finset.mem_filter, Finset.mem_product, Finset.mem_range]
          omega
        · rw [h.first]
          congr 1
          ext <;> simp <;> omega
      · rw [hspot _ (by rw [mem_boxZ]; push_cast; omega) hz, ← hpv, h.first]
        exact hb _
    · rw [← hpv, h.first]
      by_cases hz : (((p.1 : ℤ), (p.2 : ℤ)) : ℤ × ℤ) ∈ boxZ r c (R - s)
      · have hz' := mem_boxZ.1 hz
        push_cast [hs.le] at hz'
        refine hub' ⟨(((p.1 : ℤ) + dr).toNat, ((p.2 : ℤ) + dc).toNat), ?_, ?_⟩
        · simp only [area, Finset.mem_filter, Finset.mem_product, Finset.mem_range]
          omega
        · rw [h.later]
          congr 1
          ext <;> simp <;> omega
      · rw [hspot _ (by rw [mem_boxZ]; push_cast; omega) hz, ← hpv', h.later]
        exact hb _
  refine ⟨m, hm, ?_⟩
  rw [hm']
  congr 1
  cases m
  cases m'
  simp only at hsum' hmean'' hmax
  subst hsum' hmean'' hmax
  rfl

/-! ### The coefficients -/

/-- **C180 (coefficients).** If the camera moves so little that every LED loses at most the share `p` of its light in each image, the coefficients
change by at most a constant of the array times the logarithm of `1 - p`. -/
theorem C180_coefficients (a : ArrayAnalysis) (leds : List ℕ) (pos : ℕ → P3) (h : SeenArray a leds pos) (hlam : 0 < a.lam)
    (hdet : ∀ σ τ : Fin a.layers → ℝ, Affine σ → Affine τ →
      (∀ l ∈ leds, lineDepth a.cam (pos l) a.lo a.hi σ = lineDepth a.cam (pos l) a.lo a.hi τ) → σ = τ) :
    ∃ K : ℝ, 0 < K ∧ ∀ (N : ℕ) (emit : ℕ → ℝ) (smoke : ℕ → Fin a.layers → ℝ) (v : ℕ → ℕ → ℝ) (p : ℝ), p < 1 →
      NoisyLight a leds pos N (fun i l => emit l * Real.exp (-lineDepth a.cam (pos l) a.lo a.hi (smoke i))) 0 emit smoke →
      (∀ i, 1 ≤ i → i ≤ N → ∀ l ∈ leds, (1 - p) * (emit l * Real.exp (-lineDepth a.cam (pos l) a.lo a.hi (smoke i))) ≤ v i l ∧
        v i l ≤ emit l * Real.exp (-lineDepth a.cam (pos l) a.lo a.hi (smoke i))) →
      ∀ files : ℕ → List (ℕ × ℕ × ℝ), (∀ i, 1 ≤ i → i ≤ N → ((files i).map (·.1)).Nodup) →
      (∀ i, 1 ≤ i → i ≤ N → ∀ l x, (l, a.arr, x) ∈ files i ↔ l ∈ leds ∧ x = v i l) →
      ∀ r, a.Result files N r → ∃ found : ℕ → Fin a.layers → ℝ, r = .ok ((firstImgs N).map found) ∧
        ∀ i, 1 ≤ i → i ≤ N → ∑ k, (found i k - smoke i k) ^ 2 ≤ K * (leds.length * (2 * Real.log (1 - p)) ^ 2 + a.lam * bending (smoke i)) := by
  obtain ⟨K, hK, hall⟩ := C111_coefficients a leds pos h hlam hdet
  refine ⟨K, hK, ?_⟩
  intro N emit smoke v p hp hq hx files hnd hm r hr
  have hn : NoisyLight a leds pos N v (-Real.log (1 - p)) emit smoke :=
    { emits := hq.emits
      light := by
        intro i h1 h2 l hl
        obtain ⟨hx0, hx1⟩ := hx i h1 h2 l hl
        have hp0 : 0 < emit l * Real.exp (-lineDepth a.cam (pos l) a.lo a.hi (smoke i)) := mul_pos (hq.emits l hl) (Real.exp_pos _)
        set y := emit l * Real.exp (-lineDepth a.cam (pos l) a.lo a.hi (smoke i))
        have h1p : 1 - p ≤ 1 := by
          by_contra hneg
          nlinarith
        unfold Within
        rw [neg_neg, Real.exp_neg, Real.exp_log (by linarith)]
        refine ⟨by linarith, hx1.trans ?_⟩
        have : 1 ≤ (1 - p)⁻¹ := (one_le_inv₀ (by linarith)).2 h1p
        nlinarith
      clear := hq.clear
      reference := hq.reference
      nonneg := hq.nonneg
      thin := hq.thin }
  obtain ⟨found, e, hf⟩ := hall N v _ emit smoke hn files hnd hm r hr
  refine ⟨found, e, fun i h1 h2 => ?_⟩
  have := hf i h1 h2
  rwa [mul_neg, neg_sq] at this

/-! ### Refutation and examples -/

/-- An LED at row 5 and column 5 with some light three rows above, and a neighbour three rows below. -/
def shiftLight (z : ℤ × ℤ) : ℚ := if z = (5, 5) then 10 else if z = (2, 5) then 1 else if z = (8, 5) then 10 else 0

/-- A photo of it. -/
def shiftPhoto (dr : ℤ) : Image ℚ := ⟨12, 12, fun i j => shiftLight (i - dr, j)⟩

theorem shiftPhoto_moved (dr : ℤ) : CameraMoved (shiftPhoto 0) (shiftPhoto dr) 5 5 3 dr 0 shiftLight where
  size := by decide
  top := by decide
  left := by decide
  bottom := ⟨by simp [shiftPhoto], by simp [shiftPhoto]⟩
  right := ⟨by simp [shiftPhoto], by simp [shiftPhoto]⟩
  first := fun i j => by simp [shiftPhoto]
  later := fun i j => by simp [shiftPhoto]

/-- A camera that moves by one pixel does not change the values, if each LED is at the centre of its search area and the brightest there. -/
def CameraMovementIsHarmless : Prop := ∀ (img img' : Image ℚ) (r c : ℤ) (R : ℕ) (dr dc : ℤ) (light : ℤ × ℤ → ℚ),
  CameraMoved img img' r c R dr dc light → |dr| ≤ 1 → |dc| ≤ 1 → (∀ z, 0 ≤ light z) → (∀ z, light z ≤ light (r, c)) →
  measure img' r c R = measure img r c R

theorem shiftLight_range (z : ℤ × ℤ) : 0 ≤ shiftLight z ∧ shiftLight z ≤ 10 := by
  unfold shiftLight
  split
  · norm_num
  · split
    · norm_num
    · split <;> norm_num

/-- **C180 refuted.** A movement by one pixel upwards loses light at the border of the area and brings in the light of a neighbour. -/
theorem C180_false : ¬ CameraMovementIsHarmless := by
  intro h
  have := h _ _ 5 5 3 (-1) 0 shiftLight (shiftPhoto_moved (-1)) (by decide) (by decide) (fun z => (shiftLight_range z).1)
    (fun z => (shiftLight_range z).2)
  revert this
  decide +kernel

/-- **C180 (a neighbour).** The value is then nearly twice as large as in the reference photo: the smoke would have to be thinner than air. -/
theorem C180_neighbour_false : ∃ m m', measure (shiftPhoto 0) 5 5 3 = .ok m ∧ measure (shiftPhoto (-1)) 5 5 3 = .ok m' ∧ m.sum = 11 ∧ m'.sum = 20 := by
  refine ⟨⟨11, 11 / 36, 10⟩, ⟨20, 20 / 36, 10⟩, ?_, ?_, rfl, rfl⟩ <;> decide +kernel

/-- An LED alone, moved by two pixels. -/
example : ∃ m, measure (⟨12, 12, fun i j => if i = 5 ∧ j = 5 then 10 else 1⟩ : Image ℚ) 5 5 3 = .ok m ∧
    measure (⟨12, 12, fun i j => if i = 7 ∧ j = 4 then 10 else 1⟩ : Image ℚ) 5 5 3 = .ok m := by
  have h : CameraMoved (⟨12, 12, fun i j => if i = 5 ∧ j = 5 then 10 else 1⟩ : Image ℚ) ⟨12, 12, fun i j => if i = 7 ∧ j = 4 then 10 else 1⟩
      5 5 3 2 (-1) (fun z => if z = (5, 5) then 10 else 1) :=
    { size := by decide
      top := by decide
      left := by decide
      bottom := by decide
      right := by decide
      first := by
        intro i j
        simp only [Prod.mk.injEq]
        congr 1
        apply propext
        omega
      later := by
        intro i j
        simp only [Prod.mk.injEq]
        congr 1
        apply propext
        omega }
  refine C180_margin (s := 2) h (by decide) (by decide) (by decide) 1 (fun z => by split <;> norm_num) ?_
  intro z _ hz
  rw [if_neg]
  rintro rfl
  apply hz
  rw [mem_boxZ]
  decide

end Ledsa
