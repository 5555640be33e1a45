import Verif.Model.Acceptance
import Verif.Props.Photometry
import Verif.Props.Geometry
import Mathlib.Analysis.Complex.ExponentialBounds
import Mathlib.Analysis.Real.Pi.Bounds
/-
C173: the experiment and the photos that the acceptance test makes up.
-/
namespace Ledsa

/-! ### Specification -/

/-- The part of the light of an LED that passes through layers of smoke: Beer-Lambert with the geometric lengths of the line of sight. -/
noncomputable def lightThrough (cam led : P3) (ls : List Layer) (σ : List ℝ) : ℝ :=
  Real.exp (-(List.zipWith (fun l s => lengthInside cam led l.bottom l.top * s) ls σ).sum)

/-- How many grey levels an undimmed LED of the test photos has in total. -/
noncomputable def testLedLight (t : ℝ) : ℝ := ∑ p ∈ Finset.range 20 ×ˢ Finset.range 20, (⌊testSpot p.1 p.2 * t⌋₊ : ℝ)

/-! ### The spot -/

/-- Squared distance of a pixel from the centre of the spot. -/
def spotDist (x y : ℕ) : ℕ := ((10 - (x : ℤ)) ^ 2 + (10 - (y : ℤ)) ^ 2).toNat

theorem testSpot_eq (x y : ℕ) : testSpot x y = 595 / Real.sqrt (2 * Real.pi) * Real.exp (-(100 / 578)) ^ spotDist x y := by
  have hd : ((spotDist x y : ℕ) : ℝ) = ((10 : ℝ) - x) ^ 2 + ((10 : ℝ) - y) ^ 2 := by
    have h : ((spotDist x y : ℕ) : ℤ) = (10 - (x : ℤ)) ^ 2 + (10 - (y : ℤ)) ^ 2 := Int.toNat_of_nonneg (by positivity)
    have h2 : (((spotDist x y : ℕ) : ℤ) : ℝ) = ((10 : ℝ) - x) ^ 2 + ((10 : ℝ) - y) ^ 2 := by rw [h]; push_cast; ring
    exact_mod_cast h2
  unfold testSpot
  simp only
  rw [div_pow, Real.sq_sqrt (by positivity), ← hd, ← Real.exp_nat_mul]
  rw [show -(((spotDist x y : ℕ) : ℝ) / (17 / 10) ^ 2) / 2 = (spotDist x y : ℝ) * -(100 / 578) by ring]
  ring

theorem sqrt_two_pi : 25 / 10 ≤ Real.sqrt (2 * Real.pi) ∧ Real.sqrt (2 * Real.pi) ≤ 595 / 237 := by
  have h1 := Real.pi_gt_d4
  have h2 := Real.pi_lt_d4
  refine ⟨Real.le_sqrt_of_sq_le (by norm_num; linarith), Real.sqrt_le_iff.2 ⟨by norm_num, by norm_num; linarith⟩⟩

theorem testSpot_pos (x y : ℕ) : 0 < testSpot x y := by
  rw [testSpot_eq]
  positivity

theorem testSpot_le (x y : ℕ) : testSpot x y ≤ testSpot 10 10 := by
  rw [testSpot_eq, testSpot_eq]
  have h0 : spotDist 10 10 = 0 := by decide
  rw [h0, pow_zero]
  refine mul_le_mul_of_nonneg_left (pow_le_one₀ (Real.exp_nonneg _) ?_) (by positivity)
  rw [Real.exp_le_one_iff]
  norm_num

theorem testSpot_lt (x y : ℕ) : testSpot x y < 239 := by
  refine (testSpot_le x y).trans_lt ?_
  rw [testSpot_eq, show spotDist 10 10 = 0 by decide, pow_zero, mul_one, div_lt_iff₀ (by have := sqrt_two_pi.1; linarith)]
  have := sqrt_two_pi.1
  linarith

theorem toUint8_spot (x y : ℕ) (t : ℝ) (h0 : 0 ≤ t) (h1 : t ≤ 1) : toUint8 (testSpot x y * t) = ⌊testSpot x y * t⌋₊ := by
  have hp := testSpot_pos x y
  have hl := testSpot_lt x y
  have : testSpot x y * t < 256 := by nlinarith
  unfold toUint8
  refine Nat.mod_eq_of_lt ?_
  rw [Nat.floor_lt (by positivity)]
  exact_mod_cast this

/-! ### The photo -/

theorem drawTestLeds_other (ts : List ℝ) (k0 : ℕ) (px : ℕ → ℕ → ℕ) (i j k : ℕ) (hk : k < k0) (hi : i < (1 + k) * 50 + 10) :
    drawTestLeds ts k0 px i j = px i j := by
  induction ts generalizing k0 px with
  | nil => rfl
  | cons t ts ih =>
    show drawTestLeds ts (k0 + 1) (addTestLed px ((1 + k0) * 50) 25 t) i j = _
    rw [ih (k0 + 1) _ (by omega)]
    unfold addTestLed
    rw [if_neg]
    omega

theorem drawTestLeds_led (ts : List ℝ) (k0 : ℕ) (px : ℕ → ℕ → ℕ) (k x y : ℕ) (t : ℝ) (hk : ts[k]? = some t) (hx : x < 20) (hy : y < 20) :
    drawTestLeds ts k0 px ((1 + (k0 + k)) * 50 - 10 + x) (15 + y) = toUint8 (testSpot x y * t) := by
  induction ts generalizing k0 px k with
  | nil => simp at hk
  | cons u ts ih =>
    show drawTestLeds ts (k0 + 1) (addTestLed px ((1 + k0) * 50) 25 u) _ _ = _
    cases k with
    | zero =>
      simp only [List.getElem?_cons_zero, Option.some.injEq] at hk
      subst hk
      rw [drawTestLeds_other ts (k0 + 1) _ _ _ k0 (by omega) (by omega)]
      unfold addTestLed
      rw [if_pos (by omega)]
      congr 3 <;> omega
    | succ k =>
      rw [List.getElem?_cons_succ] at hk
      have := ih (k0 + 1) (addTestLed px ((1 + k0) * 50) 25 u) k hk
      rw [show k0 + 1 + k = k0 + (k + 1) by omega] at this
      exact this

theorem testImage_inside (ts : List ℝ) (k : ℕ) (hk : k < ts.length) : SearchInside (testImage ts) ((1 + k) * 50 : ℕ) 25 10 :=
  ⟨by omega, by omega, by omega, by show _ < ((ts.length * 50 + 50 : ℕ) : ℤ); omega, by show (25 : ℤ) < ((50 : ℕ) : ℤ); omega⟩

theorem mem_testArea (ts : List ℝ) (k : ℕ) (hk : k < ts.length) (p : ℕ × ℕ) :
    p ∈ area (testImage ts) ((1 + k) * 50 : ℕ) 25 10 ↔ ∃ x y, x < 20 ∧ y < 20 ∧ p = ((1 + k) * 50 - 10 + x, 15 + y) := by
  have hh : (testImage ts).h = ts.length * 50 + 50 := rfl
  have hw : (testImage ts).w = 50 := rfl
  simp only [area, Finset.mem_filter, Finset.mem_product, Finset.mem_range, hh, hw]
  constructor
  · rintro ⟨⟨h1, h2⟩, h3, h4, h5, h6⟩
    refine ⟨p.1 - ((1 + k) * 50 - 10), p.2 - 15, by omega, by omega, Prod.ext ?_ ?_⟩ <;> simp only <;> omega
  · rintro ⟨x, y, hx, hy, rfl⟩
    simp only
    omega

theorem testImage_px (ts : List ℝ) (k x y : ℕ) (t : ℝ) (hk : ts[k]? = some t) (h0 : 0 ≤ t) (h1 : t ≤ 1) (hx : x < 20) (hy : y < 20) :
    (testImage ts).px ((1 + k) * 50 - 10 + x) (15 + y) = (⌊testSpot x y * t⌋₊ : ℝ) := by
  show ((drawTestLeds ts 0 (fun _ _ => 0) _ _ : ℕ) : ℝ) = _
  have := drawTestLeds_led ts 0 (fun _ _ => 0) k x y t hk hx hy
  rw [Nat.zero_add] at this
  rw [this, toUint8_spot x y t h0 h1]

/-- **C173 (measured light).** For every number of LEDs and all transmissions between 0 and 1, step 3 measures at the place of every LED of the
test photo the grey levels of this LED alone, dimmed by its own transmission and with the decimals of every pixel cut off, and the largest value
is the one of the pixel in the middle. -/
theorem C173_measured (ts : List ℝ) (k : ℕ) (t : ℝ) (hk : ts[k]? = some t) (h0 : 0 ≤ t) (h1 : t ≤ 1) :
    ∃ m, measure (testImage ts) ((1 + k) * 50 : ℕ) 25 10 = .ok m ∧ m.sum = testLedLight t ∧
      m.max = (testImage ts).px ((1 + k) * 50) 25 ∧ m.max = (⌊testSpot 10 10 * t⌋₊ : ℝ) := by
  have hl : k < ts.length := (List.getElem?_eq_some_iff.1 hk).1
  obtain ⟨m, hm, hs, -, hmax⟩ := (testImage_inside ts k hl).values
  have hc : (testImage ts).px ((1 + k) * 50) 25 = (⌊testSpot 10 10 * t⌋₊ : ℝ) := by
    have := testImage_px ts k 10 10 t hk h0 h1 (by omega) (by omega)
    rwa [show (1 + k) * 50 - 10 + 10 = (1 + k) * 50 by omega] at this
  have hM : m.max = (⌊testSpot 10 10 * t⌋₊ : ℝ) := by
    refine hmax.unique ⟨⟨((1 + k) * 50, 25), ?_, hc⟩, ?_⟩
    · exact (mem_testArea ts k hl _).2 ⟨10, 10, by omega, by omega, by ext <;> simp only; omega⟩
    · rintro v ⟨p, hp, rfl⟩
      obtain ⟨x, y, hx, hy, rfl⟩ := (mem_testArea ts k hl p).1 hp
      rw [testImage_px ts k x y t hk h0 h1 hx hy]
      exact_mod_cast Nat.floor_le_floor (mul_le_mul_of_nonneg_right (testSpot_le x y) h0)
  refine ⟨m, hm, ?_, hM.trans hc.symm, hM⟩
  rw [hs]
  unfold testLedLight
  symm
  refine Finset.sum_bij (fun p _ => ((1 + k) * 50 - 10 + p.1, 15 + p.2)) ?_ ?_ ?_ ?_
  · intro p hp
    simp only [Finset.mem_product, Finset.mem_range] at hp
    exact (mem_testArea ts k hl _).2 ⟨p.1, p.2, hp.1, hp.2, rfl⟩
  · intro p _ q _ h
    simp only [Prod.mk.injEq] at h
    ext <;> omega
  · intro q hq
    obtain ⟨x, y, hx, hy, rfl⟩ := (mem_testArea ts k hl q).1 hq
    exact ⟨(x, y), by simp [hx, hy], rfl⟩
  · intro p hp
    simp only [Finset.mem_product, Finset.mem_range] at hp
    exact (testImage_px ts k p.1 p.2 t hk h0 h1 hp.1 hp.2).symm

/-! ### How exact the photos are -/

theorem floor_dimmed (v t : ℝ) (hv : 0 ≤ v) (h0 : 0 ≤ t) (h1 : t ≤ 1) :
    |(⌊v * t⌋₊ : ℝ) - t * (⌊v⌋₊ : ℝ)| ≤ if 1 ≤ v then 1 else 0 := by
  have hvt : 0 ≤ v * t := mul_nonneg hv h0
  split
  · have a1 := Nat.floor_le hvt
    have a2 := Nat.lt_floor_add_one (v * t)
    have b1 := Nat.floor_le hv
    have b2 := Nat.lt_floor_add_one v
    have c1 : t * (⌊v⌋₊ : ℝ) ≤ t * v := mul_le_mul_of_nonneg_left b1 h0
    have c2 : t * v ≤ t * ((⌊v⌋₊ : ℝ) + 1) := mul_le_mul_of_nonneg_left b2.le h0
    rw [abs_le]
    constructor <;> nlinarith
  · rename_i h
    rw [not_le] at h
    have e1 : ⌊v⌋₊ = 0 := Nat.floor_eq_zero.2 h
    have e2 : ⌊v * t⌋₊ = 0 := Nat.floor_eq_zero.2 (by nlinarith)
    simp [e1, e2]

theorem exp_step : (841 / 1000 : ℝ) ≤ Real.exp (-(100 / 578)) := by
  have h3 := Real.exp_bound (x := -(100 / 578)) (by rw [abs_le]; constructor <;> norm_num) (n := 4) (by norm_num)
  simp only [Finset.sum_range_succ, Finset.sum_range_zero] at h3
  norm_num [Nat.factorial, abs_le] at h3
  have := h3.1
  linarith

theorem testSpot_ge (x y : ℕ) : (((237 * 841 ^ spotDist x y / 1000 ^ spotDist x y : ℕ)) : ℝ) ≤ (⌊testSpot x y⌋₊ : ℝ) := by
  have h1 : (237 : ℝ) * (841 / 1000) ^ spotDist x y ≤ testSpot x y := by
    rw [testSpot_eq]
    have hs := sqrt_two_pi.2
    have hp : 0 < Real.sqrt (2 * Real.pi) := by positivity
    refine mul_le_mul ?_ (pow_le_pow_left₀ (by norm_num) exp_step _) (by positivity) (by positivity)
    rw [le_div_iff₀ hp]
    linarith
  rw [Nat.cast_le]
  refine Nat.le_floor (le_trans ?_ h1)
  refine (Nat.cast_div_le).trans (le_of_eq ?_)
  push_cast
  rw [div_pow]
  ring

theorem testSpot_small (x y : ℕ) (h : 32 ≤ spotDist x y) : testSpot x y < 1 := by
  rw [testSpot_eq]
  have hs := sqrt_two_pi.1
  have hp : 0 < Real.sqrt (2 * Real.pi) := by positivity
  have he : Real.exp (-(100 / 578)) ≤ 8413 / 10000 := by
    have h3 := Real.exp_bound (x := -(100 / 578)) (by rw [abs_le]; constructor <;> norm_num) (n := 4) (by norm_num)
    simp only [Finset.sum_range_succ, Finset.sum_range_zero] at h3
    norm_num [Nat.factorial, abs_le] at h3
    have := h3.2
    linarith
  have hq : Real.exp (-(100 / 578)) ^ spotDist x y ≤ (8413 / 10000) ^ 32 := by
    refine (pow_le_pow_of_le_one (Real.exp_nonneg _) ?_ h).trans (pow_le_pow_left₀ (Real.exp_nonneg _) he _)
    rw [Real.exp_le_one_iff]
    norm_num
  have hc : 595 / Real.sqrt (2 * Real.pi) ≤ 238 := by
    rw [div_le_iff₀ hp]
    linarith
  calc _ ≤ (238 : ℝ) * (8413 / 10000) ^ 32 := mul_le_mul hc hq (by positivity) (by norm_num)
    _ < 1 := by norm_num

theorem spot_total : 4150 ≤ ∑ p ∈ Finset.range 20 ×ˢ Finset.range 20, 237 * 841 ^ spotDist p.1 p.2 / 1000 ^ spotDist p.1 p.2 := by decide +kernel

theorem spot_pixels : ((Finset.range 20 ×ˢ Finset.range 20).filter fun p => spotDist p.1 p.2 < 32).card ≤ 101 := by decide +kernel

theorem testLedLight_one : 4150 ≤ testLedLight 1 := by
  have h : ((4150 : ℕ) : ℝ) ≤ ((∑ p ∈ Finset.range 20 ×ˢ Finset.range 20, 237 * 841 ^ spotDist p.1 p.2 / 1000 ^ spotDist p.1 p.2 : ℕ) : ℝ) :=
    Nat.cast_le.2 spot_total
  rw [Nat.cast_sum] at h
  refine le_trans (le_of_eq_of_le (by norm_num) h) (Finset.sum_le_sum fun p _ => ?_)
  rw [mul_one]
  exact testSpot_ge p.1 p.2

theorem testLedLight_dimmed (t : ℝ) (h0 : 0 ≤ t) (h1 : t ≤ 1) : |testLedLight t - t * testLedLight 1| ≤ 101 := by
  unfold testLedLight
  rw [Finset.mul_sum, ← Finset.sum_sub_distrib]
  refine (Finset.abs_sum_le_sum_abs _ _).trans ?_
  have hb : ∀ p ∈ Finset.range 20 ×ˢ Finset.range 20,
      |(⌊testSpot p.1 p.2 * t⌋₊ : ℝ) - t * (⌊testSpot p.1 p.2 * 1⌋₊ : ℝ)| ≤ if spotDist p.1 p.2 < 32 then 1 else 0 := by
    intro p _
    rw [mul_one]
    refine (floor_dimmed _ t (testSpot_pos _ _).le h0 h1).trans ?_
    split
    · rename_i hv
      rw [if_pos]
      by_contra hcon
      exact absurd (testSpot_small _ _ (not_lt.1 hcon)) (not_lt.2 hv)
    · split <;> norm_num
  refine (Finset.sum_le_sum hb).trans ?_
  rw [Finset.sum_boole]
  exact_mod_cast spot_pixels

/-- **C173 (accuracy).** The light of a dimmed LED of the test photos, relative to the undimmed one, is within 0.025 of its transmission. -/
theorem C173_accuracy (t : ℝ) (h0 : 0 ≤ t) (h1 : t ≤ 1) : |testLedLight t / testLedLight 1 - t| ≤ 1 / 40 := by
  have hL := testLedLight_one
  have hd := testLedLight_dimmed t h0 h1
  rw [show testLedLight t / testLedLight 1 - t = (testLedLight t - t * testLedLight 1) / testLedLight 1 by
    field_simp, abs_div, abs_of_pos (by linarith : 0 < testLedLight 1), div_le_iff₀ (by linarith)]
  linarith


/-- **C173 (accuracy with a nearly clear reference photo).** The reference photo of the acceptance test is not quite clear. As long as it lets
99 % of the light through, relative values of the test photos are within 0.051 of the ratio of the transmissions. -/
theorem C173_reference (t t0 : ℝ) (h0 : 0 ≤ t) (ht : t ≤ t0) (hr : 99 / 100 ≤ t0) (h1 : t0 ≤ 1) :
    |testLedLight t / testLedLight t0 - t / t0| ≤ 51 / 1000 := by
  have hL := testLedLight_one
  have hp : 0 < t0 := by linarith
  have e1 := abs_le.1 (testLedLight_dimmed t h0 (ht.trans h1))
  have e2 := abs_le.1 (testLedLight_dimmed t0 hp.le h1)
  have hL0 : 4007 ≤ testLedLight t0 := by nlinarith [e2.1]
  have hq0 : 0 ≤ t / t0 := div_nonneg h0 hp.le
  have hq1 : t / t0 ≤ 1 := (div_le_one hp).2 ht
  have hqt : t / t0 * t0 = t := div_mul_cancel₀ t hp.ne'
  have hL0' : 0 < testLedLight t0 := by linarith
  rw [show testLedLight t / testLedLight t0 - t / t0 = (testLedLight t - t / t0 * testLedLight t0) / testLedLight t0 by
    field_simp, abs_div, abs_of_pos hL0', div_le_iff₀ hL0']
  have e3 : t / t0 * (t0 * testLedLight 1) = t * testLedLight 1 := by rw [← mul_assoc, hqt]
  have f1 : t / t0 * (testLedLight t0 - t0 * testLedLight 1) ≤ t / t0 * 101 := mul_le_mul_of_nonneg_left e2.2 hq0
  have f2 : t / t0 * (-101) ≤ t / t0 * (testLedLight t0 - t0 * testLedLight 1) := mul_le_mul_of_nonneg_left e2.1 hq0
  rw [mul_sub, e3] at f1 f2
  rw [abs_le]
  constructor <;> nlinarith [e1.1, e1.2]

/-! ### The made-up experiment -/

/-- **C173 (transmission).** In an experiment with camera and LED within the layers, at different heights, the transmission of the acceptance
test is the light that passes the smoke according to Beer-Lambert and the geometric lengths. -/
theorem C173_transmission (cam led : P3) (lo hi : ℝ) (n : ℕ) (hn : 1 ≤ n) (h : lo < hi) (hc : lo ≤ cam.2.2 ∧ cam.2.2 ≤ hi)
    (hl : lo ≤ led.2.2 ∧ led.2.2 ≤ hi) (hz : cam.2.2 ≠ led.2.2) (σ : List ℝ) (hσ : σ.length = n) :
    testTransmission cam led (layers lo hi n) σ = .ok (some (lightThrough cam led (layers lo hi n) σ)) := by
  obtain ⟨ds, hd, -, -⟩ := C40_sum_partial cam led lo hi n hn h (fun e => hz (by rw [e])) hc hl (fun e => hz (e.1.trans e.2.symm))
  have he := C39_length_in_layer cam led hz _ ds hd
  unfold testTransmission
  rw [hd]
  subst he
  have hlen : ((layers lo hi n).map fun l => lengthInside cam led l.bottom l.top).length = σ.length := by
    rw [List.length_map, hσ]
    simp [layers]
  simp only [hlen, if_true]
  unfold lightThrough
  rw [List.zipWith_map_left]

/-- **C173 (LED outside).** With an LED clearly above the layers the acceptance test cannot make its photos: `TypeError`. -/
theorem C173_led_outside (cam led : P3) (lo hi : ℝ) (n : ℕ) (hn : 1 ≤ n) (h : lo < hi) (hc : lo ≤ cam.2.2 ∧ cam.2.2 ≤ hi)
    (hl : hi < led.2.2) (hlong : 1 / 10 ^ 6 < euclid cam led * ((led.2.2 - hi) / (led.2.2 - cam.2.2))) (σ : List ℝ) :
    testTransmission cam led (layers lo hi n) σ = .error .typeError := by
  unfold testTransmission
  rw [C40_led_outside cam led lo hi n hn h hc hl hlong]

theorem lightThrough_range (cam led : P3) (ls : List Layer) (σ : List ℝ) (hσ : ∀ s ∈ σ, 0 ≤ s) :
    0 ≤ lightThrough cam led ls σ ∧ lightThrough cam led ls σ ≤ 1 := by
  refine ⟨(Real.exp_pos _).le, Real.exp_le_one_iff.2 (neg_nonpos.2 (List.sum_nonneg fun v hv => ?_))⟩
  obtain ⟨a, b, ha, hb, rfl⟩ : ∃ a b, a ∈ ls ∧ b ∈ σ ∧ lengthInside cam led a.bottom a.top * b = v := by
    rw [List.mem_iff_getElem] at hv
    obtain ⟨i, hi, rfl⟩ := hv
    simp only [List.length_zipWith, lt_inf_iff] at hi
    exact ⟨ls[i], σ[i], List.getElem_mem _, List.getElem_mem _, by simp⟩
  refine mul_nonneg ?_ (hσ b hb)
  unfold lengthInside euclid
  positivity

/-- **C173 (the photo of an experiment).** Photo of an experiment with the camera and all LEDs within the layers, no LED at the height of the camera: step 3 measures
for the LED with the number `i` from below, `i` places from the bottom of the photo, the light that passes the smoke. -/
theorem C173_photo (cam : P3) (lo hi : ℝ) (n : ℕ) (hn : 1 ≤ n) (h : lo < hi) (hc : lo ≤ cam.2.2 ∧ cam.2.2 ≤ hi) (leds : List P3)
    (hl : ∀ led ∈ leds, (lo ≤ led.2.2 ∧ led.2.2 ≤ hi) ∧ cam.2.2 ≠ led.2.2) (σ : List ℝ) (hσ : σ.length = n) (hpos : ∀ s ∈ σ, 0 ≤ s) :
    ∃ img, testPhoto cam (layers lo hi n) leds σ = .ok (some img) ∧ img.h = leds.length * 50 + 50 ∧
      ∀ (i : ℕ) (led : P3), leds[i]? = some led →
        ∃ m, measure img ((leds.length - i) * 50 : ℕ) 25 10 = .ok m ∧ m.sum = testLedLight (lightThrough cam led (layers lo hi n) σ) ∧
          |m.sum / testLedLight 1 - lightThrough cam led (layers lo hi n) σ| ≤ 1 / 40 := by
  have h1 : ∀ L : List P3, (∀ led ∈ L, (lo ≤ led.2.2 ∧ led.2.2 ≤ hi) ∧ cam.2.2 ≠ led.2.2) →
      L.mapM (fun led => testTransmission cam led (layers lo hi n) σ) =
        .ok (L.map fun led => some (lightThrough cam led (layers lo hi n) σ)) := by
    intro L
    induction L with
    | nil => intro _; rfl
    | cons a L ih =>
      intro hL
      have ha := hL a List.mem_cons_self
      rw [List.mapM_cons, C173_transmission cam a lo hi n hn h hc ha.1 ha.2 σ hσ]
      simp only [bind, Except.bind]
      rw [ih fun led hled => hL led (List.mem_cons_of_mem _ hled)]
      rfl
  have h2 : ∀ L : List ℝ, (L.map some).mapM (id : Option ℝ → Option ℝ) = some L := by
    intro L
    induction L with
    | nil => rfl
    | cons a L ih => rw [List.map_cons, List.mapM_cons, ih]; rfl
  let ts := (leds.map fun led => lightThrough cam led (layers lo hi n) σ).reverse
  refine ⟨testImage ts, ?_, ?_, ?_⟩
  · unfold testPhoto
    rw [h1 leds hl]
    simp only [bind, Except.bind]
    rw [show (leds.map fun led => some (lightThrough cam led (layers lo hi n) σ)).reverse = ts.map some by
      simp [ts, List.map_reverse], h2]
    rfl
  · show ts.length * 50 + 50 = _
    simp [ts]
  · intro i led hled
    obtain ⟨hlt, -⟩ := List.getElem?_eq_some_iff.1 hled
    have hk : ts[leds.length - 1 - i]? = some (lightThrough cam led (layers lo hi n) σ) := by
      simp only [ts]
      rw [List.getElem?_reverse (by simp; omega), List.length_map, List.getElem?_map,
        show leds.length - 1 - (leds.length - 1 - i) = i by omega, hled]
      rfl
    obtain ⟨hr0, hr1⟩ := lightThrough_range cam led (layers lo hi n) σ hpos
    obtain ⟨m, hm, hs, -⟩ := C173_measured ts _ _ hk hr0 hr1
    rw [show 1 + (leds.length - 1 - i) = leds.length - i by omega] at hm
    exact ⟨m, hm, hs, by rw [hs]; exact C173_accuracy _ hr0 hr1⟩

/-- Two LEDs, the upper one seen through smoke: both photos exist and the lower LED is at row 100, the upper one at row 50. -/
example : ∃ img, testPhoto (0, 0, 2) (layers 0 3 2) [(0, 4, 1), (0, 4, 29 / 10)] [0, 1 / 5] = .ok (some img) ∧ img.h = 150 ∧
    (∃ m, measure img 100 25 10 = .ok m ∧ m.sum = testLedLight (lightThrough (0, 0, 2) (0, 4, 1) (layers 0 3 2) [0, 1 / 5])) ∧
    ∃ m, measure img 50 25 10 = .ok m ∧ m.sum = testLedLight (lightThrough (0, 0, 2) (0, 4, 29 / 10) (layers 0 3 2) [0, 1 / 5]) := by
  obtain ⟨img, h1, h2, h3⟩ := C173_photo (0, 0, 2) 0 3 2 (by norm_num) (by norm_num) ⟨by norm_num, by norm_num⟩ [(0, 4, 1), (0, 4, 29 / 10)]
    (by simp; norm_num) [0, 1 / 5] rfl (by simp)
  obtain ⟨m, hm, hs, -⟩ := h3 0 _ rfl
  obtain ⟨m', hm', hs', -⟩ := h3 1 _ rfl
  exact ⟨img, h1, h2, ⟨m, hm, hs⟩, m', hm', hs'⟩

end Ledsa
