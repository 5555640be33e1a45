import Verif.Props.RoundedRun

/-!
# Which LED arrays determine linear profiles (C145)

The analyses find profiles linear in height exactly or nearly (C43, C111, C119) if the rays determine them. Here is what this means for the
camera and the LEDs.
-/

namespace Ledsa

open MeasureTheory

/-- The part of a ray from height `c` to height `z` that is above height `b`. -/
noncomputable def above (b c z : ℝ) : ℝ :=
  if c < b then if z ≤ b then 0 else (z - b) / (z - c) else if b ≤ z then 1 else (c - b) / (c - z)

theorem above_bounds (b c z : ℝ) : 0 ≤ above b c z ∧ above b c z ≤ 1 := by
  unfold above
  split_ifs with h1 h2 h3
  · norm_num
  · push Not at h2
    exact ⟨div_nonneg (by linarith) (by linarith), (div_le_one (by linarith)).2 (by linarith)⟩
  · norm_num
  · push Not at h1 h3
    exact ⟨div_nonneg (by linarith) (by linarith), (div_le_one (by linarith)).2 (by linarith)⟩

/-- The higher the end of the ray, the larger the part above `b`; it is the same only for rays that are both completely above or both
completely below. -/
theorem above_mono (b c : ℝ) {z z' : ℝ} (h : z < z') : above b c z ≤ above b c z' ∧
    (above b c z = above b c z' → above b c z = 0 ∨ above b c z = 1) := by
  unfold above
  by_cases h1 : c < b
  · rw [if_pos h1, if_pos h1]
    by_cases h2 : z ≤ b
    · rw [if_pos h2]
      refine ⟨?_, fun _ => .inl rfl⟩
      split_ifs with h3
      · exact le_rfl
      · push Not at h3
        exact div_nonneg (by linarith) (by linarith)
    · push Not at h2
      rw [if_neg (by linarith), if_neg (by linarith)]
      have hlt : (z - b) / (z - c) < (z' - b) / (z' - c) := by
        rw [div_lt_div_iff₀ (by linarith) (by linarith)]
        nlinarith
      exact ⟨hlt.le, fun e => absurd e hlt.ne⟩
  · rw [if_neg h1, if_neg h1]
    push Not at h1
    by_cases h2 : b ≤ z
    · rw [if_pos h2, if_pos (by linarith)]
      exact ⟨le_rfl, fun _ => .inr rfl⟩
    · push Not at h2
      rw [if_neg (by linarith)]
      split_ifs with h3
      · have : (c - b) / (c - z) < 1 := (div_lt_one (by linarith)).2 (by linarith)
        exact ⟨this.le, fun e => absurd e this.ne⟩
      · push Not at h3
        rw [div_le_div_iff₀ (by linarith) (by linarith)]
        refine ⟨by nlinarith, fun e => ?_⟩
        rw [div_eq_div_iff (by linarith) (by linarith)] at e
        left
        have : (c - b) * (z' - z) = 0 := by linarith
        rcases mul_eq_zero.1 this with h | h
        · rw [h, zero_div]
        · linarith

theorem integral_step (f : ℝ → ℝ) (p q s : ℝ) (h0 : 0 ≤ s) (h1 : s ≤ 1) (hp : ∀ t, 0 < t → t < s → f t = p)
    (hq : ∀ t, s < t → t < 1 → f t = q) : ∫ t in (0 : ℝ)..1, f t = s * p + (1 - s) * q := by
  have e1 : Set.EqOn (fun _ => p) f (Set.uIoo 0 s) := by
    intro t ht
    rw [Set.uIoo_of_le h0] at ht
    exact (hp t ht.1 ht.2).symm
  have e2 : Set.EqOn (fun _ => q) f (Set.uIoo s 1) := by
    intro t ht
    rw [Set.uIoo_of_le h1] at ht
    exact (hq t ht.1 ht.2).symm
  have i1 : IntervalIntegrable f volume 0 s := (intervalIntegrable_const (c := p)).congr_uIoo e1
  have i2 : IntervalIntegrable f volume s 1 := (intervalIntegrable_const (c := q)).congr_uIoo e2
  rw [← intervalIntegral.integral_add_adjacent_intervals i1 i2, ← intervalIntegral.integral_congr_uIoo e1,
    ← intervalIntegral.integral_congr_uIoo e2, intervalIntegral.integral_const, intervalIntegral.integral_const]
  simp

theorem integral_above (f : ℝ → ℝ) (b c z : ℝ) (hf : ∀ t, 0 < t → t < 1 → f t = if b ≤ c + t * (z - c) then 1 else 0) :
    ∫ t in (0 : ℝ)..1, f t = above b c z := by
  unfold above
  split_ifs with h1 h2 h3
  · rw [integral_step f 0 0 0 le_rfl zero_le_one (fun t h h' => absurd (h.trans h') (lt_irrefl _)) fun t h h' => by
      rw [hf t h h', if_neg (by nlinarith)]]
    ring
  · push Not at h2
    have hd : 0 < z - c := by linarith
    have hs : (b - c) / (z - c) ≤ 1 := (div_le_one hd).2 (by linarith)
    have hs0 : 0 ≤ (b - c) / (z - c) := div_nonneg (by linarith) hd.le
    rw [integral_step f 0 1 ((b - c) / (z - c)) hs0 hs (fun t h h' => by
      rw [lt_div_iff₀ hd] at h'
      rw [hf t h (lt_of_lt_of_le ((lt_div_iff₀ hd).2 h') hs), if_neg (by linarith)]) fun t h h' => by
      rw [div_lt_iff₀ hd] at h
      rw [hf t (lt_of_le_of_lt hs0 ((div_lt_iff₀ hd).2 h)) h', if_pos (by linarith)]]
    field_simp
    ring
  · push Not at h1
    rw [integral_step f 1 1 0 le_rfl zero_le_one (fun t h h' => absurd (h.trans h') (lt_irrefl _)) fun t h h' => by
      rw [hf t h h', if_pos (by nlinarith)]]
    ring
  · push Not at h1 h3
    have hd : 0 < c - z := by linarith
    have hs : (c - b) / (c - z) ≤ 1 := (div_le_one hd).2 (by linarith)
    have hs0 : 0 ≤ (c - b) / (c - z) := div_nonneg (by linarith) hd.le
    rw [integral_step f 1 0 ((c - b) / (c - z)) hs0 hs (fun t h h' => by
      rw [lt_div_iff₀ hd] at h'
      rw [hf t h (lt_of_lt_of_le ((lt_div_iff₀ hd).2 h') hs), if_pos (by linarith)]) fun t h h' => by
      rw [div_lt_iff₀ hd] at h
      rw [hf t (lt_of_le_of_lt hs0 ((div_lt_iff₀ hd).2 h)) h', if_neg (by linarith)]]
    ring

/-- One in the layers from `k` on, zero below. -/
noncomputable def fromLayer (n k : ℕ) (j : Fin n) : ℝ := if k ≤ (j : ℕ) then 1 else 0

theorem ray_height {cam led : P3} {lo hi : ℝ} (hr : RayInDomain cam led lo hi) {t : ℝ} (h0 : 0 < t) (h1 : t < 1) :
    lo ≤ cam.2.2 + t * (led.2.2 - cam.2.2) ∧ cam.2.2 + t * (led.2.2 - cam.2.2) < hi := by
  obtain ⟨c1, c2⟩ := hr.cam_in
  obtain ⟨l1, l2⟩ := hr.led_in
  constructor
  · nlinarith
  · rcases eq_or_lt_of_le c2 with e | hlt
    · have : led.2.2 < hi := lt_of_le_of_ne l2 fun e' => hr.top ⟨e, e'⟩
      nlinarith
    · nlinarith

/-- The layers from `k` on contain the part of the ray above the lower border of layer `k`. -/
theorem lineDepth_above {cam led : P3} {lo hi : ℝ} (h : lo < hi) {n : ℕ} (hn : 1 ≤ n) (hr : RayInDomain cam led lo hi) (k : ℕ) :
    lineDepth cam led lo hi (fromLayer n k) = euclid cam led * above (border lo hi n k) cam.2.2 led.2.2 := by
  unfold lineDepth
  congr 1
  apply integral_above
  intro t h0 h1
  obtain ⟨a1, a2⟩ := ray_height hr h0 h1
  set y := cam.2.2 + t * (led.2.2 - cam.2.2) with hy
  have hn' : (0 : ℝ) < n := by exact_mod_cast hn
  have hw : 0 < (hi - lo) / n := div_pos (by linarith) hn'
  have hq : 0 ≤ (y - lo) / ((hi - lo) / n) := div_nonneg (by linarith) hw.le
  set j := ⌊(y - lo) / ((hi - lo) / n)⌋₊ with hj
  have hj1 : (j : ℝ) * ((hi - lo) / n) ≤ y - lo := by rw [← le_div_iff₀ hw]; exact Nat.floor_le hq
  have hj2 : y - lo < (j + 1) * ((hi - lo) / n) := by rw [← div_lt_iff₀ hw]; exact Nat.lt_floor_add_one _
  have hjn : j < n := by
    have : (j : ℝ) < n := by
      have e : (n : ℝ) * ((hi - lo) / n) = hi - lo := by field_simp
      have : (j : ℝ) * ((hi - lo) / n) < n * ((hi - lo) / n) := by linarith
      exact lt_of_mul_lt_mul_right this hw.le
    exact_mod_cast this
  rw [extinctionAt_slice lo hi h (fromLayer n k) ⟨j, hjn⟩ y ⟨by simp only; linarith, by simp only; linarith⟩]
  unfold fromLayer border
  simp only
  by_cases hkj : k ≤ j
  · have : (k : ℝ) * ((hi - lo) / n) ≤ j * ((hi - lo) / n) := mul_le_mul_of_nonneg_right (by exact_mod_cast hkj) hw.le
    rw [if_pos hkj, if_pos (by linarith)]
  · have : ((j : ℝ) + 1) * ((hi - lo) / n) ≤ k * ((hi - lo) / n) :=
      mul_le_mul_of_nonneg_right (by exact_mod_cast (not_le.1 hkj)) hw.le
    rw [if_neg hkj, if_neg (by linarith)]

/-! ### Sums over layers -/

theorem lineDepth_add (cam p : P3) (lo hi : ℝ) {n : ℕ} (σ τ : Fin n → ℝ) :
    lineDepth cam p lo hi (fun j => σ j + τ j) = lineDepth cam p lo hi σ + lineDepth cam p lo hi τ := by
  rw [lineDepth_rayIn, lineDepth_rayIn, lineDepth_rayIn, ← Finset.sum_add_distrib]
  exact Finset.sum_congr rfl fun k _ => by ring

theorem lineDepth_mul (cam p : P3) (lo hi : ℝ) {n : ℕ} (c : ℝ) (σ : Fin n → ℝ) :
    lineDepth cam p lo hi (fun j => c * σ j) = c * lineDepth cam p lo hi σ := by
  rw [lineDepth_rayIn, lineDepth_rayIn, Finset.mul_sum]
  exact Finset.sum_congr rfl fun k _ => by ring

theorem lineDepth_sub (cam p : P3) (lo hi : ℝ) {n : ℕ} (σ τ : Fin n → ℝ) :
    lineDepth cam p lo hi (fun j => σ j - τ j) = lineDepth cam p lo hi σ - lineDepth cam p lo hi τ := by
  rw [lineDepth_rayIn, lineDepth_rayIn, lineDepth_rayIn, ← Finset.sum_sub_distrib]
  exact Finset.sum_congr rfl fun k _ => by ring

theorem lineDepth_mono (cam p : P3) (lo hi : ℝ) {n : ℕ} (σ τ : Fin n → ℝ) (h : ∀ j, σ j ≤ τ j) :
    lineDepth cam p lo hi σ ≤ lineDepth cam p lo hi τ := by
  rw [lineDepth_rayIn, lineDepth_rayIn]
  exact Finset.sum_le_sum fun k _ => mul_le_mul_of_nonneg_left (h k) (rayIn_nonneg _ _ _)

theorem lineDepth_sum (cam p : P3) (lo hi : ℝ) {n : ℕ} {κ : Type} (s : Finset κ) (f : κ → Fin n → ℝ) :
    lineDepth cam p lo hi (fun j => ∑ k ∈ s, f k j) = ∑ k ∈ s, lineDepth cam p lo hi (f k) := by
  simp only [lineDepth_rayIn]
  rw [Finset.sum_comm]
  exact Finset.sum_congr rfl fun j _ => by rw [Finset.mul_sum]

/-- Smoke in layer `j` only, with extinction coefficient 1. -/
def onlyLayer {n : ℕ} (j : Fin n) : Fin n → ℝ := fun i => if i = j then 1 else 0

/-- The ray from the camera to the LED runs through layer `j`: smoke in this layer dims the LED. -/
def Crosses (cam led : P3) (lo hi : ℝ) {n : ℕ} (j : Fin n) : Prop := 0 < lineDepth cam led lo hi (onlyLayer j)

theorem lineDepth_only (cam p : P3) (lo hi : ℝ) {n : ℕ} (j : Fin n) :
    lineDepth cam p lo hi (onlyLayer j) = rayIn cam p ⟨border lo hi n j, border lo hi n (j + 1)⟩ := by
  rw [lineDepth_rayIn, Finset.sum_eq_single j]
  · simp [onlyLayer]
  · intro k _ hk
    simp [onlyLayer, hk]
  · intro h
    exact absurd (Finset.mem_univ j) h

/-- A ray through one layer only. -/
theorem lineDepth_one_layer (cam p : P3) (lo hi : ℝ) {n : ℕ} (j : Fin n) (h : ∀ i, Crosses cam p lo hi i → i = j) (σ : Fin n → ℝ) :
    lineDepth cam p lo hi σ = lineDepth cam p lo hi (onlyLayer j) * σ j := by
  rw [lineDepth_rayIn, Finset.sum_eq_single j, ← lineDepth_only]
  · intro k _ hk
    have h0 := rayIn_nonneg cam p ⟨border lo hi n k, border lo hi n (k + 1)⟩
    rw [← lineDepth_only cam p lo hi k] at h0 ⊢
    rcases h0.eq_or_lt with e | hlt
    · rw [← e, zero_mul]
    · exact absurd (h k hlt) hk
  · intro h
    exact absurd (Finset.mem_univ j) h

/-- The mean number of the layers a ray runs through. -/
noncomputable def meanLayer (lo hi : ℝ) (n : ℕ) (c z : ℝ) : ℝ := ∑ k ∈ Finset.Ico 1 n, above (border lo hi n k) c z

theorem fromLayer_zero (n : ℕ) : fromLayer n 0 = fun _ => 1 := by
  funext j
  simp [fromLayer]

theorem above_lowest {cam led : P3} {lo hi : ℝ} (hr : RayInDomain cam led lo hi) : above lo cam.2.2 led.2.2 = 1 := by
  unfold above
  rw [if_neg (not_lt.2 hr.cam_in.1), if_pos hr.led_in.1]

theorem lineDepth_one {cam led : P3} {lo hi : ℝ} (h : lo < hi) {n : ℕ} (hn : 1 ≤ n) (hr : RayInDomain cam led lo hi) :
    lineDepth cam led lo hi (fun _ : Fin n => 1) = euclid cam led := by
  rw [← fromLayer_zero, lineDepth_above h hn hr, border_zero, above_lowest hr, mul_one]

/-- The optical depth of a profile linear in the layer number is that of the mean layer. -/
theorem lineDepth_affine {cam led : P3} {lo hi : ℝ} (h : lo < hi) {n : ℕ} (hn : 1 ≤ n) (hr : RayInDomain cam led lo hi) (a b : ℝ) :
    lineDepth cam led lo hi (fun j : Fin n => a + b * (j : ℕ)) = euclid cam led * (a + b * meanLayer lo hi n cam.2.2 led.2.2) := by
  have e : ∀ j : Fin n, ((j : ℕ) : ℝ) = ∑ k ∈ Finset.Ico 1 n, fromLayer n k j := by
    intro j
    unfold fromLayer
    rw [Finset.sum_ite, Finset.sum_const_zero, add_zero, Finset.sum_const, nsmul_eq_mul, mul_one]
    congr 1
    have : (Finset.Ico 1 n).filter (fun k => k ≤ (j : ℕ)) = Finset.Ico 1 ((j : ℕ) + 1) := by
      ext k
      have := j.2
      simp only [Finset.mem_filter, Finset.mem_Ico]
      omega
    rw [this, Nat.card_Ico]
    omega
  have e2 : (fun j : Fin n => a + b * (j : ℕ)) = fun j => a * (1 : ℝ) + b * ∑ k ∈ Finset.Ico 1 n, fromLayer n k j := by
    funext j
    rw [e j]
    ring
  rw [e2, lineDepth_add cam led lo hi (fun _ => a * 1) (fun j => b * ∑ k ∈ Finset.Ico 1 n, fromLayer n k j), lineDepth_mul, lineDepth_mul,
    lineDepth_sum, lineDepth_one h hn hr]
  have : ∑ k ∈ Finset.Ico 1 n, lineDepth cam led lo hi (fromLayer n k) = euclid cam led * meanLayer lo hi n cam.2.2 led.2.2 := by
    unfold meanLayer
    rw [Finset.mul_sum]
    exact Finset.sum_congr rfl fun k _ => lineDepth_above h hn hr k
  rw [this]
  ring

theorem euclid_ray {cam led : P3} {lo hi : ℝ} (hr : RayInDomain cam led lo hi) : 0 < euclid cam led := by
  rcases (euclid_nonneg cam led).lt_or_eq with h | h
  · exact h
  · exfalso
    unfold euclid at h
    have h0 := Real.sqrt_eq_zero'.1 h.symm
    have s1 := sq_nonneg (cam.1 - led.1)
    have s2 := sq_nonneg (cam.2.1 - led.2.1)
    have s3 := sq_nonneg (cam.2.2 - led.2.2)
    have e1 : cam.1 - led.1 = 0 := pow_eq_zero_iff (two_ne_zero) |>.1 (by linarith)
    have e2 : cam.2.1 - led.2.1 = 0 := pow_eq_zero_iff (two_ne_zero) |>.1 (by linarith)
    have e3 : cam.2.2 - led.2.2 = 0 := pow_eq_zero_iff (two_ne_zero) |>.1 (by linarith)
    exact hr.ne (Prod.ext (by linarith) (Prod.ext (by linarith) (by linarith)))

/-- A ray runs through some layer. -/
theorem crosses_some {cam led : P3} {lo hi : ℝ} (h : lo < hi) {n : ℕ} (hn : 1 ≤ n) (hr : RayInDomain cam led lo hi) :
    ∃ j : Fin n, Crosses cam led lo hi j := by
  by_contra hc
  push Not at hc
  have h1 := lineDepth_one h hn hr
  rw [lineDepth_rayIn] at h1
  have : ∀ j : Fin n, rayIn cam led ⟨border lo hi n j, border lo hi n (j + 1)⟩ * 1 = 0 := by
    intro j
    have h0 := rayIn_nonneg cam led ⟨border lo hi n j, border lo hi n (j + 1)⟩
    have := hc j
    unfold Crosses at this
    rw [lineDepth_only] at this
    rw [mul_one]
    linarith
  rw [Finset.sum_eq_zero fun j _ => this j] at h1
  linarith [euclid_ray hr]

theorem onlyLayer_eq {n : ℕ} (j : Fin n) : onlyLayer j = fun i => fromLayer n j i - fromLayer n (j + 1) i := by
  funext i
  unfold onlyLayer fromLayer
  by_cases h1 : i = j
  · subst h1
    simp
  · have : (i : ℕ) ≠ j := fun e => h1 (Fin.ext e)
    rw [if_neg h1]
    split_ifs with h2 h3 h3
    · norm_num
    · omega
    · omega
    · norm_num

theorem crosses_iff {cam led : P3} {lo hi : ℝ} (h : lo < hi) {n : ℕ} (hr : RayInDomain cam led lo hi) (j : Fin n) :
    Crosses cam led lo hi j ↔ above (border lo hi n (j + 1)) cam.2.2 led.2.2 < above (border lo hi n j) cam.2.2 led.2.2 := by
  have hn : 1 ≤ n := j.pos
  unfold Crosses
  rw [onlyLayer_eq, lineDepth_sub, lineDepth_above h hn hr, lineDepth_above h hn hr, ← mul_sub]
  have := euclid_ray hr
  constructor
  · intro h0
    have := (mul_pos_iff_of_pos_left this).1 h0
    linarith
  · intro h0
    exact mul_pos this (by linarith)

theorem above_anti {cam led : P3} {lo hi : ℝ} (h : lo < hi) {n : ℕ} (hn : 1 ≤ n) (hr : RayInDomain cam led lo hi) {j k : ℕ} (hjk : j ≤ k) :
    above (border lo hi n k) cam.2.2 led.2.2 ≤ above (border lo hi n j) cam.2.2 led.2.2 := by
  have := lineDepth_mono cam led lo hi (fromLayer n k) (fromLayer n j) fun i => by
    unfold fromLayer
    split_ifs with h1 h2
    · exact le_rfl
    · omega
    · norm_num
    · exact le_rfl
  rw [lineDepth_above h hn hr, lineDepth_above h hn hr] at this
  exact le_of_mul_le_mul_left this (euclid_ray hr)

theorem above_highest {cam led : P3} {lo hi : ℝ} (hr : RayInDomain cam led lo hi) : above hi cam.2.2 led.2.2 = 0 := by
  unfold above
  split_ifs with h1 h2 h3
  · rfl
  · exact absurd hr.led_in.2 h2
  · exact absurd ⟨le_antisymm hr.cam_in.2 (not_lt.1 h1), le_antisymm hr.led_in.2 h3⟩ hr.top
  · rw [le_antisymm hr.cam_in.2 (not_lt.1 h1), sub_self, zero_div]

/-! ### C145 -/

/-- The rays to the LEDs determine the profiles linear in the layer number: two such profiles that dim all LEDs alike are equal. -/
def RaysDetermine {ι : Type} (leds : List ι) (cam : P3) (pos : ι → P3) (lo hi : ℝ) (n : ℕ) : Prop :=
  ∀ σ τ : Fin n → ℝ, Affine σ → Affine τ → (∀ l ∈ leds, lineDepth cam (pos l) lo hi σ = lineDepth cam (pos l) lo hi τ) → σ = τ

/-- **C145.** An LED array determines the profiles linear in height exactly if its LEDs are not all at the same height and the rays to them run
through more than one layer. -/
theorem C145_determined_iff {ι : Type} (leds : List ι) (cam : P3) (pos : ι → P3) {lo hi : ℝ} (h : lo < hi) {n : ℕ} (hn : 2 ≤ n)
    (hr : ∀ l ∈ leds, RayInDomain cam (pos l) lo hi) :
    RaysDetermine leds cam pos lo hi n ↔ (∃ l ∈ leds, ∃ l' ∈ leds, (pos l).2.2 ≠ (pos l').2.2) ∧
      ∃ j j' : Fin n, j ≠ j' ∧ (∃ l ∈ leds, Crosses cam (pos l) lo hi j) ∧ ∃ l ∈ leds, Crosses cam (pos l) lo hi j' := by
  have hn1 : 1 ≤ n := by omega
  constructor
  · intro hdet
    -- a profile that is zero at `m` is not seen
    have hno : ∀ m : ℝ, ¬ ∀ l ∈ leds, lineDepth cam (pos l) lo hi (fun j : Fin n => -m + 1 * (j : ℕ)) = 0 := by
      intro m hm
      have := hdet (fun j => -m + 1 * (j : ℕ)) (fun _ => 0) ⟨-m, 1, fun _ => rfl⟩ ⟨0, 0, fun _ => by simp⟩ fun l hl => by
        rw [hm l hl, lineDepth_zero]
      have e0 := congrFun this ⟨0, by omega⟩
      have e1 := congrFun this ⟨1, by omega⟩
      norm_num at e0 e1
      linarith
    constructor
    · by_contra hc
      push Not at hc
      cases leds with
      | nil => exact hno 0 fun l hl => by cases hl
      | cons l0 t =>
        refine hno (meanLayer lo hi n cam.2.2 (pos l0).2.2) fun l hl => ?_
        rw [lineDepth_affine h hn1 (hr l hl), hc l hl l0 List.mem_cons_self]
        ring
    · by_contra hc
      push Not at hc
      cases leds with
      | nil => exact hno 0 fun l hl => by cases hl
      | cons l0 t =>
        obtain ⟨j, hj⟩ := crosses_some h hn1 (hr l0 List.mem_cons_self)
        refine hno (j : ℕ) fun l hl => ?_
        rw [lineDepth_one_layer cam (pos l) lo hi j fun i hi' => by
          by_contra hne
          exact hc j i (Ne.symm hne) ⟨l0, List.mem_cons_self, hj⟩ l hl hi']
        ring
  · rintro ⟨⟨l1, h1, l2, h2, hz⟩, j, j', hjj, ⟨p, hp, cp⟩, q, hq, cq⟩ σ τ ⟨a, b, hσ⟩ ⟨a', b', hτ⟩ heq
    have hσ' : σ = fun j : Fin n => a + b * (j : ℕ) := funext hσ
    have hτ' : τ = fun j : Fin n => a' + b' * (j : ℕ) := funext hτ
    have hlin : ∀ l ∈ leds, (a - a') + (b - b') * meanLayer lo hi n cam.2.2 (pos l).2.2 = 0 := by
      intro l hl
      have := heq l hl
      rw [hσ', hτ', lineDepth_affine h hn1 (hr l hl), lineDepth_affine h hn1 (hr l hl)] at this
      have := mul_left_cancel₀ (euclid_ray (hr l hl)).ne' this
      linarith
    by_cases hb : b - b' = 0
    · have := hlin l1 h1
      rw [hb, zero_mul, add_zero] at this
      rw [hσ', hτ']
      funext j
      rw [sub_eq_zero.1 this, sub_eq_zero.1 hb]
    · exfalso
      have hmean : ∀ l ∈ leds, ∀ l' ∈ leds, meanLayer lo hi n cam.2.2 (pos l).2.2 = meanLayer lo hi n cam.2.2 (pos l').2.2 := by
        intro l hl l' hl'
        have e1 := hlin l hl
        have e2 := hlin l' hl'
        have : (b - b') * (meanLayer lo hi n cam.2.2 (pos l).2.2 - meanLayer lo hi n cam.2.2 (pos l').2.2) = 0 := by linarith
        linarith [(mul_eq_zero.1 this).resolve_left hb]
      -- rays to different heights are on the same side of every border
      have hside : ∀ l ∈ leds, ∀ l' ∈ leds, (pos l).2.2 < (pos l').2.2 → ∀ k, 1 ≤ k → k < n →
          above (border lo hi n k) cam.2.2 (pos l).2.2 = above (border lo hi n k) cam.2.2 (pos l').2.2 := by
        intro l hl l' hl' hlt
        have hle : ∀ k ∈ Finset.Ico 1 n, above (border lo hi n k) cam.2.2 (pos l).2.2 ≤ above (border lo hi n k) cam.2.2 (pos l').2.2 :=
          fun k _ => (above_mono _ _ hlt).1
        intro k hk1 hk2
        exact (Finset.sum_eq_sum_iff_of_le hle).1 (hmean l hl l' hl') k (Finset.mem_Ico.2 ⟨hk1, hk2⟩)
      have hsame : ∀ l ∈ leds, ∀ l' ∈ leds, ∀ k, 1 ≤ k → k < n →
          above (border lo hi n k) cam.2.2 (pos l).2.2 = above (border lo hi n k) cam.2.2 (pos l').2.2 := by
        intro l hl l' hl' k hk1 hk2
        rcases lt_trichotomy (pos l).2.2 (pos l').2.2 with hlt | he | hgt
        · exact hside l hl l' hl' hlt k hk1 hk2
        · rw [he]
        · exact (hside l' hl' l hl hgt k hk1 hk2).symm
      have h01 : ∀ l ∈ leds, ∀ k, 1 ≤ k → k < n →
          above (border lo hi n k) cam.2.2 (pos l).2.2 = 0 ∨ above (border lo hi n k) cam.2.2 (pos l).2.2 = 1 := by
        intro l hl k hk1 hk2
        rw [hsame l hl l1 h1 k hk1 hk2]
        rcases lt_or_gt_of_ne hz with hlt | hgt
        · exact (above_mono _ _ hlt).2 (hsame l1 h1 l2 h2 k hk1 hk2)
        · rw [hsame l1 h1 l2 h2 k hk1 hk2]
          exact (above_mono _ _ hgt).2 (hsame l2 h2 l1 h1 k hk1 hk2)
      -- two layers on the same ray or on different rays
      have key : ∀ (j j' : Fin n) (p q : ι), p ∈ leds → q ∈ leds → Crosses cam (pos p) lo hi j → Crosses cam (pos q) lo hi j' → ¬ j < j' := by
        intro j j' p q hp hq cp cq hlt
        rw [crosses_iff h (hr p hp)] at cp
        rw [crosses_iff h (hr q hq)] at cq
        have hj1 : (j : ℕ) + 1 < n := lt_of_le_of_lt (Fin.lt_def.1 hlt) j'.2
        have hj'1 : 1 ≤ (j' : ℕ) := by have := Fin.lt_def.1 hlt; omega
        have b1 := above_bounds (border lo hi n j) cam.2.2 (pos p).2.2
        have b2 := above_bounds (border lo hi n (j' + 1)) cam.2.2 (pos q).2.2
        have e1 : above (border lo hi n (j + 1)) cam.2.2 (pos p).2.2 = 0 := by
          rcases h01 p hp ((j : ℕ) + 1) (by omega) hj1 with e | e
          · exact e
          · rw [e] at cp
            linarith [b1.2]
        have e2 : above (border lo hi n j') cam.2.2 (pos q).2.2 = 1 := by
          rcases h01 q hq j' hj'1 j'.2 with e | e
          · rw [e] at cq
            linarith [b2.1]
          · exact e
        have := above_anti h hn1 (hr q hq) (show (j : ℕ) + 1 ≤ j' from Fin.lt_def.1 hlt)
        rw [e2, hsame q hq p hp _ (by omega) hj1, e1] at this
        linarith
      rcases lt_or_gt_of_ne hjj with hlt | hgt
      · exact key j j' p q hp hq cp cq hlt
      · exact key j' j q p hq hp cq cp hgt

/-- **C145.** Two LEDs on different sides of a border between layers are enough. -/
theorem C145_across_border {ι : Type} (leds : List ι) (cam : P3) (pos : ι → P3) {lo hi : ℝ} (h : lo < hi) {n : ℕ}
    (hr : ∀ l ∈ leds, RayInDomain cam (pos l) lo hi) (k : ℕ) (hk1 : 1 ≤ k) (hk2 : k < n) (l l' : ι) (hl : l ∈ leds) (hl' : l' ∈ leds)
    (hb : (pos l).2.2 < lo + k * ((hi - lo) / n)) (hb' : lo + k * ((hi - lo) / n) < (pos l').2.2) :
    RaysDetermine leds cam pos lo hi n := by
  have hn1 : 1 ≤ n := by omega
  have eb : border lo hi n k = lo + k * ((hi - lo) / n) := by unfold border; ring
  rw [← eb] at hb hb'
  rw [C145_determined_iff leds cam pos h (by omega) hr]
  refine ⟨⟨l, hl, l', hl', by linarith⟩, ?_⟩
  have a1 : above (border lo hi n k) cam.2.2 (pos l).2.2 < 1 := by
    unfold above
    split_ifs with h1 h2 h2
    · norm_num
    · linarith
    · linarith
    · push Not at h1
      exact (div_lt_one (by linarith)).2 (by linarith)
  have a2 : 0 < above (border lo hi n k) cam.2.2 (pos l').2.2 := by
    unfold above
    split_ifs with h1 h2 h2
    · linarith
    · push Not at h2
      exact div_pos (by linarith) (by linarith)
    · norm_num
    · linarith
  -- the ray to `l` runs through a layer below the border
  have low : ∃ j : Fin n, (j : ℕ) < k ∧ Crosses cam (pos l) lo hi j := by
    by_contra hc
    push Not at hc
    have : ∀ i, i ≤ k → above (border lo hi n i) cam.2.2 (pos l).2.2 = 1 := by
      intro i
      induction i with
      | zero => intro _; rw [border_zero, above_lowest (hr l hl)]
      | succ i ih =>
        intro hi'
        have h0 := ih (by omega)
        have := hc ⟨i, by omega⟩ (by simp only; omega)
        rw [crosses_iff h (hr l hl)] at this
        simp only at this
        rw [h0] at this
        exact le_antisymm (above_bounds _ _ _).2 (not_lt.1 this)
    rw [this k le_rfl] at a1
    exact lt_irrefl _ a1
  -- the ray to `l'` runs through a layer above the border
  have high : ∃ j : Fin n, k ≤ (j : ℕ) ∧ Crosses cam (pos l') lo hi j := by
    by_contra hc
    push Not at hc
    have : ∀ i, k + i ≤ n → 0 < above (border lo hi n (k + i)) cam.2.2 (pos l').2.2 := by
      intro i
      induction i with
      | zero => intro _; exact a2
      | succ i ih =>
        intro hi'
        have h0 := ih (by omega)
        have := hc ⟨k + i, by omega⟩ (by simp only; omega)
        rw [crosses_iff h (hr l' hl')] at this
        simp only at this
        exact lt_of_lt_of_le h0 (not_lt.1 this)
    have h0 := this (n - k) (by omega)
    rw [show k + (n - k) = n by omega, border_last _ _ _ hn1, above_highest (hr l' hl')] at h0
    exact lt_irrefl _ h0
  obtain ⟨j, hj, cj⟩ := low
  obtain ⟨j', hj', cj'⟩ := high
  exact ⟨j, j', fun e => by rw [e] at hj; omega, ⟨l, hl, cj⟩, l', hl', cj'⟩

end Ledsa
