import Verif.Model.Rounding
import Mathlib.Analysis.Real.Pi.Bounds
import Mathlib.Analysis.SpecialFunctions.Log.Basic
import Mathlib.Analysis.SpecialFunctions.Trigonometric.Arctan

/-!
# Rounding to 53 binary digits
-/

namespace Ledsa

theorem round_le_round {a b : ℝ} (h : a ≤ b) : round a ≤ round b := by
  rw [round_eq, round_eq]
  exact Int.floor_le_floor (by linarith)

theorem log_two_bounds {x : ℝ} (hx : 0 < x) : (2 : ℝ) ^ Int.log 2 x ≤ x ∧ x < (2 : ℝ) ^ (Int.log 2 x + 1) := by
  have h1 := Int.zpow_log_le_self (b := 2) (by norm_num) hx
  have h2 := Int.lt_zpow_succ_log_self (b := 2) (by norm_num) x
  push_cast at h1 h2
  exact ⟨h1, h2⟩

theorem log_two_unique {x : ℝ} {e : ℤ} (h1 : (2 : ℝ) ^ e ≤ x) (h2 : x < (2 : ℝ) ^ (e + 1)) : Int.log 2 x = e := by
  have hx : 0 < x := lt_of_lt_of_le (by positivity) h1
  have a := (Int.zpow_le_iff_le_log (b := 2) (by norm_num) hx (x := e)).1 (by push_cast; exact h1)
  have b := (Int.lt_zpow_iff_log_lt (b := 2) (by norm_num) hx (x := e + 1)).1 (by push_cast; exact h2)
  omega

theorem spacing_pos (x : ℝ) : 0 < spacing x := by unfold spacing; positivity

theorem spacing_mul (x : ℝ) (k : ℕ) : (2 : ℝ) ^ k * spacing x = (2 : ℝ) ^ (Int.log 2 x + ((k : ℤ) - 52)) := by
  unfold spacing
  rw [← zpow_natCast, ← zpow_add₀ (by norm_num)]
  congr 1
  ring

theorem roundPos_bounds {x : ℝ} (hx : 0 < x) : (2 : ℝ) ^ Int.log 2 x ≤ roundPos x ∧ roundPos x ≤ (2 : ℝ) ^ (Int.log 2 x + 1) := by
  obtain ⟨h1, h2⟩ := log_two_bounds hx
  have e1 : (2 : ℝ) ^ Int.log 2 x = (2 : ℝ) ^ 52 * spacing x := by rw [spacing_mul]; norm_num
  have e2 : (2 : ℝ) ^ (Int.log 2 x + 1) = (2 : ℝ) ^ 53 * spacing x := by rw [spacing_mul]; norm_num
  have hs := spacing_pos x
  unfold roundPos
  rw [e1] at h1 ⊢
  rw [e2] at h2 ⊢
  have a1 := round_le_round ((le_div_iff₀ hs).2 h1)
  have a2 := round_le_round ((div_le_iff₀ hs).2 h2.le)
  rw [show (2 : ℝ) ^ 52 = ((2 ^ 52 : ℤ) : ℝ) by norm_num, round_intCast] at a1
  rw [show (2 : ℝ) ^ 53 = ((2 ^ 53 : ℤ) : ℝ) by norm_num, round_intCast] at a2
  constructor
  · apply mul_le_mul_of_nonneg_right _ hs.le
    exact_mod_cast a1
  · apply mul_le_mul_of_nonneg_right _ hs.le
    exact_mod_cast a2

theorem roundPos_pos {x : ℝ} (hx : 0 < x) : 0 < roundPos x := lt_of_lt_of_le (by positivity) (roundPos_bounds hx).1

theorem roundPos_err {x : ℝ} (hx : 0 < x) : |roundPos x - x| ≤ (1 / 2) ^ 53 * x := by
  have hs := spacing_pos x
  have e : roundPos x - x = -(x / spacing x - round (x / spacing x)) * spacing x := by
    unfold roundPos
    field_simp
    ring
  rw [e, abs_mul, abs_neg, abs_of_pos hs]
  have h1 := abs_sub_round (x / spacing x)
  have h2 := (log_two_bounds hx).1
  rw [show (2 : ℝ) ^ Int.log 2 x = (2 : ℝ) ^ 52 * spacing x by rw [spacing_mul]; norm_num] at h2
  calc |x / spacing x - round (x / spacing x)| * spacing x ≤ 1 / 2 * spacing x := mul_le_mul_of_nonneg_right h1 hs.le
    _ = (1 / 2) ^ 53 * ((2 : ℝ) ^ 52 * spacing x) := by ring
    _ ≤ _ := mul_le_mul_of_nonneg_left h2 (by positivity)

theorem roundPos_mono {x y : ℝ} (hx : 0 < x) (h : x ≤ y) : roundPos x ≤ roundPos y := by
  have hy := hx.trans_le h
  rcases (Int.log_mono_right (b := 2) hx h).lt_or_eq with h1 | h1
  · calc roundPos x ≤ (2 : ℝ) ^ (Int.log 2 x + 1) := (roundPos_bounds hx).2
      _ ≤ (2 : ℝ) ^ Int.log 2 y := zpow_le_zpow_right₀ (by norm_num) h1
      _ ≤ roundPos y := (roundPos_bounds hy).1
  · have e : spacing x = spacing y := by unfold spacing; rw [h1]
    have hs := spacing_pos y
    unfold roundPos
    rw [e]
    apply mul_le_mul_of_nonneg_right _ hs.le
    exact_mod_cast round_le_round (div_le_div_of_nonneg_right h hs.le)

theorem roundPos_zpow (e : ℤ) : roundPos ((2 : ℝ) ^ e) = (2 : ℝ) ^ e := by
  have h : Int.log 2 ((2 : ℝ) ^ e) = e := log_two_unique le_rfl (zpow_lt_zpow_right₀ (by norm_num) (by omega))
  have hs := spacing_pos ((2 : ℝ) ^ e)
  have h2 : (2 : ℝ) ^ e = (2 ^ 52 : ℤ) * spacing ((2 : ℝ) ^ e) := by
    have := spacing_mul ((2 : ℝ) ^ e) 52
    rw [h] at this
    rw [show ((2 ^ 52 : ℤ) : ℝ) = (2 : ℝ) ^ 52 by norm_num, this]
    norm_num
  have h3 : (2 : ℝ) ^ e / spacing ((2 : ℝ) ^ e) = (2 ^ 52 : ℤ) := by rw [div_eq_iff hs.ne']; exact h2
  unfold roundPos
  rw [h3, round_intCast]
  exact h2.symm

theorem roundPos_idem {x : ℝ} (hx : 0 < x) : roundPos (roundPos x) = roundPos x := by
  obtain ⟨h1, h2⟩ := roundPos_bounds hx
  rcases h2.lt_or_eq with h3 | h3
  · have h := log_two_unique h1 h3
    have e : spacing (roundPos x) = spacing x := by unfold spacing; rw [h]
    have hs := spacing_pos x
    have h4 : roundPos x / spacing (roundPos x) = round (x / spacing x) := by
      rw [e, div_eq_iff hs.ne']; rfl
    rw [roundPos, h4, round_intCast, e]
    rfl
  · rw [h3, roundPos_zpow]

theorem roundPos_double {x : ℝ} (hx : 0 < x) : roundPos (2 * x) = 2 * roundPos x := by
  obtain ⟨h1, h2⟩ := log_two_bounds hx
  have h : Int.log 2 (2 * x) = Int.log 2 x + 1 := by
    apply log_two_unique
    · rw [zpow_add_one₀ (by norm_num)]; linarith
    · rw [zpow_add_one₀ (by norm_num)]; linarith
  have e : spacing (2 * x) = 2 * spacing x := by
    unfold spacing
    rw [h, show Int.log 2 x + 1 - 52 = Int.log 2 x - 52 + 1 by ring, zpow_add_one₀ (by norm_num)]
    ring
  unfold roundPos
  rw [e, mul_div_mul_left _ _ (by norm_num)]
  ring

theorem roundDouble_pos {x : ℝ} (hx : 0 < x) : roundDouble x = roundPos x := by
  unfold roundDouble
  rw [sign_pos hx, abs_of_pos hx]
  simp

theorem roundDouble_zero : roundDouble 0 = 0 := by
  unfold roundDouble
  simp

theorem roundDouble_neg (x : ℝ) : roundDouble (-x) = -roundDouble x := by
  unfold roundDouble
  rw [Left.sign_neg, abs_neg]
  simp

theorem roundDouble_err (x : ℝ) : |roundDouble x - x| ≤ (1 / 2) ^ 53 * |x| := by
  rcases lt_trichotomy x 0 with h | h | h
  · have := roundPos_err (neg_pos.2 h)
    rw [← roundDouble_pos (neg_pos.2 h), roundDouble_neg] at this
    rw [abs_of_neg h, abs_sub_comm]
    rwa [show -roundDouble x - -x = x - roundDouble x by ring] at this
  · rw [h, roundDouble_zero]; simp
  · rw [roundDouble_pos h, abs_of_pos h]
    exact roundPos_err h

theorem roundDouble_mono : Monotone roundDouble := by
  have pos : ∀ {x y : ℝ}, 0 < x → x ≤ y → roundDouble x ≤ roundDouble y := by
    intro x y hx h
    rw [roundDouble_pos hx, roundDouble_pos (hx.trans_le h)]
    exact roundPos_mono hx h
  have nn : ∀ {y : ℝ}, 0 ≤ y → 0 ≤ roundDouble y := by
    intro y hy
    rcases hy.lt_or_eq with h | h
    · rw [roundDouble_pos h]; exact (roundPos_pos h).le
    · rw [← h, roundDouble_zero]
  intro x y h
  rcases lt_or_ge 0 x with hx | hx
  · exact pos hx h
  · have hx' : roundDouble x ≤ 0 := by
      have := nn (neg_nonneg.2 hx)
      rw [roundDouble_neg] at this
      linarith
    rcases lt_or_ge y 0 with hy | hy
    · have := pos (neg_pos.2 hy) (neg_le_neg h)
      rw [roundDouble_neg, roundDouble_neg] at this
      linarith
    · exact hx'.trans (nn hy)

theorem roundDouble_idem (x : ℝ) : roundDouble (roundDouble x) = roundDouble x := by
  have pos : ∀ {x : ℝ}, 0 < x → roundDouble (roundDouble x) = roundDouble x := by
    intro x hx
    rw [roundDouble_pos hx, roundDouble_pos (roundPos_pos hx), roundPos_idem hx]
  rcases lt_trichotomy x 0 with h | h | h
  · have := pos (neg_pos.2 h)
    rw [roundDouble_neg, roundDouble_neg] at this
    linarith
  · rw [h, roundDouble_zero, roundDouble_zero]
  · exact pos h

theorem roundDouble_double (x : ℝ) : roundDouble (2 * x) = 2 * roundDouble x := by
  have pos : ∀ {x : ℝ}, 0 < x → roundDouble (2 * x) = 2 * roundDouble x := by
    intro x hx
    rw [roundDouble_pos hx, roundDouble_pos (by linarith), roundPos_double hx]
  rcases lt_trichotomy x 0 with h | h | h
  · have := pos (neg_pos.2 h)
    rw [mul_neg, roundDouble_neg, roundDouble_neg] at this
    linarith
  · rw [h, mul_zero, roundDouble_zero, mul_zero]
  · exact pos h

/-- The numbers with at most 53 binary digits are not changed. -/
theorem roundDouble_exact (k : ℤ) (e : ℤ) (hk : |k| ≤ 2 ^ 53) : roundDouble (k * (2 : ℝ) ^ e) = k * (2 : ℝ) ^ e := by
  have pos : ∀ (k : ℤ), 0 < k → k ≤ 2 ^ 53 → roundDouble (k * (2 : ℝ) ^ e) = k * (2 : ℝ) ^ e := by
    intro k h0 h1
    have k0 : (0 : ℝ) < k := by exact_mod_cast h0
    have hx : 0 < (k : ℝ) * (2 : ℝ) ^ e := by positivity
    rw [roundDouble_pos hx]
    rcases h1.lt_or_eq with h1 | h1
    · have hlog : Int.log 2 ((k : ℝ) * (2 : ℝ) ^ e) ≤ e + 52 := by
        have := (Int.lt_zpow_iff_log_lt (b := 2) (by norm_num) hx (x := e + 53)).1 (by
          push_cast
          rw [zpow_add₀ (by norm_num), mul_comm]
          apply mul_lt_mul_of_pos_left _ (by positivity)
          exact_mod_cast h1)
        omega
      obtain ⟨d, hd⟩ := Int.eq_ofNat_of_zero_le (show 0 ≤ e + 52 - Int.log 2 ((k : ℝ) * (2 : ℝ) ^ e) by omega)
      have hs := spacing_pos ((k : ℝ) * (2 : ℝ) ^ e)
      have h2 : (k : ℝ) * (2 : ℝ) ^ e = ((k * 2 ^ d : ℤ) : ℝ) * spacing ((k : ℝ) * (2 : ℝ) ^ e) := by
        push_cast
        rw [mul_assoc, spacing_mul]
        congr 2
        omega
      have h3 : (k : ℝ) * (2 : ℝ) ^ e / spacing ((k : ℝ) * (2 : ℝ) ^ e) = ((k * 2 ^ d : ℤ) : ℝ) := by rw [div_eq_iff hs.ne']; exact h2
      unfold roundPos
      rw [h3, round_intCast]
      exact h2.symm
    · have : (k : ℝ) * (2 : ℝ) ^ e = (2 : ℝ) ^ (53 + e) := by
        rw [h1, zpow_add₀ (by norm_num)]
        norm_num
      rw [this, roundPos_zpow]
  rcases lt_trichotomy k 0 with h | h | h
  · have := pos (-k) (by omega) (by rw [abs_of_neg h] at hk; exact hk)
    push_cast at this
    rw [neg_mul, roundDouble_neg] at this
    linarith
  · rw [h]; simp [roundDouble_zero]
  · exact pos k h (by rw [abs_of_pos h] at hk; exact hk)

/-- Double precision with a library that rounds correctly. -/
noncomputable def double : Machine where
  u := (1 / 2) ^ 53
  w := (1 / 2) ^ 53
  rnd := roundDouble
  square x := roundDouble (x ^ 2)
  sin x := roundDouble (Real.sin x)
  arctan x := roundDouble (Real.arctan x)
  log x := roundDouble (Real.log x)
  halfPi := roundDouble (Real.pi / 2)
  u_nonneg := by positivity
  u_small := by norm_num
  w_nonneg := by positivity
  w_small := by norm_num
  rnd_err := roundDouble_err
  rnd_mono := roundDouble_mono
  rnd_idem := roundDouble_idem
  rnd_neg := roundDouble_neg
  rnd_double := roundDouble_double
  square_err x := by
    have := roundDouble_err (x ^ 2)
    rwa [abs_of_nonneg (sq_nonneg x)] at this
  sin_err x := roundDouble_err _
  arctan_err x := roundDouble_err _
  log_err x := roundDouble_err _
  halfPi_err := by
    have := roundDouble_err (Real.pi / 2)
    rwa [abs_of_pos (by positivity : 0 < Real.pi / 2)] at this

end Ledsa
