import Mathlib.Tactic.Linarith
import Mathlib.Tactic.Ring
import Mathlib.Tactic.FieldSimp
import Mathlib.Tactic.Positivity
import Mathlib.Tactic.NormNum
import Mathlib.Tactic.IntervalCases
import Mathlib.Data.Nat.Log
import Verif.Model.Images
import Verif.Props.Analysis

/-!
# Reading images: colour filters (C67), scaling of raw values (C68), grey values (C69), kinds of images (C88)
-/

namespace Ledsa

/-! ### Rounding -/

theorem rne_cases (q : ℚ) : (rne q = ⌊q⌋ ∧ q - ⌊q⌋ ≤ 1 / 2) ∨ (rne q = ⌊q⌋ + 1 ∧ 1 / 2 ≤ q - ⌊q⌋) := by
  unfold rne
  split
  · rename_i h; exact .inl ⟨rfl, h.le⟩
  · rename_i h
    split
    · rename_i h2; exact .inr ⟨rfl, h2.le⟩
    · rename_i h2
      split
      · exact .inl ⟨rfl, not_lt.1 h2⟩
      · exact .inr ⟨rfl, not_lt.1 h⟩

theorem rne_near (q : ℚ) : |(rne q : ℚ) - q| ≤ 1 / 2 := by
  have h1 := Int.floor_le q
  have h2 := Int.lt_floor_add_one q
  rw [abs_le]
  rcases rne_cases q with ⟨h, h3⟩ | ⟨h, h3⟩ <;> rw [h]
  · constructor <;> linarith
  · push_cast; constructor <;> linarith

theorem rne_int (z : ℤ) : rne (z : ℚ) = z := by
  unfold rne
  rw [Int.floor_intCast, if_pos (by simp)]

theorem rne_mono {a b : ℚ} (h : a ≤ b) : rne a ≤ rne b := by
  have hf := Int.floor_mono h
  rcases lt_or_eq_of_le hf with hlt | heq
  · have h1 : rne a ≤ ⌊a⌋ + 1 := by rcases rne_cases a with ⟨h, _⟩ | ⟨h, _⟩ <;> omega
    have h2 : ⌊b⌋ ≤ rne b := by rcases rne_cases b with ⟨h, _⟩ | ⟨h, _⟩ <;> omega
    omega
  · by_cases h1 : a - ⌊a⌋ < 1 / 2
    · have e : rne a = ⌊a⌋ := by unfold rne; rw [if_pos h1]
      rcases rne_cases b with ⟨h, _⟩ | ⟨h, _⟩ <;> omega
    · by_cases h2 : a - ⌊a⌋ > 1 / 2
      · have h3 : b - ⌊b⌋ > 1 / 2 := by rw [← heq]; linarith
        have e : rne b = ⌊b⌋ + 1 := by unfold rne; rw [if_neg (by linarith), if_pos h3]
        rcases rne_cases a with ⟨h, _⟩ | ⟨h, _⟩ <;> omega
      · by_cases h3 : b - ⌊b⌋ > 1 / 2
        · have e : rne b = ⌊b⌋ + 1 := by unfold rne; rw [if_neg (by linarith), if_pos h3]
          rcases rne_cases a with ⟨h, _⟩ | ⟨h, _⟩ <;> omega
        · have e : a = b := by
            rw [← heq] at h3
            linarith [not_lt.1 h1, not_lt.1 h2, not_lt.1 h3]
          rw [e]

/-- Binary exponent used by the rounding. -/
def expo (q : ℚ) : ℕ := Nat.log2 ⌊q⌋.toNat

theorem lt_expo {q : ℚ} (h : 0 ≤ q) : q < (2 : ℚ) ^ (expo q + 1) := by
  have h1 := Int.lt_floor_add_one q
  have h2 : ⌊q⌋.toNat < 2 ^ (expo q + 1) := Nat.lt_log2_self
  have h3 : 0 ≤ ⌊q⌋ := Int.floor_nonneg.2 h
  have h4 : ⌊q⌋ + 1 ≤ ((2 ^ (expo q + 1) : ℕ) : ℤ) := by omega
  have h5 : ((⌊q⌋ + 1 : ℤ) : ℚ) ≤ ((2 ^ (expo q + 1) : ℕ) : ℚ) := by exact_mod_cast h4
  push_cast at h5
  linarith

theorem expo_le {q : ℚ} (h : 1 ≤ q) : (2 : ℚ) ^ expo q ≤ q := by
  have h1 := Int.floor_le q
  have h3 : 1 ≤ ⌊q⌋ := Int.le_floor.2 (by simpa using h)
  have h2 : 2 ^ expo q ≤ ⌊q⌋.toNat := Nat.log2_self_le (by omega)
  have h4 : ((2 ^ expo q : ℕ) : ℤ) ≤ ⌊q⌋ := by omega
  have h5 : ((2 ^ expo q : ℕ) : ℚ) ≤ (⌊q⌋ : ℚ) := by exact_mod_cast h4
  push_cast at h5
  linarith

/-- Unit of the rounding. -/
def unitOf (p : ℕ) (q : ℚ) : ℚ := (2 : ℚ) ^ ((p : ℤ) - 1 - (expo q : ℤ))

theorem unitOf_pos (p : ℕ) (q : ℚ) : 0 < unitOf p q := zpow_pos (by norm_num) _

theorem flPos_eq (p : ℕ) (q : ℚ) : flPos p q = rne (q * unitOf p q) / unitOf p q := rfl

theorem unitOf_mul (p : ℕ) (hp : 1 ≤ p) (q : ℚ) (k : ℕ) :
    (2 : ℚ) ^ (expo q + k) * unitOf p q = (2 : ℚ) ^ (p - 1 + k) := by
  unfold unitOf
  rw [← zpow_natCast, ← zpow_natCast, ← zpow_add₀ (by norm_num)]
  congr 1
  omega

theorem flPos_zero (p : ℕ) : flPos p 0 = 0 := by
  rw [flPos_eq, zero_mul]
  have := rne_int 0
  rw [Int.cast_zero] at this
  rw [this]; simp

theorem flPos_le_pow (p : ℕ) (hp : 1 ≤ p) {q : ℚ} (h : 0 ≤ q) : flPos p q ≤ 2 ^ (expo q + 1) := by
  have hu := unitOf_pos p q
  rw [flPos_eq, div_le_iff₀ hu, unitOf_mul p hp]
  have h1 : q * unitOf p q ≤ ((2 ^ (p - 1 + 1) : ℤ) : ℚ) := by
    push_cast
    rw [← unitOf_mul p hp q 1]
    exact mul_le_mul_of_nonneg_right (lt_expo h).le hu.le
  have h2 := rne_mono h1
  rw [rne_int] at h2
  have : (rne (q * unitOf p q) : ℚ) ≤ ((2 ^ (p - 1 + 1) : ℤ) : ℚ) := by exact_mod_cast h2
  simpa using this

theorem pow_le_flPos (p : ℕ) (hp : 1 ≤ p) {q : ℚ} (h : 1 ≤ q) : (2 : ℚ) ^ expo q ≤ flPos p q := by
  have hu := unitOf_pos p q
  rw [flPos_eq, le_div_iff₀ hu]
  have e := unitOf_mul p hp q 0
  rw [add_zero, add_zero] at e
  rw [e]
  have h1 : ((2 ^ (p - 1) : ℤ) : ℚ) ≤ q * unitOf p q := by
    push_cast
    rw [← e]
    exact mul_le_mul_of_nonneg_right (expo_le h) hu.le
  have h2 := rne_mono h1
  rw [rne_int] at h2
  have : ((2 ^ (p - 1) : ℤ) : ℚ) ≤ (rne (q * unitOf p q) : ℚ) := by exact_mod_cast h2
  simpa using this

theorem expo_mono {a b : ℚ} (h : a ≤ b) : expo a ≤ expo b := by
  unfold expo
  rw [Nat.log2_eq_log_two, Nat.log2_eq_log_two]
  exact Nat.log_mono_right (Int.toNat_le_toNat (Int.floor_mono h))

theorem flPos_mono (p : ℕ) (hp : 1 ≤ p) {a b : ℚ} (ha : 0 ≤ a) (h : a ≤ b) : flPos p a ≤ flPos p b := by
  rcases lt_or_eq_of_le (expo_mono h) with hlt | heq
  · have hb : 1 ≤ b := by
      by_contra hb
      have : expo b = 0 := by
        unfold expo
        have h0 : ⌊b⌋ < 1 := Int.floor_lt.2 (by push_cast; linarith)
        have : ⌊b⌋.toNat = 0 := by omega
        rw [this]; rfl
      omega
    calc flPos p a ≤ 2 ^ (expo a + 1) := flPos_le_pow p hp ha
      _ ≤ 2 ^ expo b := pow_le_pow_right₀ (by norm_num) hlt
      _ ≤ flPos p b := pow_le_flPos p hp hb
  · have e : unitOf p a = unitOf p b := by unfold unitOf; rw [heq]
    rw [flPos_eq, flPos_eq, e]
    apply div_le_div_of_nonneg_right _ (unitOf_pos p b).le
    exact_mod_cast rne_mono (mul_le_mul_of_nonneg_right h (unitOf_pos p b).le)

theorem flPos_near (p : ℕ) (hp : 1 ≤ p) {q : ℚ} (h : 1 ≤ q) : |flPos p q - q| ≤ q / 2 ^ p := by
  have hu := unitOf_pos p q
  have e : flPos p q - q = (rne (q * unitOf p q) - q * unitOf p q) / unitOf p q := by
    rw [flPos_eq]; field_simp
  rw [e, abs_div, abs_of_pos hu, div_le_iff₀ hu]
  have h1 := rne_near (q * unitOf p q)
  have h2 : (2 : ℚ) ^ (p - 1) ≤ q * unitOf p q := by
    have e := unitOf_mul p hp q 0
    rw [add_zero, add_zero] at e
    rw [← e]
    exact mul_le_mul_of_nonneg_right (expo_le h) hu.le
  have e2 : (2 : ℚ) ^ p = 2 * 2 ^ (p - 1) := by
    obtain ⟨k, rfl⟩ : ∃ k, p = k + 1 := ⟨p - 1, by omega⟩
    rw [pow_succ]; simp; ring
  have h3 : (1 : ℚ) / 2 ≤ q / 2 ^ p * unitOf p q := by
    rw [div_mul_eq_mul_div, le_div_iff₀ (by positivity), e2]
    linarith
  linarith

theorem fl_mono (p : ℕ) (hp : 1 ≤ p) {a b : ℚ} (h : a ≤ b) : fl p a ≤ fl p b := by
  have hn : ∀ x : ℚ, 0 ≤ x → 0 ≤ flPos p x := by
    intro x hx
    have := flPos_mono p hp le_rfl hx
    rwa [flPos_zero] at this
  unfold fl
  split
  · split
    · have := flPos_mono p hp (a := -b) (b := -a) (by linarith) (by linarith)
      linarith
    · have h1 := hn (-a) (by linarith)
      have h2 := hn b (by linarith)
      linarith
  · rw [if_neg (by linarith)]
    exact flPos_mono p hp (by linarith) h

theorem fl_zero (p : ℕ) : fl p 0 = 0 := by
  unfold fl; rw [if_neg (by simp), flPos_zero]

theorem fl_near (p : ℕ) (hp : 1 ≤ p) {q : ℚ} (h : q = 0 ∨ 1 ≤ |q|) : |fl p q - q| ≤ |q| / 2 ^ p := by
  rcases h with rfl | h
  · rw [fl_zero]; simp
  · unfold fl
    split
    · rename_i hq
      rw [abs_of_neg hq] at h ⊢
      have := flPos_near p hp h
      rw [← abs_neg]
      convert this using 2
      ring
    · rename_i hq
      rw [abs_of_nonneg (not_lt.1 hq)] at h ⊢
      exact flPos_near p hp h

theorem fl_one (p : ℕ) (hp : 1 ≤ p) : fl p 1 = 1 := by
  have e : expo 1 = 0 := by
    have : ⌊(1 : ℚ)⌋ = 1 := by simp
    unfold expo; rw [this]; rfl
  unfold fl
  rw [if_neg (by norm_num), flPos_eq]
  have hu := unitOf_pos p 1
  have h2 := unitOf_mul p hp 1 0
  rw [e, add_zero, pow_zero, one_mul, add_zero] at h2
  rw [one_mul, h2]
  have := rne_int (2 ^ (p - 1))
  push_cast at this
  rw [this]
  push_cast
  exact div_self (by positivity)

/-! ### C68 -/

/-- The exact factor. -/
def exactFactor (b w : ℤ) : ℚ := (w : ℚ) / ((w : ℚ) - b)

theorem one_le_exactFactor {b w : ℤ} (hb : 0 ≤ b) (hw : b < w) : 1 ≤ exactFactor b w := by
  have h1 : (b : ℚ) < w := by exact_mod_cast hw
  have h2 : (0 : ℚ) ≤ b := by exact_mod_cast hb
  unfold exactFactor
  rw [le_div_iff₀ (by linarith)]
  linarith

theorem scaleFactor_spec {b w : ℤ} (hb : 0 ≤ b) (hw : b < w) :
    1 ≤ scaleFactor b w ∧ |scaleFactor b w - exactFactor b w| ≤ exactFactor b w / 2 ^ 23 := by
  have hq := one_le_exactFactor hb hw
  set q := exactFactor b w with hqd
  have ha : 1 ≤ fl 53 q := by rw [← fl_one 53 (by norm_num)]; exact fl_mono 53 (by norm_num) hq
  have hf : 1 ≤ fl 24 (fl 53 q) := by
    have := fl_mono 24 (by norm_num) ha
    rwa [fl_one 24 (by norm_num)] at this
  have e : scaleFactor b w = fl 24 (fl 53 q) := rfl
  have n1 := fl_near 53 (by norm_num) (q := q) (.inr (by rw [abs_of_nonneg (by linarith)]; exact hq))
  have n2 := fl_near 24 (by norm_num) (q := fl 53 q) (.inr (by rw [abs_of_nonneg (by linarith)]; exact ha))
  rw [abs_of_nonneg (show 0 ≤ q by linarith), abs_le] at n1
  rw [abs_of_nonneg (show 0 ≤ fl 53 q by linarith), abs_le] at n2
  rw [e]
  refine ⟨hf, ?_⟩
  rw [abs_le]
  norm_num at n1 n2 ⊢
  constructor <;> linarith

/-- The scaled value in 32 bit floats is close to the exact one. -/
theorem scaled_near {b w : ℤ} (hb : 0 ≤ b) (hw : b < w) (x : ℤ) :
    |fl 24 ((x : ℚ) * scaleFactor b w) - x * exactFactor b w| ≤ |(x : ℚ) * exactFactor b w| / 2 ^ 22 := by
  obtain ⟨h1, h2⟩ := scaleFactor_spec hb hw
  have hq := one_le_exactFactor hb hw
  set q := exactFactor b w
  set f := scaleFactor b w
  have hx : (x : ℚ) * f = 0 ∨ 1 ≤ |(x : ℚ) * f| := by
    by_cases h0 : x = 0
    · left; rw [h0]; simp
    · right
      have : (1 : ℚ) ≤ |(x : ℚ)| := by exact_mod_cast Int.one_le_abs h0
      rw [abs_mul, abs_of_nonneg (show 0 ≤ f by linarith)]
      nlinarith
  have n := fl_near 24 (by norm_num) hx
  have hfq : |(x : ℚ) * f - x * q| ≤ |(x : ℚ)| * (q / 2 ^ 23) := by
    rw [← mul_sub, abs_mul]
    exact mul_le_mul_of_nonneg_left h2 (abs_nonneg _)
  have hf : |(x : ℚ) * f| ≤ |(x : ℚ)| * (q + q / 2 ^ 23) := by
    rw [abs_mul, abs_of_nonneg (show 0 ≤ f by linarith)]
    apply mul_le_mul_of_nonneg_left _ (abs_nonneg _)
    have := (abs_le.1 h2).2
    linarith
  have e : |(x : ℚ) * q| = |(x : ℚ)| * q := by rw [abs_mul, abs_of_nonneg (show 0 ≤ q by linarith)]
  rw [e]
  have t := abs_add_le (fl 24 ((x : ℚ) * f) - x * f) ((x : ℚ) * f - x * q)
  rw [sub_add_sub_cancel] at t
  have hn : 0 ≤ |(x : ℚ)| * q := mul_nonneg (abs_nonneg _) (by linarith)
  have e1 : |(x : ℚ)| * (q / 2 ^ 23) = |(x : ℚ)| * q / 2 ^ 23 := by ring
  have e2 : |(x : ℚ)| * (q + q / 2 ^ 23) = |(x : ℚ)| * q + |(x : ℚ)| * q / 2 ^ 23 := by ring
  rw [e1] at hfq
  rw [e2] at hf
  norm_num at t n hfq hf hn ⊢
  linarith

theorem truncZero_mono {a b : ℚ} (h : a ≤ b) : truncZero a ≤ truncZero b := by
  unfold truncZero
  split
  · rw [if_pos (by linarith)]; exact Int.floor_mono h
  · split
    · have h1 : ⌈a⌉ ≤ 0 := Int.ceil_le.2 (by push_cast; linarith)
      have h2 : 0 ≤ ⌊b⌋ := Int.floor_nonneg.2 (by assumption)
      omega
    · exact Int.ceil_mono h

/-- Values of absolute value below 32768 are cast as expected. -/
theorem cast_fits (to16 : Int16Cast) {v : ℚ} (h1 : -32769 < v) (h2 : v < 32768) : to16.cast v = truncZero v := by
  apply to16.fits
  · unfold truncZero
    split
    · have : 0 ≤ ⌊v⌋ := Int.floor_nonneg.2 (by assumption)
      omega
    · have : -32769 < ⌈v⌉ := Int.lt_ceil.2 (by push_cast; exact h1)
      omega
  · unfold truncZero
    split
    · have : ⌊v⌋ < 32768 := Int.floor_lt.2 (by push_cast; exact h2)
      omega
    · have : ⌈v⌉ ≤ 0 := Int.ceil_le.2 (by push_cast; linarith)
      omega

theorem wrap16_self {z : ℤ} (h1 : -32768 ≤ z) (h2 : z ≤ 32767) : wrap16 z = z := by
  unfold wrap16; omega

/-- **C68.** Scaled values are between 0 and the white level, for all data, also those that overflow. -/
theorem C68_range (to16 : Int16Cast) (b w d : ℤ) (hw : 0 ≤ w) : 0 ≤ scalePixel to16 b w d ∧ scalePixel to16 b w d ≤ w := by
  unfold scalePixel
  constructor
  · exact le_min (le_max_right _ _) hw
  · exact min_le_right _ _

/-- **C68.** Black maps to zero. -/
theorem C68_black (to16 : Int16Cast) (b w : ℤ) (hb : 0 ≤ b) (h : b ≤ 32767) (hw : b < w) : scalePixel to16 b w b = 0 := by
  unfold scalePixel
  rw [wrap16_self (z := b) (by omega) h, sub_self, wrap16_self (by omega) (by omega)]
  simp only [Int.cast_zero, zero_mul, fl_zero]
  rw [cast_fits to16 (by norm_num) (by norm_num)]
  have := truncZero_int 0
  rw [Int.cast_zero] at this
  rw [this]
  simp only [max_self]
  omega

/-- **C68.** White maps to white or, because of rounding, to the value below it, for sensors up to 15 bit. -/
theorem C68_white_partial (to16 : Int16Cast) (b w : ℤ) (hb : 0 ≤ b) (hw : b < w) (h : w ≤ 32767) :
    scalePixel to16 b w w = w ∨ scalePixel to16 b w w = w - 1 := by
  have hx : ((w - b : ℤ) : ℚ) * exactFactor b w = w := by
    unfold exactFactor
    have : (b : ℚ) < w := by exact_mod_cast hw
    have : (w : ℚ) - b ≠ 0 := by linarith
    push_cast
    field_simp
  have n := scaled_near hb hw (w - b)
  rw [hx] at n
  have hwq : (0 : ℚ) < w := by exact_mod_cast (show 0 < w by omega)
  have hwq2 : (w : ℚ) ≤ 32767 := by exact_mod_cast h
  have hwq1 : (1 : ℚ) ≤ w := by exact_mod_cast (show 1 ≤ w by omega)
  rw [abs_of_pos hwq, abs_le] at n
  unfold scalePixel
  rw [wrap16_self (z := w) (by omega) h, wrap16_self (by omega) (by omega)]
  set v := fl 24 (((w - b : ℤ) : ℚ) * scaleFactor b w)
  norm_num at n
  simp only
  rw [cast_fits to16 (by linarith) (by linarith)]
  have ht : truncZero v = ⌊v⌋ := by unfold truncZero; rw [if_pos (by linarith)]
  rw [ht]
  have f1 : ⌊v⌋ < w + 1 := Int.floor_lt.2 (by push_cast; linarith)
  have f2 : w - 1 ≤ ⌊v⌋ := Int.le_floor.2 (by push_cast; linarith)
  omega

theorem scaled_bounds {b w : ℤ} (hb : 0 ≤ b) (hw : b < w) (x : ℤ) (h1 : -32768 * (w - b) ≤ x * w) (h2 : x * w ≤ 32767 * (w - b)) :
    -32769 < fl 24 ((x : ℚ) * scaleFactor b w) ∧ fl 24 ((x : ℚ) * scaleFactor b w) < 32768 := by
  have n := scaled_near hb hw x
  have hd : (0 : ℚ) < w - b := by
    have : (b : ℚ) < w := by exact_mod_cast hw
    linarith
  have e : (x : ℚ) * exactFactor b w = (x * w) / (w - b) := by unfold exactFactor; ring
  have b1 : -32768 ≤ (x : ℚ) * exactFactor b w := by
    rw [e, le_div_iff₀ hd]; exact_mod_cast h1
  have b2 : (x : ℚ) * exactFactor b w ≤ 32767 := by
    rw [e, div_le_iff₀ hd]; exact_mod_cast h2
  have b3 : |(x : ℚ) * exactFactor b w| ≤ 32768 := abs_le.2 ⟨b1, by linarith⟩
  have b4 : |(x : ℚ) * exactFactor b w| / 2 ^ 22 ≤ 1 / 128 := by
    rw [div_le_iff₀ (by norm_num)]
    norm_num at b3 ⊢
    linarith
  have n := abs_le.1 (n.trans b4)
  constructor <;> linarith [n.1, n.2]

/-- **C68.** A brighter pixel is not mapped to a darker value, as long as the data are 15 bit and the scaled values fit into 16
bit. Missing: brighter data (`C68_monotone_false`). -/
theorem C68_monotone_partial (to16 : Int16Cast) (b w d d' : ℤ) (hb : 0 ≤ b) (hw : b < w) (hd : 0 ≤ d) (hdd : d ≤ d')
    (hb' : b ≤ 32767) (hd' : d' ≤ 32767) (h1 : b * w ≤ 32768 * (w - b)) (h2 : (d' - b) * w ≤ 32767 * (w - b)) :
    scalePixel to16 b w d ≤ scalePixel to16 b w d' := by
  unfold scalePixel
  rw [wrap16_self (z := d) (by omega) (by omega), wrap16_self (z := d - b) (by omega) (by omega),
    wrap16_self (z := d') (by omega) (by omega), wrap16_self (z := d' - b) (by omega) (by omega)]
  simp only
  have low : ∀ x : ℤ, -b ≤ x → -32768 * (w - b) ≤ x * w := by
    intro x hx
    have : -b * w ≤ x * w := mul_le_mul_of_nonneg_right hx (by omega)
    linarith
  have up : ∀ x : ℤ, x ≤ d' - b → x * w ≤ 32767 * (w - b) := by
    intro x hx
    have : x * w ≤ (d' - b) * w := mul_le_mul_of_nonneg_right hx (by omega)
    linarith
  obtain ⟨a1, a2⟩ := scaled_bounds hb hw (d - b) (low _ (by omega)) (up _ (by omega))
  obtain ⟨a3, a4⟩ := scaled_bounds hb hw (d' - b) (low _ (by omega)) (up _ le_rfl)
  rw [cast_fits to16 a1 a2, cast_fits to16 a3 a4]
  apply min_le_min_right
  apply max_le_max_right
  apply truncZero_mono
  apply fl_mono 24 (by norm_num)
  apply mul_le_mul_of_nonneg_right
  · exact_mod_cast (show d - b ≤ d' - b by omega)
  · have := (scaleFactor_spec hb hw).1; linarith

/-- **C68.** For 14 bit sensors whose black level is at most half the white level, brighter pixels never get darker. -/
theorem C68_monotone_14bit (to16 : Int16Cast) (b w d d' : ℤ) (hb : 0 ≤ b) (hbw : 2 * b ≤ w) (hw0 : 0 < w) (hw : w ≤ 16383)
    (hd : 0 ≤ d) (hdd : d ≤ d') (hd' : d' ≤ 16383) : scalePixel to16 b w d ≤ scalePixel to16 b w d' := by
  apply C68_monotone_partial to16 b w d d' hb (by omega) hd hdd (by omega) (by omega)
  · nlinarith
  · by_cases h : 0 ≤ d' - b
    · have : (d' - b) * w ≤ (d' - b) * (2 * (w - b)) := mul_le_mul_of_nonneg_left (by omega) h
      have : (d' - b) * (2 * (w - b)) ≤ 16383 * (2 * (w - b)) := mul_le_mul_of_nonneg_right (by omega) (by omega)
      linarith
    · have : (d' - b) * w ≤ 0 := mul_nonpos_of_nonpos_of_nonneg (by omega) (by omega)
      linarith

/-- **C68.** Data from 32768 on become negative and are mapped to black, up to the data that wrap around twice. -/
theorem C68_overflow (to16 : Int16Cast) (b w d : ℤ) (hb : 0 ≤ b) (hw : b < w) (hd : 32768 + b ≤ d) (hd' : d ≤ 65535)
    (h : (65536 - d + b) * w ≤ 32768 * (w - b)) : scalePixel to16 b w d = 0 := by
  unfold scalePixel
  have e : wrap16 d = d - 65536 := by unfold wrap16; omega
  rw [e, wrap16_self (z := d - 65536 - b) (by omega) (by omega)]
  simp only
  have hx : (d - 65536 - b) * w ≤ 0 := mul_nonpos_of_nonpos_of_nonneg (by omega) (by omega)
  obtain ⟨a1, a2⟩ := scaled_bounds hb hw (d - 65536 - b) (by linarith) (by linarith)
  rw [cast_fits to16 a1 a2]
  have h0 : fl 24 (((d - 65536 - b : ℤ) : ℚ) * scaleFactor b w) ≤ 0 := by
    rw [← fl_zero 24]
    apply fl_mono 24 (by norm_num)
    apply mul_nonpos_of_nonpos_of_nonneg
    · exact_mod_cast (show d - 65536 - b ≤ 0 by omega)
    · have := (scaleFactor_spec hb hw).1; linarith
  have h1 := truncZero_mono h0
  have h2 := truncZero_int 0
  rw [Int.cast_zero] at h2
  rw [h2] at h1
  omega

/-- Refuted: on 16 bit sensors the brightest pixels are mapped to black. -/
theorem C68_monotone_false (to16 : Int16Cast) (w : ℤ) (hw : 32768 ≤ w) (hw' : w ≤ 65535) :
    scalePixel to16 0 w w = 0 ∧ scalePixel to16 0 w 32767 > 0 := by
  constructor
  · exact C68_overflow to16 0 w w le_rfl (by omega) (by omega) hw' (by nlinarith)
  · have e : scaleFactor 0 w = 1 := by
      have hq : (w : ℚ) / ((w : ℚ) - (0 : ℤ)) = 1 := by
        have : (w : ℚ) ≠ 0 := by exact_mod_cast (show w ≠ 0 by omega)
        push_cast
        rw [sub_zero, div_self this]
      unfold scaleFactor
      rw [hq, fl_one 53 (by norm_num), fl_one 24 (by norm_num)]
    obtain ⟨a1, a2⟩ := scaled_bounds (b := 0) (w := w) le_rfl (by omega) 32767 (by nlinarith) (by nlinarith)
    unfold scalePixel
    have e1 : wrap16 (wrap16 32767 - 0) = 32767 := by decide
    rw [e1]
    simp only
    rw [cast_fits to16 a1 a2, e, mul_one]
    have h1 : fl 24 1 ≤ fl 24 ((32767 : ℤ) : ℚ) := fl_mono 24 (by norm_num) (by norm_num)
    rw [fl_one 24 (by norm_num)] at h1
    have h2 := truncZero_mono h1
    have h3 := truncZero_int 1
    rw [Int.cast_one] at h3
    rw [h3] at h2
    omega

theorem white_16383 : fl 24 ((15871 : ℚ) * scaleFactor 512 16383) = 16776191 / 1024 := by
  decide +kernel

/-- Refuted: white does not map to white for a common sensor. -/
theorem C68_white_false (to16 : Int16Cast) : scalePixel to16 512 16383 16383 = 16382 := by
  unfold scalePixel
  have e1 : wrap16 (wrap16 16383 - 512) = 15871 := by decide
  rw [e1]
  simp only
  have e2 : (((15871 : ℤ) : ℚ)) = 15871 := by norm_num
  rw [e2, white_16383, cast_fits to16 (by norm_num) (by norm_num)]
  have : truncZero (16776191 / 1024) = 16382 := by decide +kernel
  rw [this]
  decide

/-- Refuted: pixels are corrected with the black level of the chosen channel; a pixel of another filter with a higher black
level is not mapped to 0 when it is black. -/
theorem C68_other_filter_false (to16 : Int16Cast) (b b' w : ℤ) (hb : 0 ≤ b) (hbb : b < b') (hb' : b' ≤ 32767) (hw : b < w)
    (h : (b' - b) * w ≤ 32767 * (w - b)) : 0 < scalePixel to16 b w b' := by
  unfold scalePixel
  rw [wrap16_self (z := b') (by omega) (by omega), wrap16_self (z := b' - b) (by omega) (by omega)]
  simp only
  have hx : 0 ≤ (b' - b) * w := mul_nonneg (by omega) (by omega)
  obtain ⟨a1, a2⟩ := scaled_bounds hb hw (b' - b) (by linarith) h
  rw [cast_fits to16 a1 a2]
  have hf := (scaleFactor_spec hb hw).1
  have h1 : fl 24 1 ≤ fl 24 (((b' - b : ℤ) : ℚ) * scaleFactor b w) := by
    apply fl_mono 24 (by norm_num)
    have : (1 : ℚ) ≤ ((b' - b : ℤ) : ℚ) := by exact_mod_cast (show 1 ≤ b' - b by omega)
    nlinarith
  rw [fl_one 24 (by norm_num)] at h1
  have h2 := truncZero_mono h1
  have h3 := truncZero_int 1
  rw [Int.cast_one] at h3
  rw [h3] at h2
  omega

/-! ### C67 -/

/-- The channel to which a filter belongs: red, green, blue, second green. -/
def channelOfFilter : ℕ → Option ℕ
  | 0 => some 0
  | 1 => some 1
  | 2 => some 2
  | 3 => some 1
  | _ => none

/-- **C67.** Each of the three channels can be read, has at every pixel of its filters the scaled value of that pixel and is zero
everywhere else. -/
theorem C67_channel (to16 : Int16Cast) (raw : RawImage) (ch : ℕ) (hch : ch < 3) (b : ℤ) (hb : raw.black[ch]? = some b) :
    ∃ img, readRawChannel to16 raw ch = .ok img ∧ ∀ i j,
      (channelOfFilter (raw.colors i j) = some ch → img i j = scalePixel to16 b raw.white (raw.data i j)) ∧
      (channelOfFilter (raw.colors i j) ≠ some ch → img i j = 0) := by
  unfold readRawChannel readRaw
  rw [hb]
  simp only
  have key : ∀ c, channelOfFilter c = some ch ↔ (if ch = 1 then c = 1 ∨ c = 3 else c = ch) := by
    intro c
    match c with
    | 0 => interval_cases ch <;> simp [channelOfFilter]
    | 1 => interval_cases ch <;> simp [channelOfFilter]
    | 2 => interval_cases ch <;> simp [channelOfFilter]
    | 3 => interval_cases ch <;> simp [channelOfFilter]
    | n + 4 => interval_cases ch <;> simp [channelOfFilter]
  by_cases h1 : ch = 0 ∨ ch = 2
  · rw [if_pos h1]
    refine ⟨_, rfl, fun i j => ?_⟩
    rw [ne_eq, key, if_neg (by omega)]
    exact ⟨fun h => if_pos h, fun h => if_neg h⟩
  · rw [if_neg h1, if_pos (by omega)]
    refine ⟨_, rfl, fun i j => ?_⟩
    rw [ne_eq, key, if_pos (by omega)]
    exact ⟨fun h => if_pos h, fun h => if_neg h⟩

/-- **C67.** For every raw image with four filters and a black level for each channel: all three channels can be read, and each
pixel has its value in exactly one of them, the one of its filter, and is zero in the other two. -/
theorem C67_partition (to16 : Int16Cast) (raw : RawImage) (b0 b1 b2 : ℤ) (rest : List ℤ)
    (hb : raw.black = b0 :: b1 :: b2 :: rest) (hc : ∀ i j, raw.colors i j ≤ 3) :
    ∃ red green blue, readRawChannel to16 raw 0 = .ok red ∧ readRawChannel to16 raw 1 = .ok green ∧
      readRawChannel to16 raw 2 = .ok blue ∧ ∀ i j,
      (raw.colors i j = 0 ∧ red i j = scalePixel to16 b0 raw.white (raw.data i j) ∧ green i j = 0 ∧ blue i j = 0) ∨
      ((raw.colors i j = 1 ∨ raw.colors i j = 3) ∧ green i j = scalePixel to16 b1 raw.white (raw.data i j) ∧
        red i j = 0 ∧ blue i j = 0) ∨
      (raw.colors i j = 2 ∧ blue i j = scalePixel to16 b2 raw.white (raw.data i j) ∧ red i j = 0 ∧ green i j = 0) := by
  obtain ⟨red, r1, r2⟩ := C67_channel to16 raw 0 (by omega) b0 (by rw [hb]; rfl)
  obtain ⟨green, g1, g2⟩ := C67_channel to16 raw 1 (by omega) b1 (by rw [hb]; rfl)
  obtain ⟨blue, l1, l2⟩ := C67_channel to16 raw 2 (by omega) b2 (by rw [hb]; rfl)
  refine ⟨red, green, blue, r1, g1, l1, fun i j => ?_⟩
  have r2 := r2 i j
  have g2 := g2 i j
  have l2 := l2 i j
  have hc := hc i j
  generalize raw.colors i j = c at *
  match c, hc with
  | 0, _ => exact .inl ⟨rfl, r2.1 rfl, g2.2 (by decide), l2.2 (by decide)⟩
  | 1, _ => exact .inr (.inl ⟨.inl rfl, g2.1 rfl, r2.2 (by decide), l2.2 (by decide)⟩)
  | 3, _ => exact .inr (.inl ⟨.inr rfl, g2.1 rfl, r2.2 (by decide), l2.2 (by decide)⟩)
  | 2, _ => exact .inr (.inr ⟨rfl, l2.1 rfl, r2.2 (by decide), g2.2 (by decide)⟩)

/-- **C67.** A channel number above two is an error. -/
theorem C67_other_channel (to16 : Int16Cast) (raw : RawImage) (ch : ℕ) (h : 3 ≤ ch) :
    ∃ e, readRawChannel to16 raw ch = .error e := by
  unfold readRawChannel
  cases readRaw to16 raw ch with
  | error e => exact ⟨e, rfl⟩
  | ok img =>
    simp only
    rw [if_neg (by omega), if_neg (by omega)]
    exact ⟨_, rfl⟩

/-! ### C69 -/

/-- **C69.** The grey value of an 8 bit pixel is at most its largest channel value and at least its smallest minus one. Missing:
the exact lower bound (`C69_false`) and floating point images (`C69_png_false`). -/
theorem C69_partial (r g b : ℕ) (hr : r ≤ 255) (hg : g ≤ 255) (hb : b ≤ 255) (v : ℚ) (hv : IsDot r g b v) :
    (min r (min g b) : ℤ) - 1 ≤ toGray v ∧ toGray v ≤ max r (max g b) := by
  obtain ⟨h0, h1⟩ := hv
  rw [abs_le] at h1
  unfold dotExact at h1
  unfold toGray truncZero
  rw [if_pos h0]
  have hr' : (r : ℚ) ≤ 255 := by exact_mod_cast hr
  have hg' : (g : ℚ) ≤ 255 := by exact_mod_cast hg
  have hb' : (b : ℚ) ≤ 255 := by exact_mod_cast hb
  norm_num at h1
  constructor
  · rw [Int.le_floor]
    push_cast
    set m : ℚ := min (r : ℚ) (min (g : ℚ) (b : ℚ)) with hm
    have m1 : m ≤ r := min_le_left _ _
    have m2 : m ≤ g := (min_le_right _ _).trans (min_le_left _ _)
    have m3 : m ≤ b := (min_le_right _ _).trans (min_le_right _ _)
    linarith
  · rw [← Int.lt_add_one_iff, Int.floor_lt]
    push_cast
    set m : ℚ := max (r : ℚ) (max (g : ℚ) (b : ℚ)) with hm
    have m1 : (r : ℚ) ≤ m := le_max_left _ _
    have m2 : (g : ℚ) ≤ m := (le_max_left _ _).trans (le_max_right _ _)
    have m3 : (b : ℚ) ≤ m := (le_max_right _ _).trans (le_max_right _ _)
    have m0 : (0 : ℚ) ≤ m := le_trans (by exact_mod_cast Nat.zero_le r) m1
    linarith

/-- Refuted: every grey pixel except black becomes darker by one. -/
theorem C69_false (c : ℕ) (h1 : 1 ≤ c) (h2 : c ≤ 255) (v : ℚ) (hv : IsDot c c c v) : toGray v = (c : ℤ) - 1 := by
  obtain ⟨h0, h3⟩ := hv
  rw [abs_le] at h3
  unfold dotExact at h3
  unfold toGray truncZero
  rw [if_pos h0, Int.floor_eq_iff]
  have h1' : (1 : ℚ) ≤ c := by exact_mod_cast h1
  have h2' : (c : ℚ) ≤ 255 := by exact_mod_cast h2
  norm_num at h3
  push_cast
  constructor <;> linarith

/-- Refuted: all pixels of an image with values between 0 and 1, as PNG files are read, become black. -/
theorem C69_png_false (r g b : ℚ) (hr : r ≤ 1) (hg : g ≤ 1) (hb : b ≤ 1) (v : ℚ) (hv : IsDot r g b v) : toGray v = 0 := by
  obtain ⟨h0, h3⟩ := hv
  rw [abs_le] at h3
  unfold dotExact at h3
  unfold toGray truncZero
  rw [if_pos h0, Int.floor_eq_iff]
  norm_num at h3
  push_cast
  constructor
  · linarith
  · linarith

/-- Refuted: a picture without colour axis gives one number for each row instead of an image. -/
theorem C69_plain_false (img : List (List ℚ)) (h : ∀ row ∈ img, 3 ≤ row.length) :
    ∃ l, dotPlain img = .ok l ∧ l.length = img.length := by
  unfold dotPlain
  induction img with
  | nil => exact ⟨[], rfl, rfl⟩
  | cons row img ih =>
    obtain ⟨l, h1, h2⟩ := ih (fun r hr => h r (List.mem_cons_of_mem _ hr))
    have hrow := h row (by simp)
    match row, hrow with
    | a :: b :: c :: t, _ =>
      refine ⟨dotExact a b c :: l, ?_, by simp [h2]⟩
      rw [List.mapM_cons, h1]
      rfl

/-! ### C88 -/

theorem splitExt_dot (base ext : Str) (hb : ∃ c ∈ base, c ≠ '.') (he : '.' ∉ ext) : splitExt (base ++ '.' :: ext) = '.' :: ext := by
  have h1 : ((base ++ '.' :: ext).reverse.takeWhile (· ≠ '.')).reverse = ext := by
    rw [List.reverse_append, List.reverse_cons, List.append_assoc, List.singleton_append]
    rw [List.takeWhile_append_of_pos (by
      intro c hc
      simp only [ne_eq, decide_eq_true_eq]
      rintro rfl
      exact he (List.mem_reverse.1 hc))]
    rw [List.takeWhile_cons_of_neg (by simp)]
    simp
  unfold splitExt
  simp only [h1]
  have h2 : (base ++ '.' :: ext).take ((base ++ '.' :: ext).length - ext.length - 1) = base := by
    have : (base ++ '.' :: ext).length - ext.length - 1 = base.length := by simp; omega
    rw [this, List.take_left]
  rw [h2, if_pos ⟨by simp, hb⟩]

/-- **C88.** A name is read as a picture or as a raw image exactly for the listed spellings of its extension. -/
theorem C88_iff (base ext : Str) (hb : ∃ c ∈ base, c ≠ '.') (he : '.' ∉ ext) :
    (imgKind (base ++ '.' :: ext) = .ok .picture ↔
      ext ∈ ["JPG".toList, "JPEG".toList, "jpg".toList, "jpeg".toList, "PNG".toList, "png".toList]) ∧
    (imgKind (base ++ '.' :: ext) = .ok .raw ↔ ext ∈ ["CR2".toList, "CR3".toList]) := by
  unfold imgKind
  rw [splitExt_dot base ext hb he]
  have h1 : '.' :: ext ∈ [".JPG".toList, ".JPEG".toList, ".jpg".toList, ".jpeg".toList, ".PNG".toList, ".png".toList] ↔
      ext ∈ ["JPG".toList, "JPEG".toList, "jpg".toList, "jpeg".toList, "PNG".toList, "png".toList] := by
    simp
  have h2 : '.' :: ext ∈ [".CR2".toList, ".CR3".toList] ↔ ext ∈ ["CR2".toList, "CR3".toList] := by simp
  rw [← h1, ← h2]
  by_cases h : '.' :: ext ∈ [".JPG".toList, ".JPEG".toList, ".jpg".toList, ".jpeg".toList, ".PNG".toList, ".png".toList]
  · rw [if_pos h]
    refine ⟨⟨fun _ => h, fun _ => rfl⟩, ⟨fun hh => (by cases hh), fun hh => ?_⟩⟩
    exfalso
    simp only [List.mem_cons, List.not_mem_nil, or_false] at hh
    rcases hh with hh | hh <;> rw [hh] at h <;> revert h <;> decide
  · rw [if_neg h]
    by_cases hr : '.' :: ext ∈ [".CR2".toList, ".CR3".toList]
    · rw [if_pos hr]
      exact ⟨⟨fun hh => (by cases hh), fun hh => absurd hh h⟩, ⟨fun _ => hr, fun _ => rfl⟩⟩
    · rw [if_neg hr]
      exact ⟨⟨fun hh => (by cases hh), fun hh => absurd hh h⟩, ⟨fun hh => (by cases hh), fun hh => absurd hh hr⟩⟩

/-- Refuted: raw images with a lower case extension, and pictures with mixed case, cannot be read. -/
theorem C88_case_false (base : Str) (hb : ∃ c ∈ base, c ≠ '.') (ext : Str)
    (he : ext ∈ ["cr2".toList, "cr3".toList, "Jpg".toList, "Png".toList]) :
    imgKind (base ++ '.' :: ext) = .error .unboundLocalError := by
  unfold imgKind
  simp only [List.mem_cons, List.not_mem_nil, or_false] at he
  rcases he with rfl | rfl | rfl | rfl <;> rw [splitExt_dot base _ hb (by decide), if_neg (by decide), if_neg (by decide)]

example : imgKind "V001_Cam01_0001.CR2".toList = .ok .raw := by decide
example : imgKind "IMG_1.2.jpg".toList = .ok .picture := by decide

/-- A pixel of the second green filter: it counts as green and is zero in the red channel. -/
example (to16 : Int16Cast) : ∃ red green, readRawChannel to16 ⟨fun _ _ => 16383, fun _ _ => 3, [512, 512, 512, 512], 16383⟩ 0 = .ok red ∧
    readRawChannel to16 ⟨fun _ _ => 16383, fun _ _ => 3, [512, 512, 512, 512], 16383⟩ 1 = .ok green ∧ red 0 0 = 0 ∧
    green 0 0 = 16382 :=
  ⟨_, _, rfl, rfl, rfl, C68_white_false to16⟩

/-- A pure red pixel: 255 · 0.2989 = 76.2195. -/
example : toGray (dotExact 255 0 0) = 76 := by decide +kernel

/-- An exception-raising map succeeds exactly with a list that fits element by element. -/
theorem mapM_ok_forall₂ {α β : Type} (f : α → Except PyErr β) : ∀ (l : List α) (r : List β),
    l.mapM f = .ok r ↔ List.Forall₂ (fun x y => f x = .ok y) l r
  | [], r => by
    rw [List.mapM_nil]
    constructor
    · intro h
      obtain rfl := Except.ok.inj h
      exact .nil
    · intro h
      cases h
      rfl
  | x :: l, r => by
    rw [List.mapM_cons]
    cases hx : f x with
    | error e =>
      constructor
      · intro h; cases h
      · intro h
        cases h with
        | cons h1 _ => rw [hx] at h1; cases h1
    | ok y =>
      have ih := mapM_ok_forall₂ f l
      cases hl : l.mapM f with
      | error e =>
        constructor
        · intro h; cases h
        · intro h
          cases h with
          | cons _ h2 => rw [(ih _).2 h2] at hl; cases hl
      | ok ys =>
        constructor
        · intro h
          obtain rfl : y :: ys = r := Except.ok.inj h
          exact .cons hx ((ih ys).1 hl)
        · intro h
          cases h with
          | cons h1 h2 =>
            rw [hx] at h1
            obtain rfl := Except.ok.inj h1
            rw [(ih _).2 h2] at hl
            obtain rfl := Except.ok.inj hl
            rfl

/-- **C69, channels.** A colour image with any number of further channels (as the transparency of a PNG photo) is converted with the first three
channels of every pixel; an image with fewer channels is an error. -/
theorem C69_channels (img : List (List (List ℚ))) (g : List (List ℚ)) :
    dotColour img = .ok g ↔
      List.Forall₂ (List.Forall₂ fun px v => ∃ r gr b more, px = r :: gr :: b :: more ∧ v = dotExact r gr b) img g := by
  have hpx : ∀ (px : List ℚ) (v : ℚ), (match px.take 3 with
      | [r, g, b] => (.ok (dotExact r g b) : Except PyErr ℚ)
      | _ => .error .valueError) = .ok v ↔ ∃ r gr b more, px = r :: gr :: b :: more ∧ v = dotExact r gr b := by
    intro px v
    match px with
    | [] => simp
    | [_] => simp
    | [_, _] => simp
    | r :: gr :: b :: more =>
      constructor
      · intro h
        exact ⟨r, gr, b, more, rfl, (Except.ok.inj h).symm⟩
      · rintro ⟨r', g', b', m', h, rfl⟩
        injection h with h1 h
        injection h with h2 h
        injection h with h3 h
        subst h1 h2 h3
        rfl
  unfold dotColour
  rw [mapM_ok_forall₂]
  constructor
  · intro h
    refine h.imp fun row vs hrow => ?_
    rw [mapM_ok_forall₂] at hrow
    exact hrow.imp fun px v h => (hpx px v).1 h
  · intro h
    refine h.imp fun row vs hrow => ?_
    rw [mapM_ok_forall₂]
    exact hrow.imp fun px v h => (hpx px v).2 h

-- transparency does not count
example : dotColour [[[1, 1, 1, 0]]] = .ok [[9999 / 10000]] := (C69_channels _ _).2 (.cons (.cons ⟨1, 1, 1, [0], rfl, by norm_num [dotExact]⟩ .nil) .nil)

/-- **C69, images without colours.** The result has one number per row, from its first three columns. -/
theorem C69_plain_columns (img : List (List ℚ)) (l : List ℚ) :
    dotPlain img = .ok l ↔ List.Forall₂ (fun row v => ∃ x y z more, row = x :: y :: z :: more ∧ v = dotExact x y z) img l := by
  have hpx : ∀ (px : List ℚ) (v : ℚ), (match px.take 3 with
      | [r, g, b] => (.ok (dotExact r g b) : Except PyErr ℚ)
      | _ => .error .valueError) = .ok v ↔ ∃ r gr b more, px = r :: gr :: b :: more ∧ v = dotExact r gr b := by
    intro px v
    match px with
    | [] => simp
    | [_] => simp
    | [_, _] => simp
    | r :: gr :: b :: more =>
      constructor
      · intro h
        exact ⟨r, gr, b, more, rfl, (Except.ok.inj h).symm⟩
      · rintro ⟨r', g', b', m', h, rfl⟩
        injection h with h1 h
        injection h with h2 h
        injection h with h3 h
        subst h1 h2 h3
        rfl
  unfold dotPlain
  rw [mapM_ok_forall₂]
  constructor
  · intro h
    exact h.imp fun px v h => (hpx px v).1 h
  · intro h
    exact h.imp fun px v h => (hpx px v).2 h
end Ledsa
