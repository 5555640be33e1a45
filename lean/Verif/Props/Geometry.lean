import Verif.Model.Geometry
import Mathlib.MeasureTheory.Measure.Lebesgue.Basic
import Mathlib.Analysis.SpecialFunctions.Trigonometric.Arctan
import Mathlib.Tactic.LinearCombination
import Mathlib.Tactic.Positivity
import Mathlib.Tactic.FieldSimp
/-
Layers and rays: C38-C40.
-/
namespace Ledsa

open MeasureTheory

/-! ### C38 -/

theorem border_zero (lo hi : ℝ) (n : Nat) : border lo hi n 0 = lo := by simp [border]

theorem border_last (lo hi : ℝ) (n : Nat) (hn : 1 ≤ n) : border lo hi n n = hi := by
  have : (n : ℝ) ≠ 0 := by positivity
  unfold border
  field_simp
  ring

theorem border_mono (lo hi : ℝ) (n i j : Nat) (h : lo < hi) (hij : i ≤ j) : border lo hi n i ≤ border lo hi n j := by
  unfold border
  have h1 : (i : ℝ) ≤ j := by exact_mod_cast hij
  have h2 : 0 ≤ (hi - lo) / n := div_nonneg (by linarith) (by positivity)
  nlinarith

theorem layers_getElem? (lo hi : ℝ) (n i : Nat) (h : i < n) :
    (layers lo hi n)[i]? = some ⟨border lo hi n i, border lo hi n (i + 1)⟩ := by
  unfold layers
  rw [List.getElem?_map, List.getElem?_range h]
  rfl

/-- **C38.** `n` layers of the same height; the first starts at the lower bound, the last ends at the upper bound, and each
starts where the previous one ends. -/
theorem C38_equal_heights (lo hi : ℝ) (n : Nat) (hn : 1 ≤ n) :
    (layers lo hi n).length = n ∧
    ((layers lo hi n).head?.map (·.bottom)) = some lo ∧ ((layers lo hi n).getLast?.map (·.top)) = some hi ∧
    (∀ l ∈ layers lo hi n, l.top - l.bottom = (hi - lo) / n) ∧
    ∀ (i : Nat) l l', (layers lo hi n)[i]? = some l → (layers lo hi n)[i + 1]? = some l' → l.top = l'.bottom := by
  have hlen : (layers lo hi n).length = n := by simp [layers]
  refine ⟨hlen, ?_, ?_, ?_, ?_⟩
  · rw [List.head?_eq_getElem?, layers_getElem? _ _ _ _ hn, Option.map_some, border_zero]
  · rw [List.getLast?_eq_getElem?, hlen, layers_getElem? _ _ _ _ (by omega), Option.map_some]
    simp only [Option.some.injEq]
    rw [show n - 1 + 1 = n by omega]
    exact border_last lo hi n hn
  · intro l hl
    unfold layers at hl
    rw [List.mem_map] at hl
    obtain ⟨i, _, rfl⟩ := hl
    simp only [border]
    push_cast
    ring
  · intro i l l' h1 h2
    have hi1 : i + 1 < n := by
      by_contra hc
      rw [List.getElem?_eq_none (by rw [hlen]; omega)] at h2
      cases h2
    rw [layers_getElem? _ _ _ _ (by omega)] at h1
    rw [layers_getElem? _ _ _ _ hi1] at h2
    obtain rfl := Option.some.inj h1
    obtain rfl := Option.some.inj h2
    rfl

/-- **C38.** Every height from the lower bound (inclusive) to the upper bound (exclusive) lies in exactly one layer, other
heights in none. -/
theorem C38_tile (lo hi : ℝ) (n : Nat) (hn : 1 ≤ n) (h : lo < hi) (z : ℝ) :
    (lo ≤ z ∧ z < hi → ∃! i : Nat, ∃ l, (layers lo hi n)[i]? = some l ∧ l.Contains z) ∧
    (¬ (lo ≤ z ∧ z < hi) → ∀ l ∈ layers lo hi n, ¬ l.Contains z) := by
  have hn0 : (0 : ℝ) < n := by exact_mod_cast hn
  have hw : 0 < (hi - lo) / n := div_pos (by linarith) hn0
  constructor
  · rintro ⟨h1, h2⟩
    have hq : 0 ≤ (z - lo) / ((hi - lo) / n) := div_nonneg (by linarith) hw.le
    obtain ⟨k, hk⟩ : ∃ k, k = ⌊(z - lo) / ((hi - lo) / n)⌋₊ := ⟨_, rfl⟩
    have hk1 : (k : ℝ) ≤ (z - lo) / ((hi - lo) / n) := by rw [hk]; exact Nat.floor_le hq
    have hk2 : (z - lo) / ((hi - lo) / n) < k + 1 := by rw [hk]; exact Nat.lt_floor_add_one _
    rw [le_div_iff₀ hw] at hk1
    rw [div_lt_iff₀ hw] at hk2
    have hkn : k < n := by
      by_contra hc
      have : (n : ℝ) ≤ k := by exact_mod_cast Nat.le_of_not_lt hc
      have h3 : (n : ℝ) * ((hi - lo) / n) = hi - lo := by field_simp
      nlinarith
    refine ⟨k, ⟨_, layers_getElem? lo hi n k hkn, ?_, ?_⟩, ?_⟩
    · unfold border; linarith
    · unfold border; push_cast; linarith
    · rintro j ⟨l, hj, hc1, hc2⟩
      have hjn : j < n := by
        by_contra hc
        rw [List.getElem?_eq_none (by simp [layers]; omega)] at hj
        cases hj
      rw [layers_getElem? _ _ _ _ hjn] at hj
      obtain rfl := Option.some.inj hj
      simp only [border] at hc1 hc2
      push_cast at hc2
      rcases lt_trichotomy j k with hlt | he | hgt
      · have : (j : ℝ) + 1 ≤ k := by exact_mod_cast hlt
        nlinarith
      · exact he
      · have : (k : ℝ) + 1 ≤ j := by exact_mod_cast hgt
        nlinarith
  · intro hout l hl ⟨hc1, hc2⟩
    apply hout
    unfold layers at hl
    rw [List.mem_map] at hl
    obtain ⟨i, hi', rfl⟩ := hl
    rw [List.mem_range] at hi'
    simp only at hc1 hc2
    constructor
    · have := border_mono lo hi n 0 i h (by omega)
      rw [border_zero] at this
      linarith
    · have := border_mono lo hi n (i + 1) n h (by omega)
      rw [border_last lo hi n hn] at this
      linarith

/-- The lower bound lies in the first of two layers, the middle in the second. -/
example : ((layers 0 2 2)[0]?.map fun l => (l.bottom, l.top)) = some (0, 1) ∧
    ((layers 0 2 2)[1]?.map fun l => (l.bottom, l.top)) = some (1, 2) := by
  constructor <;> (rw [layers_getElem? _ _ _ _ (by norm_num)]; simp [border])

/-! ### C39 -/

/-- Specification: the part of the segment from `cam` to `led` inside the closed height interval, as a set of parameters. -/
def insideParams (cam led : P3) (bot top : ℝ) : Set ℝ :=
  {t | 0 ≤ t ∧ t ≤ 1 ∧ bot ≤ cam.2.2 + t * (led.2.2 - cam.2.2) ∧ cam.2.2 + t * (led.2.2 - cam.2.2) ≤ top}

/-- Specification: the length of that part. -/
noncomputable def lengthInside (cam led : P3) (bot top : ℝ) : ℝ :=
  (volume (insideParams cam led bot top)).toReal * euclid cam led

theorem heightInLayer_eq (cz lz bot top : ℝ) :
    heightInLayer cz lz bot top = max 0 (min (max cz lz) top - max (min cz lz) bot) := by
  unfold heightInLayer
  simp only
  generalize min (max cz lz) top - max (min cz lz) bot = h
  split
  · rw [max_eq_left (by linarith)]
  · rw [max_eq_right (by linarith)]

theorem volume_Icc_toReal (a b : ℝ) : (volume (Set.Icc a b)).toReal = max 0 (b - a) := by
  rw [Real.volume_Icc]
  rcases le_total 0 (b - a) with h | h
  · rw [ENNReal.toReal_ofReal h, max_eq_right h]
  · rw [ENNReal.ofReal_of_nonpos h, max_eq_left h]; rfl

theorem volume_inside (cam led : P3) (bot top : ℝ) (hz : cam.2.2 ≠ led.2.2) :
    (volume (insideParams cam led bot top)).toReal =
      heightInLayer cam.2.2 led.2.2 bot top / |led.2.2 - cam.2.2| := by
  rw [heightInLayer_eq]
  rcases lt_or_gt_of_ne hz with h | h
  · have hd : 0 < led.2.2 - cam.2.2 := by linarith
    have hset : insideParams cam led bot top = Set.Icc ((max cam.2.2 bot - cam.2.2) / (led.2.2 - cam.2.2))
        ((min led.2.2 top - cam.2.2) / (led.2.2 - cam.2.2)) := by
      ext t
      unfold insideParams
      rw [Set.mem_ofPred_eq, Set.mem_Icc, div_le_iff₀ hd, le_div_iff₀ hd, sub_le_iff_le_add, le_sub_iff_add_le,
        max_le_iff, le_min_iff]
      constructor
      · rintro ⟨h1, h2, h3, h4⟩
        refine ⟨⟨by nlinarith, by linarith⟩, by nlinarith, by linarith⟩
      · rintro ⟨⟨h1, h2⟩, h3, h4⟩
        refine ⟨?_, ?_, by linarith, by linarith⟩
        · by_contra hc; nlinarith
        · by_contra hc; nlinarith
    rw [hset, volume_Icc_toReal, max_eq_right h.le, min_eq_left h.le, abs_of_pos hd, ← sub_div,
      show (min led.2.2 top - cam.2.2 - (max cam.2.2 bot - cam.2.2)) = min led.2.2 top - max cam.2.2 bot by ring,
      ← max_div_div_right hd.le, zero_div]
  · have hd : 0 < cam.2.2 - led.2.2 := by linarith
    have hset : insideParams cam led bot top = Set.Icc ((cam.2.2 - min cam.2.2 top) / (cam.2.2 - led.2.2))
        ((cam.2.2 - max led.2.2 bot) / (cam.2.2 - led.2.2)) := by
      ext t
      unfold insideParams
      rw [Set.mem_ofPred_eq, Set.mem_Icc, div_le_iff₀ hd, le_div_iff₀ hd]
      constructor
      · rintro ⟨h1, h2, h3, h4⟩
        constructor
        · have : cam.2.2 - t * (cam.2.2 - led.2.2) ≤ min cam.2.2 top := le_min (by nlinarith) (by linarith)
          linarith
        · have : max led.2.2 bot ≤ cam.2.2 - t * (cam.2.2 - led.2.2) := max_le (by nlinarith) (by linarith)
          linarith
      · rintro ⟨h1, h2⟩
        have e1 := min_le_left cam.2.2 top
        have e2 := min_le_right cam.2.2 top
        have e3 := le_max_left led.2.2 bot
        have e4 := le_max_right led.2.2 bot
        refine ⟨?_, ?_, by linarith, by linarith⟩
        · by_contra hc; nlinarith
        · by_contra hc; nlinarith
    rw [hset, volume_Icc_toReal, max_eq_left h.le, min_eq_right h.le, abs_of_neg (by linarith), neg_sub, ← sub_div,
      show (cam.2.2 - max led.2.2 bot - (cam.2.2 - min cam.2.2 top)) = min cam.2.2 top - max led.2.2 bot by ring,
      ← max_div_div_right hd.le, zero_div]

theorem euclid_sq (cam led : P3) : euclid cam led ^ 2 = horizontalDist cam led ^ 2 + (led.2.2 - cam.2.2) ^ 2 := by
  unfold euclid horizontalDist
  rw [Real.sq_sqrt (by positivity), Real.sq_sqrt (by positivity)]
  ring

theorem euclid_pos (cam led : P3) (hz : cam.2.2 ≠ led.2.2) : 0 < euclid cam led := by
  have : 0 < (cam.2.2 - led.2.2) ^ 2 := by have := sub_ne_zero.2 hz; positivity
  unfold euclid
  apply Real.sqrt_pos.2
  positivity

/-- The sine of the angle. -/
theorem sin_alpha (cam led : P3) (hz : cam.2.2 ≠ led.2.2) :
    ∃ a, alpha cam led = some a ∧ a ≠ 0 ∧ Real.sin a = (led.2.2 - cam.2.2) / euclid cam led := by
  have he := euclid_pos cam led hz
  have hsq := euclid_sq cam led
  unfold alpha
  by_cases hh : horizontalDist cam led = 0
  · rw [if_pos hh]
    rw [hh] at hsq
    rcases lt_or_gt_of_ne hz with h | h
    · rw [if_pos h]
      refine ⟨_, rfl, by positivity, ?_⟩
      have : euclid cam led = led.2.2 - cam.2.2 := by
        apply (pow_left_inj₀ he.le (by linarith) two_ne_zero).1
        rw [hsq]; ring
      rw [Real.sin_pi_div_two, this, div_self (by linarith)]
    · rw [if_neg (by linarith), if_pos h]
      refine ⟨_, rfl, by have := Real.pi_pos; intro hc; linarith, ?_⟩
      have : euclid cam led = -(led.2.2 - cam.2.2) := by
        apply (pow_left_inj₀ he.le (by linarith) two_ne_zero).1
        rw [hsq]; ring
      rw [Real.sin_neg, Real.sin_pi_div_two, this, div_neg, div_self (by linarith)]
  · rw [if_neg hh]
    have hpos : 0 < horizontalDist cam led := lt_of_le_of_ne (by unfold horizontalDist; positivity) (Ne.symm hh)
    refine ⟨_, rfl, ?_, ?_⟩
    · rw [Ne, Real.arctan_eq_zero_iff, div_eq_zero_iff]
      rintro (h | h)
      · exact hz (by linarith)
      · exact hh h
    · rw [Real.sin_arctan]
      have : Real.sqrt (1 + ((led.2.2 - cam.2.2) / horizontalDist cam led) ^ 2) =
          euclid cam led / horizontalDist cam led := by
        rw [Real.sqrt_eq_iff_mul_self_eq (by positivity) (by positivity)]
        rw [← sq, div_pow, div_pow, hsq]
        field_simp
      rw [this]
      field_simp

/-- Distance of a layer in terms of the traversed height. -/
theorem dist_eq_lengthInside (cam led : P3) (hz : cam.2.2 ≠ led.2.2) (a : ℝ)
    (hs : Real.sin a = (led.2.2 - cam.2.2) / euclid cam led) (bot top : ℝ) :
    |heightInLayer cam.2.2 led.2.2 bot top / Real.sin a| = lengthInside cam led bot top := by
  have he := euclid_pos cam led hz
  have hh : 0 ≤ heightInLayer cam.2.2 led.2.2 bot top := by rw [heightInLayer_eq]; exact le_max_left _ _
  unfold lengthInside
  rw [volume_inside cam led bot top hz, hs, abs_div, abs_div, abs_of_nonneg hh, abs_of_pos he]
  have : |led.2.2 - cam.2.2| ≠ 0 := abs_ne_zero.2 (sub_ne_zero.2 (Ne.symm hz))
  field_simp

/-- **C39.** For an LED above or below the camera (also vertically above it), whenever distances are returned, the distance
of every layer is the length of the part of the camera-LED segment that runs in the layer. -/
theorem C39_length_in_layer (cam led : P3) (hz : cam.2.2 ≠ led.2.2) (ls : List Layer) (ds : List ℝ)
    (h : distPerLayer cam led ls = .dists ds) : ds = ls.map fun l => lengthInside cam led l.bottom l.top := by
  obtain ⟨a, ha, ha0, hs⟩ := sin_alpha cam led hz
  unfold distPerLayer at h
  rw [ha] at h
  simp only [if_neg ha0] at h
  unfold checked at h
  split at h
  · cases h
  · obtain rfl := LayerDists.dists.inj h
    unfold distNonzeroAlpha
    exact List.map_congr_left fun l _ => dist_eq_lengthInside cam led hz a hs _ _

/-! ### C40 -/

/-- The borders of layers partition the traversed height. -/
theorem heightInLayer_clamp (cz lz a b : ℝ) (hab : a ≤ b) :
    heightInLayer cz lz a b = max (min cz lz) (min (max cz lz) b) - max (min cz lz) (min (max cz lz) a) := by
  rw [heightInLayer_eq]
  have hle : min cz lz ≤ max cz lz := (min_le_left _ _).trans (le_max_left _ _)
  generalize min cz lz = m at *
  generalize max cz lz = M at *
  rcases le_total a m with h1 | h1 <;> rcases le_total b m with h2 | h2 <;> rcases le_total a M with h3 | h3 <;>
    rcases le_total b M with h4 | h4 <;>
    simp only [max_def, min_def] <;> split_ifs <;> linarith

theorem sum_heights (cz lz lo hi : ℝ) (n k : Nat) (h : lo < hi) :
    ((List.range k).map fun i => heightInLayer cz lz (border lo hi n i) (border lo hi n (i + 1))).sum =
      max (min cz lz) (min (max cz lz) (border lo hi n k)) - max (min cz lz) (min (max cz lz) lo) := by
  induction k with
  | zero => simp [border_zero]
  | succ k ih =>
    rw [List.range_succ, List.map_append, List.sum_append, ih, List.map_singleton, List.sum_singleton,
      heightInLayer_clamp _ _ _ _ (border_mono lo hi n k (k + 1) h (by omega))]
    ring

/-- The lengths in the layers add up to the length inside the whole domain. -/
theorem sum_lengthInside (cam led : P3) (hz : cam.2.2 ≠ led.2.2) (lo hi : ℝ) (n : Nat) (hn : 1 ≤ n) (h : lo < hi) :
    ((layers lo hi n).map fun l => lengthInside cam led l.bottom l.top).sum = lengthInside cam led lo hi := by
  have hf : ∀ b t, lengthInside cam led b t =
      heightInLayer cam.2.2 led.2.2 b t * (euclid cam led / |led.2.2 - cam.2.2|) := by
    intro b t
    unfold lengthInside
    rw [volume_inside cam led b t hz]
    ring
  simp only [hf]
  rw [layers, List.map_map]
  have : ((fun l : Layer => heightInLayer cam.2.2 led.2.2 l.bottom l.top * (euclid cam led / |led.2.2 - cam.2.2|)) ∘
      fun i : Nat => (⟨border lo hi n i, border lo hi n (i + 1)⟩ : Layer)) =
      fun i => heightInLayer cam.2.2 led.2.2 (border lo hi n i) (border lo hi n (i + 1)) *
        (euclid cam led / |led.2.2 - cam.2.2|) := rfl
  rw [this, List.sum_map_mul_right, sum_heights _ _ _ _ _ _ h, border_last lo hi n hn,
    heightInLayer_clamp _ _ _ _ h.le]

theorem lengthInside_nonneg (cam led : P3) (b t : ℝ) : 0 ≤ lengthInside cam led b t :=
  mul_nonneg ENNReal.toReal_nonneg (Real.sqrt_nonneg _)

/-- **C40, decision.** For an LED at another height than the camera, no distances are returned exactly if the part of the ray
outside the layer domain is longer than 1e-6; otherwise they are non-negative and add up to the part inside. -/
theorem C40_missing_iff (cam led : P3) (hz : cam.2.2 ≠ led.2.2) (lo hi : ℝ) (n : Nat) (hn : 1 ≤ n) (h : lo < hi) :
    (distPerLayer cam led (layers lo hi n) = .missing ↔ 1 / 10 ^ 6 < euclid cam led - lengthInside cam led lo hi) ∧
    ((∃ ds, distPerLayer cam led (layers lo hi n) = .dists ds ∧ (∀ d ∈ ds, 0 ≤ d) ∧
        ds.sum = lengthInside cam led lo hi) ↔ ¬ 1 / 10 ^ 6 < euclid cam led - lengthInside cam led lo hi) := by
  obtain ⟨a, ha, ha0, hs⟩ := sin_alpha cam led hz
  have hd : distNonzeroAlpha a cam led (layers lo hi n) =
      (layers lo hi n).map fun l => lengthInside cam led l.bottom l.top := by
    unfold distNonzeroAlpha
    exact List.map_congr_left fun l _ => dist_eq_lengthInside cam led hz a hs _ _
  have hle : lengthInside cam led lo hi ≤ euclid cam led := by
    have hv : (volume (insideParams cam led lo hi)).toReal ≤ 1 := by
      have : volume (insideParams cam led lo hi) ≤ volume (Set.Icc (0 : ℝ) 1) := by
        apply measure_mono
        intro t ht
        exact ⟨ht.1, ht.2.1⟩
      have h1 : (volume (Set.Icc (0 : ℝ) 1)) = 1 := by simp
      rw [h1] at this
      exact ENNReal.toReal_mono (by simp) this |>.trans (by simp)
    unfold lengthInside
    have := (euclid_pos cam led hz).le
    nlinarith
  have habs : |lengthInside cam led lo hi - euclid cam led| = euclid cam led - lengthInside cam led lo hi := by
    rw [abs_of_nonpos (by linarith)]; ring
  have hval : distPerLayer cam led (layers lo hi n) =
      if 1 / 10 ^ 6 < euclid cam led - lengthInside cam led lo hi then .missing
      else .dists ((layers lo hi n).map fun l => lengthInside cam led l.bottom l.top) := by
    unfold distPerLayer
    rw [ha]
    simp only [if_neg ha0]
    unfold checked
    rw [hd, sum_lengthInside cam led hz lo hi n hn h, habs]
  rw [hval]
  constructor
  · constructor
    · intro he
      by_contra hc
      rw [if_neg hc] at he
      cases he
    · intro hc; rw [if_pos hc]
  · constructor
    · rintro ⟨ds, he, _⟩ hc
      rw [if_pos hc] at he
      cases he
    · intro hc
      rw [if_neg hc]
      refine ⟨_, rfl, ?_, sum_lengthInside cam led hz lo hi n hn h⟩
      intro d hd'
      rw [List.mem_map] at hd'
      obtain ⟨l, _, rfl⟩ := hd'
      exact lengthInside_nonneg _ _ _ _

/-- A ray between two heights of the domain runs inside it. -/
theorem lengthInside_full (cam led : P3) (lo hi : ℝ) (hc : lo ≤ cam.2.2 ∧ cam.2.2 ≤ hi)
    (hl : lo ≤ led.2.2 ∧ led.2.2 ≤ hi) : lengthInside cam led lo hi = euclid cam led := by
  have : insideParams cam led lo hi = Set.Icc 0 1 := by
    ext t
    unfold insideParams
    rw [Set.mem_ofPred_eq, Set.mem_Icc]
    constructor
    · rintro ⟨h1, h2, _⟩; exact ⟨h1, h2⟩
    · rintro ⟨h1, h2⟩
      refine ⟨h1, h2, ?_, ?_⟩ <;> nlinarith [hc.1, hc.2, hl.1, hl.2]
  unfold lengthInside
  rw [this, volume_Icc_toReal]
  norm_num

theorem sum_indicator (k n : Nat) (c : ℝ) :
    ((List.range n).map fun a => if a = k then c else 0).sum = if k < n then c else 0 := by
  induction n with
  | zero => simp
  | succ n ih =>
    rw [List.range_succ, List.map_append, List.sum_append, ih, List.map_singleton, List.sum_singleton]
    rcases lt_trichotomy k n with h | h | h
    · rw [if_pos h, if_neg (by omega), if_pos (by omega), add_zero]
    · subst h; rw [if_neg (by omega), if_pos rfl, if_pos (by omega), zero_add]
    · rw [if_neg (by omega), if_neg (by omega), if_neg (by omega), add_zero]

/-- Sum of the distances of a horizontal ray. -/
theorem sum_in_plane (cam led : P3) (lo hi : ℝ) (n : Nat) (hn : 1 ≤ n) (h : lo < hi) (hin : lo ≤ cam.2.2 ∧ cam.2.2 < hi) :
    (distInPlane cam led (layers lo hi n)).sum = horizontalDist cam led := by
  obtain ⟨k, ⟨l, hk, hc⟩, huniq⟩ := (C38_tile lo hi n hn h cam.2.2).1 hin
  have hkn : k < n := by
    by_contra hcon
    rw [List.getElem?_eq_none (by simp [layers]; omega)] at hk
    cases hk
  unfold distInPlane
  rw [layers, List.map_map]
  have hfun : ∀ i ∈ List.range n, ((fun l : Layer => if l.bottom ≤ cam.2.2 ∧ cam.2.2 < l.top then
      horizontalDist cam led else 0) ∘ fun i : Nat => (⟨border lo hi n i, border lo hi n (i + 1)⟩ : Layer)) i =
      if i = k then horizontalDist cam led else 0 := by
    intro i hi'
    rw [List.mem_range] at hi'
    simp only [Function.comp]
    by_cases hik : i = k
    · subst hik
      rw [layers_getElem? _ _ _ _ hi'] at hk
      obtain rfl := Option.some.inj hk
      rw [if_pos rfl]
      exact if_pos hc
    · rw [if_neg hik, if_neg]
      intro hcon
      exact hik (huniq i ⟨_, layers_getElem? lo hi n i hi', hcon⟩)
  rw [List.map_congr_left hfun]
  rw [sum_indicator, if_pos hkn]

theorem euclid_horizontal (cam led : P3) (hz : cam.2.2 = led.2.2) : euclid cam led = horizontalDist cam led := by
  unfold euclid horizontalDist
  rw [hz]
  congr 1
  ring

theorem alpha_horizontal (cam led : P3) (hz : cam.2.2 = led.2.2) (hne : cam ≠ led) : alpha cam led = some 0 := by
  have hh : horizontalDist cam led ≠ 0 := by
    intro h0
    unfold horizontalDist at h0
    rw [Real.sqrt_eq_zero (by positivity)] at h0
    have h1 : cam.1 - led.1 = 0 := by nlinarith [sq_nonneg (cam.1 - led.1), sq_nonneg (cam.2.1 - led.2.1)]
    have h2 : cam.2.1 - led.2.1 = 0 := by nlinarith [sq_nonneg (cam.1 - led.1), sq_nonneg (cam.2.1 - led.2.1)]
    apply hne
    ext
    · linarith
    · linarith
    · exact hz
  unfold alpha
  rw [if_neg hh, hz, sub_self, zero_div, Real.arctan_zero]

/-- **C40, horizontal rays.** The distances are non-negative and add up to the length of the ray if the height lies in
`[lower, upper)`; otherwise (also exactly at the upper bound) every distance is 0, and none are returned if the ray is
longer than 1e-6. -/
theorem C40_horizontal (cam led : P3) (hz : cam.2.2 = led.2.2) (hne : cam ≠ led) (lo hi : ℝ) (n : Nat) (hn : 1 ≤ n)
    (h : lo < hi) :
    (lo ≤ cam.2.2 ∧ cam.2.2 < hi → ∃ ds, distPerLayer cam led (layers lo hi n) = .dists ds ∧ (∀ d ∈ ds, 0 ≤ d) ∧
      ds.sum = euclid cam led) ∧
    (¬ (lo ≤ cam.2.2 ∧ cam.2.2 < hi) → 1 / 10 ^ 6 < euclid cam led →
      distPerLayer cam led (layers lo hi n) = .missing) := by
  have hnn : ∀ d ∈ distInPlane cam led (layers lo hi n), 0 ≤ d := by
    intro d hd
    unfold distInPlane at hd
    rw [List.mem_map] at hd
    obtain ⟨l, _, rfl⟩ := hd
    split
    · exact Real.sqrt_nonneg _
    · exact le_refl _
  have hval : distPerLayer cam led (layers lo hi n) = checked cam led (distInPlane cam led (layers lo hi n)) := by
    unfold distPerLayer
    rw [alpha_horizontal cam led hz hne]
    simp
  constructor
  · intro hin
    have hs := sum_in_plane cam led lo hi n hn h hin
    refine ⟨_, ?_, hnn, hs.trans (euclid_horizontal cam led hz).symm⟩
    rw [hval]
    unfold checked
    rw [hs, euclid_horizontal cam led hz, sub_self, abs_zero, if_neg]
    norm_num
  · intro hout hlong
    have hs : distInPlane cam led (layers lo hi n) = (layers lo hi n).map fun _ => 0 := by
      unfold distInPlane
      apply List.map_congr_left
      intro l hl
      exact if_neg ((C38_tile lo hi n hn h cam.2.2).2 hout l hl)
    rw [hval]
    unfold checked
    rw [hs]
    have : ((layers lo hi n).map fun _ => (0 : ℝ)).sum = 0 := by simp
    rw [this, zero_sub, abs_neg, abs_of_pos (lt_trans (by norm_num) hlong), if_pos hlong]

/-- **C40, partial**: camera and LED inside the layer domain, at different places, not both exactly at its upper bound:
distances are returned, are non-negative and add up to the distance of camera and LED. -/
theorem C40_sum_partial (cam led : P3) (lo hi : ℝ) (n : Nat) (hn : 1 ≤ n) (h : lo < hi) (hne : cam ≠ led)
    (hc : lo ≤ cam.2.2 ∧ cam.2.2 ≤ hi) (hl : lo ≤ led.2.2 ∧ led.2.2 ≤ hi) (htop : ¬ (cam.2.2 = hi ∧ led.2.2 = hi)) :
    ∃ ds, distPerLayer cam led (layers lo hi n) = .dists ds ∧ (∀ d ∈ ds, 0 ≤ d) ∧ ds.sum = euclid cam led := by
  by_cases hz : cam.2.2 = led.2.2
  · apply (C40_horizontal cam led hz hne lo hi n hn h).1
    refine ⟨hc.1, lt_of_le_of_ne hc.2 ?_⟩
    intro he
    exact htop ⟨he, hz ▸ he⟩
  · have := (C40_missing_iff cam led hz lo hi n hn h).2
    rw [lengthInside_full cam led lo hi hc hl] at this
    apply this.2
    norm_num

/-- **C40**: outside, no distances: a ray whose part outside the domain is longer than 1e-6 gives none (LED above the
domain, camera inside). -/
theorem C40_led_outside (cam led : P3) (lo hi : ℝ) (n : Nat) (hn : 1 ≤ n) (h : lo < hi)
    (hc : lo ≤ cam.2.2 ∧ cam.2.2 ≤ hi) (hl : hi < led.2.2)
    (hlong : 1 / 10 ^ 6 < euclid cam led * ((led.2.2 - hi) / (led.2.2 - cam.2.2))) :
    distPerLayer cam led (layers lo hi n) = .missing := by
  have hz : cam.2.2 ≠ led.2.2 := by intro he; linarith
  rw [(C40_missing_iff cam led hz lo hi n hn h).1]
  unfold lengthInside
  have hd : 0 < led.2.2 - cam.2.2 := by linarith
  rw [volume_inside cam led lo hi hz, heightInLayer_eq, max_eq_right (show cam.2.2 ≤ led.2.2 by linarith),
    min_eq_left (show cam.2.2 ≤ led.2.2 by linarith), min_eq_right hl.le, max_eq_left hc.1,
    max_eq_right (by linarith), abs_of_pos hd]
  have : euclid cam led - (hi - cam.2.2) / (led.2.2 - cam.2.2) * euclid cam led =
      euclid cam led * ((led.2.2 - hi) / (led.2.2 - cam.2.2)) := by
    field_simp
    ring
  rw [this]
  exact hlong

/-- The literal claim C40 for camera and LED inside the domain. -/
def SumsUp : Prop :=
  ∀ (cam led : P3) (lo hi : ℝ) (n : Nat), 1 ≤ n → lo < hi → lo ≤ cam.2.2 → cam.2.2 ≤ hi → lo ≤ led.2.2 → led.2.2 ≤ hi →
    ∃ ds, distPerLayer cam led (layers lo hi n) = .dists ds ∧ (∀ d ∈ ds, 0 ≤ d) ∧ ds.sum = euclid cam led

/-- **C40 refuted at the upper bound**: camera and LED both at the ceiling height. -/
theorem C40_top_border_false : ¬ SumsUp := by
  intro hs
  obtain ⟨ds, hd, _⟩ := hs (0, 0, 1) (1, 0, 1) 0 1 1 le_rfl one_pos zero_le_one le_rfl zero_le_one le_rfl
  have := (C40_horizontal (0, 0, 1) (1, 0, 1) rfl (by simp) 0 1 1 le_rfl one_pos).2 (by simp) (by
    unfold euclid; norm_num)
  rw [this] at hd
  cases hd

/-- **C40 refuted for an LED at the camera**: the distances are all `nan`, and this passes the check. -/
theorem C40_same_position_nan (cam : P3) (ls : List Layer) : distPerLayer cam cam ls = .nans := by
  have h0 : horizontalDist cam cam = 0 := by simp [horizontalDist]
  unfold distPerLayer alpha
  rw [if_pos h0, if_neg (lt_irrefl _), if_neg (lt_irrefl _)]

/-- A ray rising by 2 over 2 layers of height 1, 3-4-5-like: half of its length in each layer. -/
example : lengthInside (0, 0, 0) (0, 0, 2) 0 1 = 1 := by
  unfold lengthInside
  rw [volume_inside _ _ _ _ (by norm_num), heightInLayer_eq]
  have : euclid (0, 0, 0) (0, 0, 2) = 2 := by
    unfold euclid
    rw [show ((0 : ℝ) - 0) ^ 2 + (0 - 0) ^ 2 + (0 - 2) ^ 2 = 2 ^ 2 by norm_num]
    exact Real.sqrt_sq (by norm_num)
  rw [this]
  norm_num

end Ledsa
