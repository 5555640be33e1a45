import Verif.Model.ExposureChecker
import Verif.Props.Images
import Verif.Props.RenameFiles
/-!
# The exposure checker (C162) and the Widman relation (C163)
-/

namespace Ledsa

/-! ### C162 -/

theorem foldl_max_spec (l : List ℤ) : ∀ v : ℤ, (l.foldl max v = v ∨ l.foldl max v ∈ l) ∧ v ≤ l.foldl max v ∧ ∀ x ∈ l, x ≤ l.foldl max v := by
  induction l with
  | nil => intro v; simp
  | cons a l ih =>
    intro v
    obtain ⟨h1, h2, h3⟩ := ih (max v a)
    simp only [List.foldl_cons]
    refine ⟨?_, (le_max_left _ _).trans h2, ?_⟩
    · rcases h1 with h1 | h1
      · rcases max_choice v a with e | e
        · left; rw [h1, e]
        · right; rw [h1, e]; simp
      · right; simp [h1]
    · intro x hx
      rcases List.mem_cons.mp hx with e | e
      · rw [e]; exact (le_max_right _ _).trans h2
      · exact h3 x e

theorem pixelMax_spec {l : List ℤ} (h : l ≠ []) : ∃ m, pixelMax l = .ok m ∧ m ∈ l ∧ ∀ x ∈ l, x ≤ m := by
  cases l with
  | nil => exact absurd rfl h
  | cons v vs =>
    obtain ⟨h1, h2, h3⟩ := foldl_max_spec vs v
    refine ⟨vs.foldl max v, rfl, ?_, ?_⟩
    · rcases h1 with h1 | h1
      · rw [h1]; simp
      · simp [h1]
    · intro x hx
      rcases List.mem_cons.mp hx with e | e
      · rw [e]; exact h2
      · exact h3 x e

theorem mem_pixelList {h w : ℕ} {px : ℕ → ℕ → ℤ} {x : ℤ} : x ∈ pixelList h w px ↔ ∃ i < h, ∃ j < w, px i j = x := by
  simp [pixelList, List.mem_flatMap]

theorem pixelList_ne_nil {h w : ℕ} (hh : 0 < h) (hw : 0 < w) (px : ℕ → ℕ → ℤ) : pixelList h w px ≠ [] :=
  List.ne_nil_of_mem (mem_pixelList.mpr ⟨0, hh, 0, hw, rfl⟩)

/-- **C162.** The limit is chosen by the text after the last dot of the name, however many dots there are. -/
theorem C162_limit (b : Str) {e : Str} (he : '.' ∉ e) :
    (saturationLimit (b ++ '.' :: e) = some 255 ↔ e ∈ ["JPG".toList, "JPEG".toList, "jpg".toList, "jpeg".toList]) ∧
      (saturationLimit (b ++ '.' :: e) = some 16383 ↔ e ∈ ["CR2".toList, "CR3".toList]) := by
  have h1 : (splitChar '.' (b ++ '.' :: e)).getLast? = some e := by
    have h2 := extOf_last b he
    unfold extOf at h2
    rw [List.getLastD_eq_getLast?] at h2
    cases h3 : (splitChar '.' (b ++ '.' :: e)).getLast? with
    | none =>
      rw [List.getLast?_eq_none_iff, splitChar_sep] at h3
      have := (List.append_eq_nil_iff.1 h3).1
      cases b with
      | nil => cases this
      | cons c b =>
        unfold splitChar at this
        split at this <;> [cases this; (split at this <;> cases this)]
    | some f => rw [h3] at h2; exact congrArg some h2
  unfold saturationLimit
  rw [h1]
  simp only
  by_cases hj : e ∈ ["JPG".toList, "JPEG".toList, "jpg".toList, "jpeg".toList]
  · rw [if_pos hj]
    refine ⟨⟨fun _ => hj, fun _ => rfl⟩, ⟨fun h => absurd h (by decide), fun h => ?_⟩⟩
    simp only [List.mem_cons, List.not_mem_nil, or_false] at hj h
    rcases h with rfl | rfl <;> revert hj <;> decide
  · rw [if_neg hj]
    by_cases hc : e ∈ ["CR2".toList, "CR3".toList]
    · rw [if_pos hc]
      exact ⟨⟨fun h => absurd h (by decide), fun h => absurd h hj⟩, ⟨fun _ => hc, fun _ => rfl⟩⟩
    · rw [if_neg hc]
      exact ⟨⟨fun h => (by cases h), fun h => absurd h hj⟩, ⟨fun h => (by cases h), fun h => absurd h hc⟩⟩

example : saturationLimit "V001.fire_{}.CR2".toList = some 16383 := by decide +kernel

/-- **C162, JPG.** For photos with 8 bit values the checker shows the maximum, a percentage from 0 to 100, and 100 exactly if
a pixel of the channel is saturated. -/
theorem C162_jpg (template : Str) (ht : saturationLimit template = some 255) (h w : ℕ) (hh : 0 < h) (hw : 0 < w) (px : ℕ → ℕ → ℤ)
    (hpx : ∀ i j, 0 ≤ px i j ∧ px i j ≤ 255) :
    ∃ m q, channelExposure (saturationLimit template) (pixelList h w px) = .ok (m, q) ∧ (∃ i < h, ∃ j < w, px i j = m) ∧
      (∀ i < h, ∀ j < w, px i j ≤ m) ∧ 0 ≤ q ∧ q ≤ 100 ∧ (q = 100 ↔ ∃ i < h, ∃ j < w, px i j = 255) := by
  obtain ⟨m, h1, h2, h3⟩ := pixelMax_spec (pixelList_ne_nil hh hw px)
  have h2' := h2
  obtain ⟨i, hi, j, hj, e⟩ := mem_pixelList.mp h2'
  have m0 : (0 : ℚ) ≤ m := by rw [← e]; exact_mod_cast (hpx i j).1
  have m1 : (m : ℚ) ≤ 255 := by rw [← e]; exact_mod_cast (hpx i j).2
  refine ⟨m, (m : ℚ) / (255 : ℕ) * 100, by simp only [channelExposure, h1, ht], ⟨i, hi, j, hj, e⟩,
    fun i' hi' j' hj' => h3 _ (mem_pixelList.mpr ⟨i', hi', j', hj', rfl⟩), by positivity, ?_, ?_⟩
  · push_cast; linarith [show (m : ℚ) / 255 ≤ 1 by rw [div_le_one (by norm_num)]; exact m1]
  · constructor
    · intro hq
      push_cast at hq
      have : (m : ℚ) = 255 := by
        have : (m : ℚ) / 255 = 1 := by linarith
        rwa [div_eq_one_iff_eq (by norm_num)] at this
      exact ⟨i, hi, j, hj, by rw [e]; exact_mod_cast this⟩
    · rintro ⟨i', hi', j', hj', e'⟩
      have h4 := h3 _ (mem_pixelList.mpr ⟨i', hi', j', hj', e'⟩)
      have : (m : ℚ) = 255 := le_antisymm m1 (by exact_mod_cast h4)
      rw [this]; norm_num

/-- The values of a channel of a raw image are between 0 and the white level. -/
theorem readRawChannel_range {to16 : Int16Cast} {raw : RawImage} {c : ℕ} {px : ℕ → ℕ → ℤ} (h : readRawChannel to16 raw c = .ok px)
    (hw : 0 ≤ raw.white) (i j : ℕ) : 0 ≤ px i j ∧ px i j ≤ raw.white := by
  unfold readRawChannel readRaw at h
  cases hb : raw.black[c]? with
  | none => rw [hb] at h; simp at h
  | some b =>
    rw [hb] at h
    simp only at h
    split at h
    · obtain rfl := Except.ok.inj h
      simp only
      split
      · exact C68_range to16 b raw.white _ hw
      · exact ⟨le_rfl, hw⟩
    · split at h
      · obtain rfl := Except.ok.inj h
        simp only
        split
        · exact C68_range to16 b raw.white _ hw
        · exact ⟨le_rfl, hw⟩
      · cases h

/-- **C162, raw images.** The checker never shows more than the white level of the camera in percent of 16383. -/
theorem C162_raw_bound (to16 : Int16Cast) (template : Str) (ht : saturationLimit template = some 16383) (raw : RawImage) (c : ℕ)
    (hwhite : 0 ≤ raw.white) (px : ℕ → ℕ → ℤ) (hr : readRawChannel to16 raw c = .ok px) (h w : ℕ) (m : ℤ) (q : ℚ)
    (hq : channelExposure (saturationLimit template) (pixelList h w px) = .ok (m, q)) :
    0 ≤ q ∧ q ≤ (raw.white : ℚ) / 16383 * 100 := by
  have hne : pixelList h w px ≠ [] := by
    intro e; rw [e] at hq; simp [channelExposure, pixelMax] at hq
  obtain ⟨m', h1, h2, h3⟩ := pixelMax_spec hne
  simp only [channelExposure, h1, ht, Except.ok.injEq, Prod.mk.injEq] at hq
  obtain ⟨rfl, rfl⟩ := hq
  obtain ⟨i, hi, j, hj, e⟩ := mem_pixelList.mp h2
  obtain ⟨a, b⟩ := readRawChannel_range hr hwhite i j
  rw [e] at a b
  have a' : (0 : ℚ) ≤ m' := by exact_mod_cast a
  have b' : (m' : ℚ) ≤ raw.white := by exact_mod_cast b
  refine ⟨by positivity, ?_⟩
  push_cast
  have : (m' : ℚ) / 16383 ≤ raw.white / 16383 := div_le_div_of_nonneg_right b' (by norm_num)
  linarith

/-- **C162 refuted for raw images.** With a camera whose white level is below 16383 the checker never shows 100 %, however
overexposed the photo. -/
theorem C162_raw_false (to16 : Int16Cast) (template : Str) (ht : saturationLimit template = some 16383) (raw : RawImage) (c : ℕ)
    (hwhite : 0 ≤ raw.white) (hlow : raw.white < 16383) (px : ℕ → ℕ → ℤ) (hr : readRawChannel to16 raw c = .ok px) (h w : ℕ) (m : ℤ)
    (q : ℚ) (hq : channelExposure (saturationLimit template) (pixelList h w px) = .ok (m, q)) : q < 100 := by
  have hb := (C162_raw_bound to16 template ht raw c hwhite px hr h w m q hq).2
  have : (raw.white : ℚ) / 16383 < 1 := by
    rw [div_lt_one (by norm_num)]; exact_mod_cast hlow
  linarith

/-- **C162 refuted for raw images with the full white level.** Black level 512, white level 16383: the largest value is
scaled to 16382, no 14 bit photo is ever shown with 100 %. -/
theorem C162_raw_full_false (to16 : Int16Cast) (template : Str) (ht : saturationLimit template = some 16383) (data : ℕ → ℕ → ℤ)
    (hd : ∀ i j, 0 ≤ data i j ∧ data i j ≤ 16383) (h w : ℕ) (px : ℕ → ℕ → ℤ)
    (hr : readRawChannel to16 ⟨data, fun _ _ => 0, [512, 512, 512, 512], 16383⟩ 0 = .ok px) (m : ℤ) (q : ℚ)
    (hq : channelExposure (saturationLimit template) (pixelList h w px) = .ok (m, q)) : q < 100 := by
  have hne : pixelList h w px ≠ [] := by
    intro e; rw [e] at hq; simp [channelExposure, pixelMax] at hq
  obtain ⟨m', h1, h2, h3⟩ := pixelMax_spec hne
  simp only [channelExposure, h1, ht, Except.ok.injEq, Prod.mk.injEq] at hq
  obtain ⟨rfl, rfl⟩ := hq
  obtain ⟨i, hi, j, hj, e⟩ := mem_pixelList.mp h2
  have hpx : px i j = scalePixel to16 512 16383 (data i j) := by
    unfold readRawChannel readRaw at hr
    simp at hr
    rw [← hr]
  have : px i j ≤ 16382 := by
    rw [hpx, ← C68_white_false to16]
    exact C68_monotone_14bit to16 512 16383 (data i j) 16383 (by norm_num) (by norm_num) (by norm_num) (by norm_num) (hd i j).1 (hd i j).2
      le_rfl
  rw [e] at this
  have : (m' : ℚ) ≤ 16382 := by exact_mod_cast this
  push_cast
  have : (m' : ℚ) / 16383 ≤ 16382 / 16383 := div_le_div_of_nonneg_right this (by norm_num)
  have : (16382 : ℚ) / 16383 < 1 := by norm_num
  linarith

/-- **C162, raw images, what is right.** For 14 bit cameras whose black level is at most half the white level: if a pixel of
the channel reaches the white level, then the checker shows the white level in percent of 16383, up to one step of the
values. -/
theorem C162_raw_partial (to16 : Int16Cast) (template : Str) (ht : saturationLimit template = some 16383) (raw : RawImage) (b : ℤ)
    (hb : raw.black[0]? = some b) (hb0 : 0 ≤ b) (hbw : 2 * b ≤ raw.white) (hw0 : 0 < raw.white) (hw : raw.white ≤ 16383)
    (h w i j : ℕ) (hi : i < h) (hj : j < w) (hcol : raw.colors i j = 0) (hsat : raw.white ≤ raw.data i j) (hd : raw.data i j ≤ 16383) :
    ∃ px m q, readRawChannel to16 raw 0 = .ok px ∧
      channelExposure (saturationLimit template) (pixelList h w px) = .ok (m, q) ∧
      ((raw.white : ℚ) - 1) / 16383 * 100 ≤ q ∧ q ≤ (raw.white : ℚ) / 16383 * 100 := by
  have hr : readRawChannel to16 raw 0 = .ok fun i j => if raw.colors i j = 0 then scalePixel to16 b raw.white (raw.data i j) else 0 := by
    simp [readRawChannel, readRaw, hb]
  generalize hpx : (fun i j => if raw.colors i j = 0 then scalePixel to16 b raw.white (raw.data i j) else 0) = px at hr
  obtain ⟨m, h1, h2, h3⟩ := pixelMax_spec (pixelList_ne_nil (by omega : 0 < h) (by omega : 0 < w) px)
  have hq : channelExposure (saturationLimit template) (pixelList h w px) = .ok (m, (m : ℚ) / (16383 : ℕ) * 100) := by
    simp only [channelExposure, h1, ht]
  refine ⟨px, m, _, hr, hq, ?_, (C162_raw_bound to16 template ht raw 0 hw0.le px hr h w _ _ hq).2⟩
  have h4 := h3 _ (mem_pixelList.mpr ⟨i, hi, j, hj, rfl⟩)
  rw [← hpx] at h4
  simp only [hcol, if_true] at h4
  have h5 := C68_monotone_14bit to16 b raw.white raw.white (raw.data i j) hb0 hbw hw0 hw hw0.le hsat hd
  have h6 : raw.white - 1 ≤ m := by
    rcases C68_white_partial to16 b raw.white hb0 (by omega) (by omega) with e | e <;> omega
  have h7 : (raw.white : ℚ) - 1 ≤ m := by exact_mod_cast h6
  push_cast
  have : ((raw.white : ℚ) - 1) / 16383 ≤ m / 16383 := div_le_div_of_nonneg_right h7 (by norm_num)
  linarith

/-- **C162, file names.** Which name templates the checker knows: PNG photos, and raw photos with an extension in small
letters, end it with an error as soon as there is a photo. -/
theorem C162_names (t : NameTemplate) (template : Str) (present : Str → Bool) (read : Str → ℕ → Except PyErr (List ℤ))
    (hread : ∀ name c, ∃ v vs, read name c = .ok (v :: vs)) (ids : List ℤ) :
    (∃ report, checkExposure t template present read ids = .ok report ∧ report.map (·.1) = (ids.map t.format).filter present) ∨
      (saturationLimit template = none ∧ (∃ i ∈ ids, present (t.format i)) ∧
        checkExposure t template present read ids = .error .nameError) := by
  cases hs : saturationLimit template with
  | some s =>
    left
    induction ids with
    | nil => exact ⟨[], rfl, rfl⟩
    | cons i ids ih =>
      obtain ⟨rest, h1, h2⟩ := ih
      by_cases hp : present (t.format i)
      · obtain ⟨v0, l0, e0⟩ := hread (t.format i) 0
        obtain ⟨v1, l1, e1⟩ := hread (t.format i) 1
        obtain ⟨v2, l2, e2⟩ := hread (t.format i) 2
        refine ⟨(t.format i, [(l0.foldl max v0, ((l0.foldl max v0 : ℤ) : ℚ) / s * 100), (l1.foldl max v1, ((l1.foldl max v1 : ℤ) : ℚ) / s * 100),
          (l2.foldl max v2, ((l2.foldl max v2 : ℤ) : ℚ) / s * 100)]) :: rest, ?_, ?_⟩
        · simp only [checkExposure, hp, if_true, List.mapM_cons, List.mapM_nil, e0, e1, e2, bind, Except.bind, pure, Except.pure,
            channelExposure, pixelMax, hs, h1]
        · simp [hp, h2]
      · exact ⟨rest, by simp only [checkExposure, hp]; simpa using h1, by simp [hp, h2]⟩
  | none =>
    induction ids with
    | nil => left; exact ⟨[], rfl, rfl⟩
    | cons i ids ih =>
      by_cases hp : present (t.format i)
      · right
        obtain ⟨v0, l0, e0⟩ := hread (t.format i) 0
        obtain ⟨v1, l1, e1⟩ := hread (t.format i) 1
        obtain ⟨v2, l2, e2⟩ := hread (t.format i) 2
        refine ⟨rfl, ⟨i, by simp, hp⟩, ?_⟩
        simp only [checkExposure, hp, if_true, List.mapM_cons, List.mapM_nil, e0, e1, e2, bind, Except.bind, pure, Except.pure,
          channelExposure, pixelMax, hs]
      · rcases ih with ⟨rest, h1, h2⟩ | ⟨h1, ⟨k, hk, hk'⟩, h3⟩
        · left
          exact ⟨rest, by simp only [checkExposure, hp]; simpa using h1, by simp [hp, h2]⟩
        · right
          exact ⟨h1, ⟨k, by simp [hk], hk'⟩, by simp only [checkExposure, hp]; simpa using h3⟩

/-- The templates that are known. -/
theorem C162_limits : saturationLimit "IMG_{:04d}.JPG".toList = some 255 ∧ saturationLimit "IMG_{:04d}.jpeg".toList = some 255 ∧
    saturationLimit "IMG_{:04d}.CR2".toList = some 16383 ∧ saturationLimit "IMG_{:04d}.png".toList = none ∧
    saturationLimit "IMG_{:04d}.PNG".toList = none ∧ saturationLimit "IMG_{:04d}.cr2".toList = none := by decide

/-- A photo of two pixels, one of them saturated. -/
example : channelExposure (saturationLimit "IMG_{:04d}.JPG".toList) (pixelList 1 2 fun _ j => if j = 0 then 51 else 255) = .ok (255, 100) := by
  have : saturationLimit "IMG_{:04d}.JPG".toList = some 255 := by decide
  rw [this]
  simp [channelExposure, pixelList, pixelMax, List.range, List.range.loop]

/-! ### C163 -/

/-- **C163.** The Widman relation gives positive values that fall with the wavelength; the ratio of two wavelengths does not
depend on the unit of length, the values do: with nanometres instead of micrometres they are smaller by a constant factor. -/
theorem C163_widman (a b : ℝ) (ha : 0 < a) (hb : 0 < b) :
    0 < widmanExtco a ∧ (a < b ↔ widmanExtco b < widmanExtco a) ∧
      (∀ u, 0 < u → widmanExtco (u * a) / widmanExtco (u * b) = widmanExtco a / widmanExtco b) ∧
      widmanExtco (1000 * a) = widmanExtco a * (1000 : ℝ) ^ (-1.0088 : ℝ) ∧ (1000 : ℝ) ^ (-1.0088 : ℝ) < 1 / 1000 := by
  have pa : 0 < a ^ (-1.0088 : ℝ) := Real.rpow_pos_of_pos ha _
  have pb : 0 < b ^ (-1.0088 : ℝ) := Real.rpow_pos_of_pos hb _
  refine ⟨by unfold widmanExtco; positivity, ?_, ?_, ?_, ?_⟩
  · have lt : ∀ x y : ℝ, 0 < x → x < y → widmanExtco y < widmanExtco x := by
      intro x y hx hxy
      unfold widmanExtco
      have := Real.rpow_lt_rpow_of_neg hx hxy (show (-1.0088 : ℝ) < 0 by norm_num)
      linarith
    constructor
    · exact lt a b ha
    · intro h
      by_contra hn
      rcases lt_or_eq_of_le (not_lt.mp hn) with h' | h'
      · exact absurd (lt b a hb h') (by linarith)
      · rw [h'] at h; exact lt_irrefl _ h
  · intro u hu
    unfold widmanExtco
    rw [Real.mul_rpow hu.le ha.le, Real.mul_rpow hu.le hb.le]
    have pu : u ^ (-1.0088 : ℝ) ≠ 0 := (Real.rpow_pos_of_pos hu _).ne'
    field_simp
  · unfold widmanExtco
    rw [Real.mul_rpow (by norm_num) ha.le]; ring
  · have : (1000 : ℝ) ^ (-1.0088 : ℝ) < (1000 : ℝ) ^ (-1 : ℝ) := Real.rpow_lt_rpow_of_exponent_lt (by norm_num) (by norm_num)
    rwa [Real.rpow_neg_one, ← one_div] at this

/-- At one micrometre the relation gives its constant. -/
example : widmanExtco 1 = 4.8081 := by simp [widmanExtco]

end Ledsa
