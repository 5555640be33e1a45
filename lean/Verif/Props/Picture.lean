import Verif.Model.Picture
import Verif.Model.Session
import Verif.Props.Images
import Verif.Props.Exposure
/-
C166: photos as PNG files.
-/
namespace Ledsa

/-! ### Specification -/

/-- Values of an 8 bit photo: bytes. -/
def Bytes (px : ℚ) : Prop := ∃ b : ℕ, b ≤ 255 ∧ px = b

/-- How `plt.imread` converts the bytes of a PNG file: divided by 255 with a relative error of at most `u`, different bytes stay different. -/
structure PngConversion (f : ℚ → ℚ) (u : ℚ) : Prop where
  near : ∀ b : ℕ, b ≤ 255 → |f b - b / 255| ≤ u * (b / 255)
  mono : ∀ a b : ℕ, a < b → b ≤ 255 → f a < f b

/-- The photo with the same bytes, as JPG (`Picture.colour` with bytes) and as PNG. -/
def asPng (f : ℚ → ℚ) : Picture → Picture
  | .plain img => .plain (img.tone f)
  | .colour h w depth px => .colour h w depth fun i j k => f (px i j k)

/-! ### Single channels -/

theorem PngConversion.strict {f : ℚ → ℚ} {u : ℚ} (hf : PngConversion f u) {x y : ℚ} (hx : Bytes x) (hy : Bytes y) (h : x < y) : f x < f y := by
  obtain ⟨a, _, rfl⟩ := hx
  obtain ⟨b, hb, rfl⟩ := hy
  exact hf.mono a b (by exact_mod_cast h) hb

theorem PngConversion.nonneg {f : ℚ → ℚ} {u : ℚ} (hf : PngConversion f u) (hu : u ≤ 1) {x : ℚ} (hx : Bytes x) : 0 ≤ f x := by
  obtain ⟨a, ha, rfl⟩ := hx
  have h := (abs_le.1 (hf.near a ha)).1
  have h0 : (0 : ℚ) ≤ a / 255 := by positivity
  nlinarith

/-- **C166 (step 1 with a single channel).** For a single colour channel step 1 finds the same LEDs in the PNG file as in the bytes, whatever
the percentile, radius and limit are. -/
theorem C166_channel {maxLoc : Image ℚ → ℕ × ℕ} (hm : IsFirstMaxLoc maxLoc) (q : ℚ) (hq0 : 0 ≤ q) (hq1 : q ≤ 100) (R n : ℕ) (f : ℚ → ℚ) (u : ℚ)
    (hf : PngConversion f u) (hu : u ≤ 1) (dot : ℚ → ℚ → ℚ → ℚ) (p : Picture) (k : ℕ) (img : Image ℚ) (hp : p.step1 dot (some k) = .ok img)
    (h1 : 0 < img.h) (h2 : 0 < img.w) (hb : ∀ v ∈ img.values, Bytes v) :
    ∃ img', (asPng f p).step1 dot (some k) = .ok img' ∧
      (detect maxLoc q R n img').map (·.1) = (detect maxLoc q R n img).map (·.1) ∧ (detect maxLoc q R n img).isSome := by
  refine ⟨img.tone f, ?_, ?_⟩
  · cases p with
    | plain i => cases hp
    | colour h w depth px =>
      simp only [Picture.step1, Picture.channel, asPng] at hp ⊢
      split at hp
      · rename_i hk
        rw [if_pos hk]
        simp only [Except.ok.injEq] at hp
        rw [← hp]
        rfl
      · cases hp
  · refine C149_tone hm q hq0 hq1 R n img h1 h2 f (fun a ha b hb' h => hf.strict (hb a ha) (hb b hb') h) ?_
      (fun v hv => hf.nonneg hu (hb v hv))
    intro v hv
    obtain ⟨b, _, rfl⟩ := hb v hv
    positivity

theorem window_tone (f : ℚ → ℚ) (img : Image ℚ) (r c : ℤ) (R : ℕ) : window (img.tone f) r c R = (window img r c R).map f := by
  unfold window Image.tone
  rw [List.map_flatMap]
  simp [Function.comp_def]

theorem png_sum_near {f : ℚ → ℚ} {u : ℚ} (hf : PngConversion f u) (l : List ℚ) (h : ∀ v ∈ l, Bytes v) :
    |(l.map f).sum - l.sum / 255| ≤ u * (l.sum / 255) := by
  induction l with
  | nil => simp
  | cons x l ih =>
    have h1 := ih fun v hv => h v (List.mem_cons_of_mem _ hv)
    obtain ⟨b, hb, hx⟩ := h x (by simp)
    have h2 := hf.near b hb
    rw [List.map_cons, List.sum_cons, List.sum_cons, hx]
    rw [abs_le] at h1 h2 ⊢
    constructor <;> linarith [h1.1, h1.2, h2.1, h2.2, add_div (b : ℚ) l.sum 255]

theorem foldl_max_map {f : ℚ → ℚ} {u : ℚ} (hf : PngConversion f u) : ∀ (l : List ℚ) (v : ℚ), Bytes v → (∀ x ∈ l, Bytes x) →
    (l.map f).foldl max (f v) = f (l.foldl max v)
  | [], _, _, _ => rfl
  | x :: l, v, hv, h => by
    have hx := h x (by simp)
    have e : max (f v) (f x) = f (max v x) := by
      rcases lt_trichotomy v x with h | h | h
      · rw [max_eq_right h.le, max_eq_right (hf.strict hv hx h).le]
      · rw [h, max_self, max_self]
      · rw [max_eq_left h.le, max_eq_left (hf.strict hx hv h).le]
    rw [List.map_cons, List.foldl_cons, List.foldl_cons, e]
    refine foldl_max_map hf l _ ?_ fun x hx => h x (List.mem_cons_of_mem _ hx)
    rcases le_total v x with h | h
    · rwa [max_eq_right h]
    · rwa [max_eq_left h]

/-- **C166 (step 3).** Sum and mean of a search area are those of the bytes divided by 255 up to the relative error of the pixels, the maximum
belongs to the same byte. -/
theorem C166_values (f : ℚ → ℚ) (u : ℚ) (hf : PngConversion f u) (img : Image ℚ) (hb : ∀ i j, Bytes (img.px i j)) (r c : ℤ) (R : ℕ) :
    (∀ m, measure img r c R = .ok m → ∃ m', measure (img.tone f) r c R = .ok m' ∧ |m'.sum - m.sum / 255| ≤ u * (m.sum / 255) ∧
      |m'.mean - m.mean / 255| ≤ u * (m.mean / 255) ∧ m'.max = f m.max) ∧
    ∀ e, measure img r c R = .error e → measure (img.tone f) r c R = .error e := by
  have hw : ∀ v ∈ window img r c R, Bytes v := by
    intro v hv
    unfold window at hv
    rw [List.mem_flatMap] at hv
    obtain ⟨i, _, hv⟩ := hv
    obtain ⟨j, _, rfl⟩ := List.mem_map.1 hv
    exact hb i j
  unfold measure
  rw [window_tone]
  cases hwin : window img r c R with
  | nil =>
    refine ⟨?_, ?_⟩
    · intro m hm; cases hm
    · intro e he; exact he
  | cons v vs =>
    rw [hwin] at hw
    refine ⟨?_, ?_⟩
    · intro m hm
      simp only [Except.ok.injEq] at hm
      subst hm
      refine ⟨_, rfl, ?_, ?_, ?_⟩
      · exact png_sum_near hf (v :: vs) hw
      · have h := png_sum_near hf (v :: vs) hw
        have hl : (0 : ℚ) < ((v :: vs).length : ℚ) := by simp; positivity
        simp only [← List.map_cons, List.length_map]
        generalize ((v :: vs).map f).sum = x at h
        generalize (v :: vs).sum = y at h
        generalize ((v :: vs).length : ℚ) = n at hl
        have e1 : x / n - y / n / 255 = (x - y / 255) / n := by field_simp
        have e2 : u * (y / n / 255) = u * (y / 255) / n := by field_simp
        rw [e1, e2, abs_div, abs_of_pos hl]
        exact div_le_div_of_nonneg_right h hl.le
      · exact foldl_max_map hf vs v (hw v (by simp)) fun x hx => hw x (List.mem_cons_of_mem _ hx)
    · intro e he; cases he

/-- **C166 (relative intensities).** A value divided by a reference value is the same as for the bytes, up to the errors of both. -/
theorem C166_relative (u s r s' r' : ℚ) (hu : 0 ≤ u) (hu1 : u < 1) (hs : 0 ≤ s) (hr : 0 < r) (h1 : |s' - s / 255| ≤ u * (s / 255))
    (h2 : |r' - r / 255| ≤ u * (r / 255)) : |s' / r' - s / r| ≤ 2 * u / (1 - u) * (s / r) := by
  rw [abs_le] at h1 h2
  have hr' : (1 - u) * (r / 255) ≤ r' := by linarith [h2.1]
  have hq : 0 < 1 - u := by linarith
  have hr0 : 0 < r' := lt_of_lt_of_le (by positivity) hr'
  have e : s' / r' - s / r = (s' * r - s * r') / (r' * r) := by field_simp
  have hnum : |s' * r - s * r'| ≤ 2 * u * (s / 255) * r := by
    have : s' * r - s * r' = (s' - s / 255) * r - s * (r' - r / 255) := by ring
    rw [this, abs_le]
    have a1 := mul_le_mul_of_nonneg_right h1.1 hr.le
    have a2 := mul_le_mul_of_nonneg_right h1.2 hr.le
    have a3 := mul_le_mul_of_nonneg_left h2.1 hs
    have a4 := mul_le_mul_of_nonneg_left h2.2 hs
    constructor <;> nlinarith
  rw [e, abs_div, abs_of_pos (mul_pos hr0 hr), div_le_iff₀ (mul_pos hr0 hr)]
  refine hnum.trans ?_
  have : 2 * u / (1 - u) * (s / r) * (r' * r) = 2 * u * s * r' / (1 - u) := by field_simp
  rw [this, le_div_iff₀ hq]
  have := mul_le_mul_of_nonneg_left hr' (show 0 ≤ 2 * u * s by positivity)
  nlinarith

/-! ### All channels -/

theorem percentile_zero (vals : List ℚ) (hne : vals ≠ []) (h : ∀ v ∈ vals, v = 0) (q : ℚ) (h0 : 0 ≤ q) (h1 : q ≤ 100) : percentile vals q = some 0 := by
  obtain ⟨t, i, frac, hi, ht, -, -, -, hcase⟩ := percentile_spec vals q hne h0 h1
  have hz : ∀ (k : ℕ) (hk : k < (vals.insertionSort (· ≤ ·)).length), (vals.insertionSort (· ≤ ·))[k] = 0 := by
    intro k hk
    exact h _ ((List.perm_insertionSort (· ≤ ·) vals).mem_iff.1 (List.getElem_mem hk))
  rw [ht]
  congr 1
  rcases hcase with ⟨hi', e⟩ | ⟨_, _, e⟩
  · rw [e, hz, hz]; ring
  · rw [e, hz]

/-- **C166 (step 1 with all channels, refuted).** With `channel = all` step 1 finds no LED in any PNG file, whatever it shows: all grey values
are 0. The table is written without LEDs and step 1 ends with an exception. -/
theorem C166_all_false (maxLoc : Image ℚ → ℕ × ℕ) (q : ℚ) (hq0 : 0 ≤ q) (hq1 : q ≤ 100) (R n : ℕ) (dot : ℚ → ℚ → ℚ → ℚ)
    (hdot : ∀ r g b, IsDot r g b (dot r g b)) (h w depth : ℕ) (px : ℕ → ℕ → ℕ → ℚ) (hd : 3 ≤ depth) (h1 : 0 < h) (h2 : 0 < w)
    (hpx : ∀ i j k, px i j k ≤ 1) :
    ∃ img, (Picture.colour h w depth px).step1 dot none = .ok img ∧ detect maxLoc q R n img = some ([], 0) ∧
      ∀ d, runStep1 (Step1Job.table maxLoc ⟨img, 0, R, n⟩) d = ({ d with areas := some (tableText false []) }, .error .indexError) := by
  refine ⟨⟨h, w, fun i j => toGray (dot (px i j 0) (px i j 1) (px i j 2))⟩, by simp [Picture.step1, Picture.grey, hd], ?_⟩
  have hz : ∀ i j, ((toGray (dot (px i j 0) (px i j 1) (px i j 2)) : ℤ) : ℚ) = 0 := by
    intro i j
    rw [C69_png_false _ _ _ (hpx i j 0) (hpx i j 1) (hpx i j 2) _ (hdot _ _ _)]
    rfl
  set img : Image ℚ := ⟨h, w, fun i j => toGray (dot (px i j 0) (px i j 1) (px i j 2))⟩ with himg
  have hfind : findSearchAreas maxLoc 0 R n img = [] := by
    unfold findSearchAreas
    cases n with
    | zero => rfl
    | succ n =>
      rw [searchLoop, if_neg]
      show ¬ (0 : ℚ) < ((toGray _ : ℤ) : ℚ)
      rw [hz]
      exact lt_irrefl 0
  have hne : img.values ≠ [] := List.ne_nil_of_mem ((mem_values img _).2 ⟨(0, 0), ⟨h1, h2⟩, rfl⟩)
  have hall : ∀ v ∈ img.values, v = 0 := by
    intro v hv
    obtain ⟨p, _, rfl⟩ := (mem_values img v).1 hv
    exact hz _ _
  refine ⟨?_, ?_⟩
  · unfold detect
    rw [percentile_zero _ hne hall q hq0 hq1]
    simp only [hfind]
  · intro d
    have : Step1Job.table maxLoc ⟨img, 0, R, n⟩ = [] := by
      unfold Step1Job.table
      simp only [hfind, List.map_nil]
    rw [this]
    rfl

/-- **C166 (pictures without colour, refuted).** A PNG or JPG file without colour axis is an `IndexError` for every single channel. -/
theorem C166_plain_false (dot : ℚ → ℚ → ℚ → ℚ) (img : Image ℚ) (k : ℕ) : (Picture.plain img).step1 dot (some k) = .error .indexError := rfl

/-- Exact division is a conversion. -/
theorem pngConversion_exact : PngConversion (· / 255) 0 :=
  ⟨fun b _ => by simp, fun a b h _ => by
    have : (a : ℚ) < b := by exact_mod_cast h
    linarith⟩

/-- A photo with one bright spot: found in a single channel of the PNG file, with the sum of the bytes divided by 255. -/
example : (detect firstMaxLoc 50 1 10 (⟨3, 3, fun i j => if i = 1 ∧ j = 1 then 255 else 10⟩ : Image ℚ)).map (·.1) = some [(0, 1, 1)] ∧
    (detect firstMaxLoc 50 1 10 ((⟨3, 3, fun i j => if i = 1 ∧ j = 1 then 255 else 10⟩ : Image ℚ).tone (· / 255))).map (·.1) = some [(0, 1, 1)] ∧
    (measure ((⟨3, 3, fun i j => if i = 1 ∧ j = 1 then 255 else 10⟩ : Image ℚ).tone (· / 255)) 1 1 1).toOption = some ⟨285 / 255, 285 / 255 / 4, 1⟩ := by
  refine ⟨?_, ?_, ?_⟩ <;> decide +kernel

/-- **C166 (channels).** A channel of a picture has the values of this channel at all pixels, and only the channels of the picture can be
chosen. -/
theorem C166_pick (h w depth k : ℕ) (px : ℕ → ℕ → ℕ → ℚ) (img : Image ℚ) :
    (Picture.colour h w depth px).channel k = .ok img ↔ k < depth ∧ img.h = h ∧ img.w = w ∧ ∀ i j, img.px i j = px i j k := by
  simp only [Picture.channel]
  constructor
  · intro e
    split at e
    · rename_i hk
      cases e
      exact ⟨hk, rfl, rfl, fun _ _ => rfl⟩
    · cases e
  · rintro ⟨hk, h1, h2, h3⟩
    rw [if_pos hk]
    obtain ⟨a, b, c⟩ := img
    obtain rfl : a = h := h1
    obtain rfl : b = w := h2
    have : c = fun i j => px i j k := funext fun i => funext fun j => h3 i j
    rw [this]

end Ledsa
