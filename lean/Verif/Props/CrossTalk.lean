import Verif.Props.AmbientLight
import Verif.Props.Step3
import Mathlib.Analysis.Convex.SpecificFunctions.Basic

/-!
# Light of neighbouring LEDs in the search area (C184)

The search areas of two LEDs overlap if they are closer than twice the radius; the sum over a search area,
/repo/ledsa/data_extraction/step_3_functions.py 140-162, counts the light of all LEDs in it. The specification is a series of images in
which every LED sends a given amount of light into every search area.
-/

namespace Ledsa
open scoped BigOperators

/-- The depth that is shown if the share `w m` of the light in the reference image comes from LED `m`, which is seen through the depth `D m`. -/
noncomputable def mixedDepth {ι : Type} (s : Finset ι) (w D : ι → ℝ) : ℝ := -Real.log (∑ m ∈ s, w m * Real.exp (-D m))

theorem mixed_pos {ι : Type} (s : Finset ι) (w D : ι → ℝ) (hw : ∀ m ∈ s, 0 ≤ w m) (h1 : ∑ m ∈ s, w m = 1) :
    0 < ∑ m ∈ s, w m * Real.exp (-D m) := by
  obtain ⟨m, hm, hne⟩ : ∃ m ∈ s, w m ≠ 0 := by
    by_contra hno
    push Not at hno
    rw [Finset.sum_eq_zero hno] at h1
    exact zero_ne_one h1
  exact Finset.sum_pos' (fun k hk => mul_nonneg (hw k hk) (Real.exp_pos _).le)
    ⟨m, hm, mul_pos (lt_of_le_of_ne (hw m hm) (Ne.symm hne)) (Real.exp_pos _)⟩

/-- **C184.** The depth that is shown lies between the depths of the LEDs whose light is in the search area, and is at most the mean of
these depths, weighted by the shares of the light. -/
theorem C184_depth {ι : Type} (s : Finset ι) (w D : ι → ℝ) (hw : ∀ m ∈ s, 0 ≤ w m) (h1 : ∑ m ∈ s, w m = 1) :
    (∀ d, (∀ m ∈ s, w m ≠ 0 → d ≤ D m) → d ≤ mixedDepth s w D) ∧ (∀ d, (∀ m ∈ s, w m ≠ 0 → D m ≤ d) → mixedDepth s w D ≤ d) ∧
    mixedDepth s w D ≤ ∑ m ∈ s, w m * D m := by
  have hpos := mixed_pos s w D hw h1
  have hc : ∀ c : ℝ, ∑ m ∈ s, w m * c = c := fun c => by rw [← Finset.sum_mul, h1, one_mul]
  refine ⟨?_, ?_, ?_⟩
  · intro d hd
    have : ∑ m ∈ s, w m * Real.exp (-D m) ≤ Real.exp (-d) := by
      rw [← hc (Real.exp (-d))]
      refine Finset.sum_le_sum fun m hm => ?_
      by_cases h0 : w m = 0
      · rw [h0, zero_mul, zero_mul]
      · exact mul_le_mul_of_nonneg_left (Real.exp_le_exp.2 (neg_le_neg (hd m hm h0))) (hw m hm)
    have := Real.log_le_log hpos this
    rw [Real.log_exp] at this
    unfold mixedDepth
    linarith
  · intro d hd
    have : Real.exp (-d) ≤ ∑ m ∈ s, w m * Real.exp (-D m) := by
      rw [← hc (Real.exp (-d))]
      refine Finset.sum_le_sum fun m hm => ?_
      by_cases h0 : w m = 0
      · rw [h0, zero_mul, zero_mul]
      · exact mul_le_mul_of_nonneg_left (Real.exp_le_exp.2 (neg_le_neg (hd m hm h0))) (hw m hm)
    have := Real.log_le_log (Real.exp_pos _) this
    rw [Real.log_exp] at this
    unfold mixedDepth
    linarith
  · have hj := convexOn_exp.map_sum_le (t := s) (w := w) (p := fun m => -D m) hw h1 (fun _ _ => Set.mem_univ _)
    simp only [smul_eq_mul] at hj
    have := Real.log_le_log (Real.exp_pos _) hj
    rw [Real.log_exp] at this
    have e : ∑ m ∈ s, w m * -D m = -∑ m ∈ s, w m * D m := by
      rw [← Finset.sum_neg_distrib]
      exact Finset.sum_congr rfl fun m _ => by ring
    unfold mixedDepth
    linarith

/-- **C184.** Nothing changes if all LEDs in the search area are seen through the same depth. -/
theorem C184_same {ι : Type} (s : Finset ι) (w D : ι → ℝ) (hw : ∀ m ∈ s, 0 ≤ w m) (h1 : ∑ m ∈ s, w m = 1) (d : ℝ)
    (hd : ∀ m ∈ s, w m ≠ 0 → D m = d) : mixedDepth s w D = d := by
  obtain ⟨a, b, _⟩ := C184_depth s w D hw h1
  exact le_antisymm (b d fun m hm h => (hd m hm h).le) (a d fun m hm h => (hd m hm h).ge)

/-- **C184, exact condition for one neighbour.** The depth is right exactly if both LEDs are seen through the same depth; otherwise it is drawn
towards the depth of the neighbour. -/
theorem C184_two {q : ℝ} (hq0 : 0 < q) (hq1 : q < 1) (D D' : ℝ) :
    (-Real.log ((1 - q) * Real.exp (-D) + q * Real.exp (-D')) = D ↔ D' = D) ∧
    (D' < D → D' < -Real.log ((1 - q) * Real.exp (-D) + q * Real.exp (-D')) ∧ -Real.log ((1 - q) * Real.exp (-D) + q * Real.exp (-D')) < D) ∧
    (D < D' → D < -Real.log ((1 - q) * Real.exp (-D) + q * Real.exp (-D')) ∧ -Real.log ((1 - q) * Real.exp (-D) + q * Real.exp (-D')) < D') := by
  have hpos : 0 < (1 - q) * Real.exp (-D) + q * Real.exp (-D') := by
    have := mul_pos (sub_pos.2 hq1) (Real.exp_pos (-D))
    have := mul_pos hq0 (Real.exp_pos (-D'))
    linarith
  have hlt : D' < D → D' < -Real.log ((1 - q) * Real.exp (-D) + q * Real.exp (-D')) ∧
      -Real.log ((1 - q) * Real.exp (-D) + q * Real.exp (-D')) < D := by
    intro h
    have he := Real.exp_lt_exp.2 (neg_lt_neg h)
    have u1 : (1 - q) * Real.exp (-D) + q * Real.exp (-D') < Real.exp (-D') := by nlinarith
    have u2 : Real.exp (-D) < (1 - q) * Real.exp (-D) + q * Real.exp (-D') := by nlinarith
    have v1 := Real.log_lt_log hpos u1
    have v2 := Real.log_lt_log (Real.exp_pos _) u2
    rw [Real.log_exp] at v1 v2
    constructor <;> linarith
  have hgt : D < D' → D < -Real.log ((1 - q) * Real.exp (-D) + q * Real.exp (-D')) ∧
      -Real.log ((1 - q) * Real.exp (-D) + q * Real.exp (-D')) < D' := by
    intro h
    have he := Real.exp_lt_exp.2 (neg_lt_neg h)
    have u1 : (1 - q) * Real.exp (-D) + q * Real.exp (-D') < Real.exp (-D) := by nlinarith
    have u2 : Real.exp (-D') < (1 - q) * Real.exp (-D) + q * Real.exp (-D') := by nlinarith
    have v1 := Real.log_lt_log hpos u1
    have v2 := Real.log_lt_log (Real.exp_pos _) u2
    rw [Real.log_exp] at v1 v2
    constructor <;> linarith
  refine ⟨⟨fun h => ?_, ?_⟩, hlt, hgt⟩
  · rcases lt_trichotomy D' D with h' | h' | h'
    · exact absurd h (hlt h').2.ne
    · exact h'
    · exact absurd h (hgt h').1.ne'
  · rintro rfl
    have : (1 - q) * Real.exp (-D') + q * Real.exp (-D') = Real.exp (-D') := by ring
    rw [this, Real.log_exp, neg_neg]

-- a third of the light from a neighbour in clear air
example (D : ℝ) (h : 0 < D) : -Real.log ((1 - 1 / 3) * Real.exp (-D) + 1 / 3 * Real.exp (-0)) < D :=
  ((C184_two (by norm_num) (by norm_num) D 0).2.1 h).2

/-- The light in a search area if the share `q` of foreign light comes from LEDs whose depths differ by at most `δ`. -/
theorem mixed_within {ι : Type} [DecidableEq ι] (s : Finset ι) (w D : ι → ℝ) (hw : ∀ m ∈ s, 0 ≤ w m) (h1 : ∑ m ∈ s, w m = 1) (l : ι)
    (hl : l ∈ s) (q δ : ℝ) (hq : 1 - w l ≤ q) (hq1 : q ≤ 1) (hδ : 0 ≤ δ) (hD : ∀ m ∈ s, w m ≠ 0 → |D m - D l| ≤ δ) :
    Within (q * (Real.exp δ - 1)) (∑ m ∈ s, w m * Real.exp (-D m)) (Real.exp (-D l)) := by
  have hsplit : ∑ m ∈ s, w m * Real.exp (-D m) = w l * Real.exp (-D l) + ∑ m ∈ s.erase l, w m * Real.exp (-D m) :=
    (Finset.add_sum_erase s _ hl).symm
  have hone : w l + ∑ m ∈ s.erase l, w m = 1 := by rw [Finset.add_sum_erase s _ hl, h1]
  set p := ∑ m ∈ s.erase l, w m with hp
  have hp0 : 0 ≤ p := Finset.sum_nonneg fun m hm => hw m (Finset.mem_of_mem_erase hm)
  have hpq : p ≤ q := by linarith
  have hup : ∑ m ∈ s.erase l, w m * Real.exp (-D m) ≤ p * (Real.exp (-D l) * Real.exp δ) := by
    rw [hp, Finset.sum_mul]
    refine Finset.sum_le_sum fun m hm => ?_
    by_cases h0 : w m = 0
    · rw [h0, zero_mul, zero_mul]
    · refine mul_le_mul_of_nonneg_left ?_ (hw m (Finset.mem_of_mem_erase hm))
      rw [← Real.exp_add]
      have := (abs_le.1 (hD m (Finset.mem_of_mem_erase hm) h0)).1
      exact Real.exp_le_exp.2 (by linarith)
  have hlo : p * (Real.exp (-D l) * Real.exp (-δ)) ≤ ∑ m ∈ s.erase l, w m * Real.exp (-D m) := by
    rw [hp, Finset.sum_mul]
    refine Finset.sum_le_sum fun m hm => ?_
    by_cases h0 : w m = 0
    · rw [h0, zero_mul, zero_mul]
    · refine mul_le_mul_of_nonneg_left ?_ (hw m (Finset.mem_of_mem_erase hm))
      rw [← Real.exp_add]
      have := (abs_le.1 (hD m (Finset.mem_of_mem_erase hm) h0)).2
      exact Real.exp_le_exp.2 (by linarith)
  have hE : 0 < Real.exp (-D l) := Real.exp_pos _
  have hed : 1 ≤ Real.exp δ := Real.one_le_exp hδ
  have hwl : w l = 1 - p := by linarith
  rw [hsplit, hwl]
  constructor
  · -- 1 - p (1 - exp (-δ)) is at least exp (-(q (exp δ - 1)))
    have hx : Real.exp (-(q * (Real.exp δ - 1))) ≤ 1 - p + p * Real.exp (-δ) := by
      have hm1 : Real.exp (-δ) ≤ 1 := Real.exp_le_one_iff.2 (by linarith)
      have hmp : 0 < Real.exp (-δ) := Real.exp_pos _
      have hprod : Real.exp δ * Real.exp (-δ) = 1 := by rw [← Real.exp_add, add_neg_cancel, Real.exp_zero]
      set y := 1 - p + p * Real.exp (-δ) with hy
      have hyge : Real.exp (-δ) ≤ y := by rw [hy]; nlinarith
      have hypos : 0 < y := lt_of_lt_of_le hmp hyge
      have hlog := Real.one_sub_inv_le_log_of_pos hypos
      have hinv : y⁻¹ - 1 ≤ q * (Real.exp δ - 1) := by
        have e1 : y⁻¹ - 1 = p * (1 - Real.exp (-δ)) / y := by
          rw [hy] at hypos ⊢
          field_simp
          ring
        rw [e1, div_le_iff₀ hypos]
        have e2 : Real.exp δ - 1 = (1 - Real.exp (-δ)) * Real.exp δ := by linear_combination hprod
        rw [e2]
        have e3 : 1 ≤ Real.exp δ * y := by
          calc (1 : ℝ) = Real.exp δ * Real.exp (-δ) := hprod.symm
            _ ≤ Real.exp δ * y := mul_le_mul_of_nonneg_left hyge (Real.exp_pos _).le
        have h5 : 0 ≤ 1 - Real.exp (-δ) := by linarith
        have h6 : p * (1 - Real.exp (-δ)) ≤ q * (1 - Real.exp (-δ)) := mul_le_mul_of_nonneg_right hpq h5
        have hq0 : 0 ≤ q := hp0.trans hpq
        have h7 : q * (1 - Real.exp (-δ)) * 1 ≤ q * (1 - Real.exp (-δ)) * (Real.exp δ * y) :=
          mul_le_mul_of_nonneg_left e3 (mul_nonneg hq0 h5)
        nlinarith
      rw [← Real.exp_log hypos]
      exact Real.exp_le_exp.2 (by linarith)
    have := mul_le_mul_of_nonneg_left hx hE.le
    nlinarith
  · have hx : 1 - p + p * Real.exp δ ≤ Real.exp (q * (Real.exp δ - 1)) := by
      have h2 := Real.add_one_le_exp (q * (Real.exp δ - 1))
      nlinarith
    have := mul_le_mul_of_nonneg_left hx hE.le
    nlinarith

/-! ### Photos -/

/-- **C184, pixels.** If every LED adds the light `spot m` times its transmission to the pixels, the sum over a search area is the sum of the
amounts that the LEDs have in it, times their transmissions. It is the light of the own LED alone if no other spot reaches into the area. -/
theorem C184_pixels (img : Image ℝ) (leds : Finset ℕ) (spot : ℕ → ℕ × ℕ → ℝ) (trans : ℕ → ℝ)
    (hpx : ∀ p, img.px p.1 p.2 = ∑ m ∈ leds, spot m p * trans m) (r c : ℤ) (R : ℕ) :
    ∑ p ∈ area img r c R, img.px p.1 p.2 = ∑ m ∈ leds, (∑ p ∈ area img r c R, spot m p) * trans m ∧
    ∀ l ∈ leds, (∀ m ∈ leds, m ≠ l → ∀ p ∈ area img r c R, spot m p = 0) →
      ∑ p ∈ area img r c R, img.px p.1 p.2 = (∑ p ∈ area img r c R, spot l p) * trans l := by
  have h : ∑ p ∈ area img r c R, img.px p.1 p.2 = ∑ m ∈ leds, (∑ p ∈ area img r c R, spot m p) * trans m := by
    rw [Finset.sum_congr rfl fun p _ => hpx p, Finset.sum_comm]
    exact Finset.sum_congr rfl fun m _ => (Finset.sum_mul _ _ _).symm
  refine ⟨h, fun l hl hz => ?_⟩
  rw [h, Finset.sum_eq_single_of_mem l hl]
  intro m hm hne
  rw [Finset.sum_eq_zero (hz m hm hne), zero_mul]

/-- Two search areas share no pixel if the LEDs are at least twice the radius apart in rows or columns. -/
theorem C184_apart (img : Image ℝ) (r c r' c' : ℤ) (R : ℕ) (h : 2 * (R : ℤ) ≤ |r - r'| ∨ 2 * (R : ℤ) ≤ |c - c'|) :
    Disjoint (area img r c R) (area img r' c' R) := by
  rw [Finset.disjoint_left]
  intro p hp hp'
  simp only [area, Finset.mem_filter] at hp hp'
  obtain ⟨_, a1, a2, a3, a4⟩ := hp
  obtain ⟨_, b1, b2, b3, b4⟩ := hp'
  rcases h with h | h
  · rcases abs_cases (r - r') with ⟨e, _⟩ | ⟨e, _⟩ <;> rw [e] at h <;> omega
  · rcases abs_cases (c - c') with ⟨e, _⟩ | ⟨e, _⟩ <;> rw [e] at h <;> omega

-- radius 10: LEDs at rows 100 and 125 have areas apart
example (img : Image ℝ) : Disjoint (area img 100 50 10) (area img 125 50 10) := C184_apart img _ _ _ _ 10 (Or.inl (by norm_num))

/-! ### The coefficients -/

/-- The light in the search area of LED `l` in the reference images: LED `m` sends the share `share l m` of its light there. -/
noncomputable def areaEmit (leds : List ℕ) (emit : ℕ → ℝ) (share : ℕ → ℕ → ℝ) (l : ℕ) : ℝ := ∑ m ∈ leds.toFinset, share l m * emit m

/-- The light in the search area of LED `l` in image `i`. -/
noncomputable def areaLight (a : ArrayAnalysis) (leds : List ℕ) (pos : ℕ → P3) (emit : ℕ → ℝ) (smoke : ℕ → Fin a.layers → ℝ)
    (share : ℕ → ℕ → ℝ) (i l : ℕ) : ℝ :=
  ∑ m ∈ leds.toFinset, share l m * (emit m * Real.exp (-lineDepth a.cam (pos m) a.lo a.hi (smoke i)))

/-- A series of images in which at most the share `q` of the light in any search area comes from other LEDs, whose depths differ by at
most `δ`. -/
structure CrossTalk (a : ArrayAnalysis) (leds : List ℕ) (pos : ℕ → P3) (N : ℕ) (emit : ℕ → ℝ) (smoke : ℕ → Fin a.layers → ℝ)
    (share : ℕ → ℕ → ℝ) (q δ : ℝ) : Prop where
  emits : ∀ l ∈ leds, 0 < emit l
  shares : ∀ l ∈ leds, ∀ m ∈ leds, 0 ≤ share l m
  own : ∀ l ∈ leds, 0 < share l l
  foreign : ∀ l ∈ leds, areaEmit leds emit share l - share l l * emit l ≤ q * areaEmit leds emit share l
  part : q ≤ 1
  spread : 0 ≤ δ
  depths : ∀ i, 1 ≤ i → i ≤ N → ∀ l ∈ leds, ∀ m ∈ leds, share l m ≠ 0 →
    |lineDepth a.cam (pos m) a.lo a.hi (smoke i) - lineDepth a.cam (pos l) a.lo a.hi (smoke i)| ≤ δ
  clear : ∀ i, 1 ≤ i → i ≤ N → a.ref.selects i = true → smoke i = fun _ => 0
  reference : ∃ i, 1 ≤ i ∧ i ≤ N ∧ a.ref.selects i = true
  nonneg : ∀ i, 1 ≤ i → i ≤ N → ∀ k, 0 ≤ smoke i k
  thin : ∀ i, 1 ≤ i → i ≤ N → ∀ l ∈ leds, lineDepth a.cam (pos l) a.lo a.hi (smoke i) ≤ 23

theorem CrossTalk.areaEmit_pos {a : ArrayAnalysis} {leds : List ℕ} {pos : ℕ → P3} {N : ℕ} {emit : ℕ → ℝ} {smoke : ℕ → Fin a.layers → ℝ}
    {share : ℕ → ℕ → ℝ} {q δ : ℝ} (h : CrossTalk a leds pos N emit smoke share q δ) (l : ℕ) (hl : l ∈ leds) :
    0 < areaEmit leds emit share l :=
  Finset.sum_pos' (fun m hm => mul_nonneg (h.shares l hl m (List.mem_toFinset.1 hm)) (h.emits m (List.mem_toFinset.1 hm)).le)
    ⟨l, List.mem_toFinset.2 hl, mul_pos (h.own l hl) (h.emits l hl)⟩

/-- Such images are right up to the factor `exp (q (exp δ - 1))`. -/
theorem C184_noisy {a : ArrayAnalysis} {leds : List ℕ} {pos : ℕ → P3} {N : ℕ} {emit : ℕ → ℝ} {smoke : ℕ → Fin a.layers → ℝ}
    {share : ℕ → ℕ → ℝ} {q δ : ℝ} (h : CrossTalk a leds pos N emit smoke share q δ) :
    NoisyLight a leds pos N (areaLight a leds pos emit smoke share) (q * (Real.exp δ - 1)) (areaEmit leds emit share) smoke where
  emits := h.areaEmit_pos
  light := by
    intro i h1 h2 l hl
    have hE := h.areaEmit_pos l hl
    have hmem : l ∈ leds.toFinset := List.mem_toFinset.2 hl
    have hw := mixed_within leds.toFinset (fun m => share l m * emit m / areaEmit leds emit share l)
      (fun m => lineDepth a.cam (pos m) a.lo a.hi (smoke i))
      (fun m hm => div_nonneg (mul_nonneg (h.shares l hl m (List.mem_toFinset.1 hm)) (h.emits m (List.mem_toFinset.1 hm)).le) hE.le)
      (by rw [← Finset.sum_div]; exact div_self hE.ne') l hmem q δ
      (by
        have := h.foreign l hl
        rw [sub_le_iff_le_add, ← sub_le_iff_le_add', le_div_iff₀ hE]
        nlinarith) h.part h.spread (fun m hm hne => h.depths i h1 h2 l hl m (List.mem_toFinset.1 hm) (fun h0 => hne (by rw [h0]; simp)))
    have e : areaLight a leds pos emit smoke share i l = areaEmit leds emit share l *
        ∑ m ∈ leds.toFinset, share l m * emit m / areaEmit leds emit share l * Real.exp (-lineDepth a.cam (pos m) a.lo a.hi (smoke i)) := by
      unfold areaLight
      rw [Finset.mul_sum]
      refine Finset.sum_congr rfl fun m _ => ?_
      field_simp
    obtain ⟨w1, w2⟩ := hw
    rw [e]
    constructor
    · rw [mul_assoc]; exact mul_le_mul_of_nonneg_left w1 hE.le
    · rw [mul_assoc]; exact mul_le_mul_of_nonneg_left w2 hE.le
  clear := h.clear
  reference := h.reference
  nonneg := h.nonneg
  thin := h.thin

/-- **C184.** The coefficients of a series in which search areas contain light of other LEDs: the error is bounded by a constant of the array, the
share of foreign light and the differences of the depths. Without foreign light, or where all LEDs of an area have the same depth, there is
none but that of the regularisation. -/
theorem C184_coefficients (a : ArrayAnalysis) (leds : List ℕ) (pos : ℕ → P3) (h : SeenArray a leds pos) (hlam : 0 < a.lam)
    (hdet : ∀ σ τ : Fin a.layers → ℝ, Affine σ → Affine τ →
      (∀ l ∈ leds, lineDepth a.cam (pos l) a.lo a.hi σ = lineDepth a.cam (pos l) a.lo a.hi τ) → σ = τ) :
    ∃ K : ℝ, 0 < K ∧ ∀ (N : ℕ) (emit : ℕ → ℝ) (smoke : ℕ → Fin a.layers → ℝ) (share : ℕ → ℕ → ℝ) (q δ : ℝ),
      CrossTalk a leds pos N emit smoke share q δ → ∀ files : ℕ → List (ℕ × ℕ × ℝ),
      (∀ i, 1 ≤ i → i ≤ N → ((files i).map (·.1)).Nodup) →
      (∀ i, 1 ≤ i → i ≤ N → ∀ l x, (l, a.arr, x) ∈ files i ↔ l ∈ leds ∧ x = areaLight a leds pos emit smoke share i l) →
      ∀ r, a.Result files N r → ∃ found : ℕ → Fin a.layers → ℝ, r = .ok ((firstImgs N).map found) ∧
        ∀ i, 1 ≤ i → i ≤ N → ∑ k, (found i k - smoke i k) ^ 2 ≤
          K * (leds.length * (2 * (q * (Real.exp δ - 1))) ^ 2 + a.lam * bending (smoke i)) := by
  obtain ⟨K, hK, hall⟩ := C111_coefficients a leds pos h hlam hdet
  exact ⟨K, hK, fun N emit smoke share q δ hc files hnd hm r hr => hall N _ _ _ _ (C184_noisy hc) files hnd hm r hr⟩

-- two LEDs, a tenth of the light of each in the area of the other, seen through depths 1 and 1.5: right up to a factor below exp 0.07
example : Within (1 / 10 * (Real.exp (1 / 2) - 1)) (∑ m : Fin 2, (![9 / 10, 1 / 10] : Fin 2 → ℝ) m * Real.exp (-(![1, 3 / 2] : Fin 2 → ℝ) m))
    (Real.exp (-1)) :=
  mixed_within Finset.univ ![9 / 10, 1 / 10] ![1, 3 / 2] (fun m _ => by fin_cases m <;> norm_num) (by rw [Fin.sum_univ_two]; norm_num) 0
    (Finset.mem_univ _) (1 / 10) (1 / 2) (by norm_num) (by norm_num) (by norm_num)
    (fun m _ _ => by fin_cases m <;> norm_num [abs_le])

/-! ### Refutation -/

/-- Light of other LEDs of the array in the search areas, with the same shares in all images, does not change the coefficients. -/
def CrossTalkIsHarmless : Prop := ∀ (m n : ℕ) (A : Fin m → Fin n → ℝ) (lam : ℝ), 3 ≤ n → (∀ i l, 0 ≤ A i l) → DeterminesAffine A → 0 < lam →
  ∀ (w : Fin m → Fin m → ℝ) (rel : Fin m → ℝ) (σ τ : Fin n → ℝ), (∀ i j, 0 ≤ w i j) → (∀ i, ∑ j, w i j = 1) → (∀ i, 0 < w i i) →
    (∀ i, 0 < rel i ∧ rel i ≤ 1) → LinearSolution A lam rel σ → LinearSolution A lam (fun i => ∑ j, w i j * rel j) τ → τ = σ

theorem threeRays_slope (c : ℝ) (h0 : 0 ≤ c) (h1 : c ≤ 2) (x : Fin 3 → ℝ) :
    LinearSolution (threeRays 1) 1 (fun i => Real.exp (-(c * ((i : ℕ) : ℝ)))) x ↔ x = fun i : Fin 3 => c * ((i : ℕ) : ℝ) := by
  have e : calcIntensities (threeRays 1) (fun i : Fin 3 => c * ((i : ℕ) : ℝ)) = fun i : Fin 3 => Real.exp (-(c * ((i : ℕ) : ℝ))) := by
    funext led
    rw [C42_beer_lambert]
    have : ∑ l : Fin 3, c * ((l : ℕ) : ℝ) * threeRays 1 led l = depth (fun i : Fin 3 => c * ((i : ℕ) : ℝ)) (threeRays 1 led) :=
      Finset.sum_congr rfl fun l _ => mul_comm _ _
    rw [this, depth_threeRays, one_mul]
  rw [← e]
  have hlog : (2 : ℝ) ≤ Real.log 10 := by
    rw [Real.le_log_iff_exp_le (by norm_num)]
    have h1 := Real.exp_one_lt_d9
    have h2 : Real.exp 2 = Real.exp 1 ^ 2 := by rw [← Real.exp_nat_mul]; norm_num
    rw [h2]
    nlinarith [Real.exp_pos 1]
  refine C43_linear_profile_partial le_rfl _ (fun i l => by unfold threeRays; split <;> norm_num) (threeRays_determines one_ne_zero) 1 one_pos
    _ (fun l => by positivity) ⟨0, c, fun l => by ring⟩ (fun led => ?_) x
  rw [depth_threeRays]
  have : ((led : ℕ) : ℝ) ≤ 2 := by exact_mod_cast Nat.lt_succ_iff.1 led.2
  nlinarith [Nat.cast_nonneg (α := ℝ) (led : ℕ)]

/-- **C184 refuted**: smoke of 0, 1 and 2 per metre; the areas of the second and the third LED contain some light of the first one, and 0, 0.5
and 1 come out. -/
theorem C184_false : ¬ CrossTalkIsHarmless := by
  intro h
  have hexp : ∀ x : ℝ, 0 < x → Real.exp (-x) < 1 := fun x hx => by rw [Real.exp_lt_one_iff]; linarith
  have hlt : ∀ x y : ℝ, x < y → Real.exp (-y) < Real.exp (-x) := fun x y hxy => Real.exp_lt_exp.2 (neg_lt_neg hxy)
  -- share of the first LED in the area of LED i
  have key : ∀ x y : ℝ, 0 < x → x < y → ∃ q, 0 < q ∧ q < 1 ∧ q + (1 - q) * Real.exp (-y) = Real.exp (-x) := by
    intro x y hx hxy
    have hy := hexp y (hx.trans hxy)
    have hx1 := hexp x hx
    have hl := hlt x y hxy
    have hd : 0 < 1 - Real.exp (-y) := by linarith
    refine ⟨(Real.exp (-x) - Real.exp (-y)) / (1 - Real.exp (-y)), div_pos (by linarith) hd, ?_, ?_⟩
    · rw [div_lt_one hd]; linarith
    · field_simp
      ring
  obtain ⟨q1, a1, b1, e1⟩ := key (1 / 2) 1 (by norm_num) (by norm_num)
  obtain ⟨q2, a2, b2, e2⟩ := key 1 2 (by norm_num) (by norm_num)
  let w : Fin 3 → Fin 3 → ℝ := ![![1, 0, 0], ![q1, 1 - q1, 0], ![q2, 0, 1 - q2]]
  have hmix : (fun i : Fin 3 => ∑ j, w i j * Real.exp (-(1 * ((j : ℕ) : ℝ)))) = fun i : Fin 3 => Real.exp (-(1 / 2 * ((i : ℕ) : ℝ))) := by
    funext i
    rw [Fin.sum_univ_three]
    match i with
    | 0 => simp [w]
    | 1 =>
      simp only [w, Matrix.cons_val_zero, Matrix.cons_val_one, Matrix.cons_val_two, Fin.val_zero, Fin.val_one, Fin.val_two, Nat.cast_zero, Nat.cast_one]
      norm_num at e1 ⊢
      linarith
    | 2 =>
      simp [w]
      linarith
  have := h 3 3 (threeRays 1) 1 le_rfl (fun i l => by unfold threeRays; split <;> norm_num) (threeRays_determines one_ne_zero) one_pos w
    (fun i => Real.exp (-(1 * ((i : ℕ) : ℝ)))) (fun i => 1 * ((i : ℕ) : ℝ)) (fun i => 1 / 2 * ((i : ℕ) : ℝ))
    (fun i j => by fin_cases i <;> fin_cases j <;> simp [w] <;> linarith)
    (fun i => by rw [Fin.sum_univ_three]; fin_cases i <;> simp [w])
    (fun i => by fin_cases i <;> simp [w] <;> linarith)
    (fun i => ⟨Real.exp_pos _, Real.exp_le_one_iff.2 (by have : (0 : ℝ) ≤ ((i : ℕ) : ℝ) := Nat.cast_nonneg _; linarith)⟩)
    ((threeRays_slope 1 (by norm_num) (by norm_num) _).2 rfl)
    (by rw [hmix]; exact (threeRays_slope (1 / 2) (by norm_num) (by norm_num) _).2 rfl)
  have h1 := congrFun this 1
  norm_num at h1

end Ledsa
