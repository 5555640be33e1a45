import Verif.Model.LedModel
import Mathlib.Algebra.Order.Archimedean.Basic
import Mathlib.Tactic.LinearCombination
import Mathlib.Tactic.Positivity
import Mathlib.Tactic.FieldSimp
import Mathlib.Analysis.Real.Pi.Bounds
/-
The LED spot model: C74, and the recorded centre: C32.
-/
namespace Ledsa

/-- Parameters for which the model is defined (no division by zero). -/
def SpotParams.Regular (p : SpotParams) : Prop := p.dx ≠ 0 ∧ p.dy ≠ 0 ∧ p.wx ≠ 0 ∧ p.wy ≠ 0

/-! ### C74 -/

theorem half_one_sub_tanh (t : ℝ) : 1 / 2 * (1 - Real.tanh t) = 1 / (1 + Real.exp (2 * t)) := by
  rw [Real.tanh_eq]
  have h1 : Real.exp (2 * t) = Real.exp t * Real.exp t := by rw [← Real.exp_add]; ring_nf
  have h2 : Real.exp t * Real.exp (-t) = 1 := by rw [← Real.exp_add]; simp
  have hp := Real.exp_pos t
  have hn := Real.exp_pos (-t)
  rw [h1]
  have e : Real.exp (-t) = 1 / Real.exp t := by field_simp; linarith
  rw [e]
  field_simp
  ring

/-- The model as a logistic function of the distance. -/
theorem ledModel_eq (p : SpotParams) (x y : ℝ) : ledModel p x y = p.a / (1 + Real.exp (2 *
    ((Real.sqrt ((x - p.x0) ^ 2 + (y - p.y0) ^ 2) - ellipseRadius p.dx p.dy (spotPhi p x y)) /
      ellipseRadius p.wx p.wy (spotPhi p x y)))) := by
  unfold ledModel
  simp only
  rw [mul_assoc, half_one_sub_tanh]
  ring

/-- **C74.** For a non-negative amplitude the model lies between 0 and the amplitude (strictly for positive ones). -/
theorem C74_between (p : SpotParams) (x y : ℝ) (ha : 0 ≤ p.a) :
    0 ≤ ledModel p x y ∧ ledModel p x y ≤ p.a ∧ (0 < p.a → 0 < ledModel p x y ∧ ledModel p x y < p.a) := by
  rw [ledModel_eq]
  generalize (2 * ((Real.sqrt ((x - p.x0) ^ 2 + (y - p.y0) ^ 2) - ellipseRadius p.dx p.dy (spotPhi p x y)) /
      ellipseRadius p.wx p.wy (spotPhi p x y))) = t
  have ht := Real.exp_pos t
  refine ⟨by positivity, ?_, fun hp => ⟨by positivity, ?_⟩⟩
  · rw [div_le_iff₀ (by linarith)]; nlinarith
  · rw [div_lt_iff₀ (by linarith)]; nlinarith

/-- **C74.** Half a turn changes nothing. -/
theorem C74_half_turn (p : SpotParams) (x y : ℝ) :
    ledModel { p with alpha := p.alpha + Real.pi } x y = ledModel p x y := by
  have e : ∀ a b : ℝ, ellipseRadius a b (spotPhi { p with alpha := p.alpha + Real.pi } x y) =
      ellipseRadius a b (spotPhi p x y) := by
    intro a b
    have : spotPhi { p with alpha := p.alpha + Real.pi } x y = spotPhi p x y + Real.pi := by
      unfold spotPhi; simp only; ring
    rw [this]
    unfold ellipseRadius
    rw [Real.cos_add_pi, Real.sin_add_pi]
    congr 2
    ring
  unfold ledModel
  simp only [e]

/-- **C74.** Exchanging the two axes and turning by a quarter changes nothing. -/
theorem C74_exchange_axes (p : SpotParams) (x y : ℝ) :
    ledModel { p with alpha := p.alpha + Real.pi / 2, dx := p.dy, dy := p.dx, wx := p.wy, wy := p.wx } x y =
      ledModel p x y := by
  have e : ∀ a b : ℝ, ellipseRadius b a (spotPhi p x y + Real.pi / 2) = ellipseRadius a b (spotPhi p x y) := by
    intro a b
    unfold ellipseRadius
    rw [Real.cos_add_pi_div_two, Real.sin_add_pi_div_two, mul_comm b a]
    congr 2
    ring
  unfold ledModel
  have : spotPhi { p with alpha := p.alpha + Real.pi / 2, dx := p.dy, dy := p.dx, wx := p.wy, wy := p.wx } x y =
      spotPhi p x y + Real.pi / 2 := by
    unfold spotPhi; simp only; ring
  rw [this]
  simp only [e]

/-- **C74.** Half of the amplitude is reached at the ellipse radius in direction `phi`. -/
theorem C74_half_value (p : SpotParams) (x y : ℝ)
    (h : Real.sqrt ((x - p.x0) ^ 2 + (y - p.y0) ^ 2) = ellipseRadius p.dx p.dy (spotPhi p x y)) :
    ledModel p x y = p.a / 2 := by
  unfold ledModel
  simp only [h]
  simp
  ring

/-- Specification: parameters within the limits of the fit. -/
def SpotParams.Within (p : SpotParams) (nx ny : ℝ) : Prop :=
  (0 ≤ p.x0 ∧ p.x0 ≤ nx) ∧ (0 ≤ p.y0 ∧ p.y0 ≤ ny) ∧ (1 ≤ p.dx ∧ 1 ≤ p.dy) ∧
    (1 / 1000 ≤ p.wx ∧ 1 / 1000 ≤ p.wy) ∧ (-(Real.pi / 2) ≤ p.alpha ∧ p.alpha ≤ Real.pi / 2)

theorem penalty_parts (nx ny : ℝ) (p : SpotParams) :
    0 ≤ (if p.x0 < 0 ∨ p.x0 > nx ∨ p.y0 < 0 ∨ p.y0 > ny then 1000 * |p.x0 - nx| + 1000 * |p.y0 - ny| else 0) ∧
    0 ≤ (if p.dx < 1 ∨ p.dy < 1 then 1 / |p.dx| ^ 4 + 1 / |p.dy| ^ 4 else 0) ∧
    0 ≤ (if p.wx < 1 / 1000 ∨ p.wy < 1 / 1000 then
      |p.wx - 1 / 1000| * 1000000 + |p.wy - 1 / 1000| * 1000000 else 0) ∧
    0 ≤ (if |p.alpha| > Real.pi / 2 then (|p.alpha| - Real.pi / 2) * 1000000 else 0) := by
  refine ⟨?_, ?_, ?_, ?_⟩
  · split <;> positivity
  · split <;> positivity
  · split <;> positivity
  · split
    · rename_i h
      have : 0 < |p.alpha| - Real.pi / 2 := by linarith
      positivity
    · exact le_refl _

/-- **C74.** The penalty is never negative. -/
theorem C74_penalty_nonneg (nx ny : ℝ) (p : SpotParams) : 0 ≤ penalty nx ny p := by
  obtain ⟨h1, h2, h3, h4⟩ := penalty_parts nx ny p
  unfold penalty
  linarith

/-- **C74.** The penalty vanishes exactly for parameters within the limits. -/
theorem C74_penalty_zero_iff (nx ny : ℝ) (hnx : 0 ≤ nx) (hny : 0 ≤ ny) (p : SpotParams) (hr : p.Regular) :
    penalty nx ny p = 0 ↔ p.Within nx ny := by
  obtain ⟨h1, h2, h3, h4⟩ := penalty_parts nx ny p
  have hpos : ∀ z : ℝ, z ≠ 0 → 0 < 1 / |z| ^ 4 := by
    intro z hz
    have := abs_pos.2 hz
    positivity
  constructor
  · intro h
    unfold penalty at h
    have e1 := le_antisymm (by linarith) h1
    have e2 := le_antisymm (by linarith) h2
    have e3 := le_antisymm (by linarith) h3
    have e4 := le_antisymm (by linarith) h4
    clear h h1 h2 h3 h4
    refine ⟨?_, ?_, ?_, ?_, ?_⟩
    · by_contra hc
      have hc' : p.x0 < 0 ∨ p.x0 > nx := by
        by_contra h; push Not at h; exact hc h
      rw [if_pos (by tauto)] at e1
      have : 0 < |p.x0 - nx| := by
        rw [abs_pos]; intro h0; rcases hc' with h | h <;> linarith
      have := abs_nonneg (p.y0 - ny)
      linarith
    · by_contra hc
      have hc' : p.y0 < 0 ∨ p.y0 > ny := by
        by_contra h; push Not at h; exact hc h
      rw [if_pos (by tauto)] at e1
      have : 0 < |p.y0 - ny| := by
        rw [abs_pos]; intro h0; rcases hc' with h | h <;> linarith
      have := abs_nonneg (p.x0 - nx)
      linarith
    · by_contra hc
      have hc' : p.dx < 1 ∨ p.dy < 1 := by
        by_contra h; push Not at h; exact hc h
      rw [if_pos hc'] at e2
      have := hpos _ hr.1
      have := hpos _ hr.2.1
      linarith
    · by_contra hc
      have hc' : p.wx < 1 / 1000 ∨ p.wy < 1 / 1000 := by
        by_contra h; push Not at h; exact hc h
      rw [if_pos hc'] at e3
      have n1 := abs_nonneg (p.wx - 1 / 1000)
      have n2 := abs_nonneg (p.wy - 1 / 1000)
      rcases hc' with h | h
      · have : 0 < |p.wx - 1 / 1000| := by rw [abs_pos]; intro h0; linarith
        linarith
      · have : 0 < |p.wy - 1 / 1000| := by rw [abs_pos]; intro h0; linarith
        linarith
    · by_contra hc
      have hc' : |p.alpha| > Real.pi / 2 := by
        by_contra h
        exact hc (abs_le.1 (not_lt.1 h))
      rw [if_pos hc'] at e4
      linarith
  · rintro ⟨a1, a2, a3, a4, a5⟩
    unfold penalty
    rw [if_neg, if_neg, if_neg, if_neg]
    · simp
    · rw [gt_iff_lt, not_lt, abs_le]; exact a5
    · push Not; exact a4
    · push Not; exact a3
    · push Not
      exact ⟨a1.1, a1.2, a2.1, a2.2⟩

/-- **C74.** The cost is never negative, and zero exactly if the model equals the data (set to zero below 5 % of their
maximum) at every pixel and the parameters are within the limits. -/
theorem C74_cost_zero_iff (n : ℕ) (hn : 0 < n) (data : ℕ → ℕ → ℝ) (m : ℝ) (p : SpotParams) (hr : p.Regular) :
    0 ≤ targetFunction n data m p ∧ (targetFunction n data m p = 0 ↔
      (∀ i < n, ∀ j < n, modelPixel p i j = if data i j < m / 20 then 0 else data i j) ∧
        p.Within (n - 1 / 2) (n - 1 / 2)) := by
  have hn' : (1 : ℝ) ≤ n := by exact_mod_cast hn
  have hpen := C74_penalty_nonneg (n - 1 / 2) (n - 1 / 2) p
  have hs : 0 ≤ Real.sqrt (∑ i ∈ Finset.range n, ∑ j ∈ Finset.range n,
      (threshold m (data i j) - modelPixel p i j) ^ 2) / (n * n) := by positivity
  constructor
  · unfold targetFunction; linarith
  · rw [← C74_penalty_zero_iff (n - 1 / 2) (n - 1 / 2) (by linarith) (by linarith) p hr]
    have hnn : ∀ i ∈ Finset.range n, 0 ≤ ∑ j ∈ Finset.range n, (threshold m (data i j) - modelPixel p i j) ^ 2 :=
      fun i _ => Finset.sum_nonneg fun j _ => sq_nonneg _
    have key : Real.sqrt (∑ i ∈ Finset.range n, ∑ j ∈ Finset.range n,
        (threshold m (data i j) - modelPixel p i j) ^ 2) / (n * n) = 0 ↔
        ∀ i < n, ∀ j < n, modelPixel p i j = if data i j < m / 20 then 0 else data i j := by
      rw [div_eq_zero_iff, or_iff_left (by positivity), Real.sqrt_eq_zero (Finset.sum_nonneg hnn),
        Finset.sum_eq_zero_iff_of_nonneg hnn]
      constructor
      · intro h i hi j hj
        have h1 := h i (Finset.mem_range.2 hi)
        rw [Finset.sum_eq_zero_iff_of_nonneg (fun j _ => sq_nonneg _)] at h1
        have h2 := h1 j (Finset.mem_range.2 hj)
        rw [sq_eq_zero_iff] at h2
        unfold threshold at h2
        linarith
      · intro h i hi
        apply Finset.sum_eq_zero
        intro j hj
        rw [h i (Finset.mem_range.1 hi) j (Finset.mem_range.1 hj)]
        simp [threshold]
    rw [← key]
    unfold targetFunction
    constructor
    · intro h
      exact ⟨by linarith, by linarith⟩
    · rintro ⟨h1, h2⟩
      linarith

/-- **C74.** An exact picture of a spot never has cost zero if some pixel is darker than 5 % of the brightest. -/
theorem C74_exact_spot_has_positive_cost (n : ℕ) (hn : 0 < n) (m : ℝ) (p : SpotParams) (hr : p.Regular) (ha : 0 < p.a)
    (i j : ℕ) (hi : i < n) (hj : j < n) (h : modelPixel p i j < m / 20) :
    0 < targetFunction n (modelPixel p) m p := by
  obtain ⟨h0, h1⟩ := C74_cost_zero_iff n hn (modelPixel p) m p hr
  refine lt_of_le_of_ne h0 (fun e => ?_)
  have := (h1.1 e.symm).1 i hi j hj
  rw [if_pos h] at this
  have hpos := ((C74_between p (meshAt i j).1 (meshAt i j).2 ha.le).2.2 ha).1
  unfold modelPixel at this
  linarith

example : SpotParams.Within ⟨5, 5, 2, 2, 200, 1, 1, 1⟩ 9.5 9.5 := by
  have := Real.pi_gt_three
  unfold SpotParams.Within
  norm_num
  constructor <;> linarith

/-! ### C32 -/

/-- Specification: a picture on the plane (row, column) is point symmetric about the given centre. -/
def IsCentre (I : ℝ → ℝ → ℝ) (r c : ℝ) : Prop := ∀ u v, I (r + u) (c + v) = I (r - u) (c - v)

/-- The fitted picture in the coordinates of the search area: first argument row, second column. Pixel `(i, j)` covers
`[i, i+1) × [j, j+1)`, its value is taken in the middle. -/
noncomputable def fittedPicture (p : SpotParams) (row col : ℝ) : ℝ := ledModel p col row

/-- The fitted picture is what the fit compares with the pixels. -/
theorem fittedPicture_pixel (p : SpotParams) (i j : ℕ) :
    fittedPicture p ((i : ℝ) + 1 / 2) ((j : ℝ) + 1 / 2) = modelPixel p i j := rfl

theorem ellipse_neg (a b alpha x y : ℝ) :
    ellipseRadius a b (arctan2 (-y) (-x) + Real.pi + alpha) = ellipseRadius a b (arctan2 y x + Real.pi + alpha) := by
  by_cases h0 : x = 0 ∧ y = 0
  · rw [h0.1, h0.2]; simp
  · have hz : (⟨x, y⟩ : ℂ) ≠ 0 := by
      intro h
      rw [Complex.ext_iff] at h
      exact h0 ⟨h.1, h.2⟩
    have hneg : (⟨-x, -y⟩ : ℂ) = -⟨x, y⟩ := by
      apply Complex.ext <;> simp
    have hc : Real.cos (arctan2 (-y) (-x)) = - Real.cos (arctan2 y x) := by
      unfold arctan2
      rw [hneg, Complex.cos_arg (neg_ne_zero.2 hz), Complex.cos_arg hz, norm_neg]
      simp [neg_div]
    have hs : Real.sin (arctan2 (-y) (-x)) = - Real.sin (arctan2 y x) := by
      unfold arctan2
      rw [hneg, Complex.sin_arg, Complex.sin_arg, norm_neg]
      simp [neg_div]
    unfold ellipseRadius
    rw [add_assoc, add_assoc, Real.cos_add (arctan2 (-y) (-x)), Real.sin_add (arctan2 (-y) (-x)),
      Real.cos_add (arctan2 y x), Real.sin_add (arctan2 y x), hc, hs]
    congr 2
    ring

theorem ellipse_pos {a b : ℝ} (ha : 0 < a) (hb : 0 < b) (phi : ℝ) :
    0 < ellipseRadius a b phi ∧ ellipseRadius a b phi ≤ max a b := by
  have hsq := Real.sin_sq_add_cos_sq phi
  have hm : min a b ≤ Real.sqrt ((a * Real.cos phi) ^ 2 + (b * Real.sin phi) ^ 2) := by
    apply Real.le_sqrt_of_sq_le
    have h0 : 0 ≤ min a b := le_min ha.le hb.le
    have h1 : (min a b) ^ 2 ≤ a ^ 2 := pow_le_pow_left₀ h0 (min_le_left _ _) 2
    have h2 : (min a b) ^ 2 ≤ b ^ 2 := pow_le_pow_left₀ h0 (min_le_right _ _) 2
    rw [mul_pow, mul_pow]
    nlinarith [sq_nonneg (Real.cos phi), sq_nonneg (Real.sin phi)]
  have hmin : 0 < min a b := lt_min ha hb
  unfold ellipseRadius
  constructor
  · have : 0 < Real.sqrt ((a * Real.cos phi) ^ 2 + (b * Real.sin phi) ^ 2) := lt_of_lt_of_le hmin hm
    positivity
  · rw [div_le_iff₀ (lt_of_lt_of_le hmin hm), ← max_mul_min a b]
    exact mul_le_mul_of_nonneg_left hm (le_max_of_le_left ha.le)

/-- Parameters of a proper spot: positive extents and a non-zero amplitude. -/
def SpotParams.Proper (p : SpotParams) : Prop := 0 < p.dx ∧ 0 < p.dy ∧ 0 < p.wx ∧ 0 < p.wy ∧ p.a ≠ 0

/-- **C32.** The fitted picture has exactly one centre: row `y0`, column `x0` of the search area. -/
theorem C32_centre_of_spot (p : SpotParams) (hp : p.Proper) (r c : ℝ) :
    IsCentre (fittedPicture p) r c ↔ r = p.y0 ∧ c = p.x0 := by
  have hsym : IsCentre (fittedPicture p) p.y0 p.x0 := by
    intro u v
    unfold fittedPicture ledModel spotPhi
    simp only [add_sub_cancel_left, sub_sub_cancel_left, ellipse_neg]
    have : Real.sqrt ((-v) ^ 2 + (-u) ^ 2) = Real.sqrt (v ^ 2 + u ^ 2) := by congr 1; ring
    rw [this]
  constructor
  · intro h
    by_contra hne
    -- the picture is invariant under translation by `2 (d, e)`
    obtain ⟨d, hd⟩ : ∃ d, d = r - p.y0 := ⟨_, rfl⟩
    obtain ⟨e, he⟩ : ∃ e, e = c - p.x0 := ⟨_, rfl⟩
    have htrans : ∀ u v, fittedPicture p (p.y0 + u + 2 * d) (p.x0 + v + 2 * e) = fittedPicture p (p.y0 + u) (p.x0 + v) := by
      intro u v
      have h1 := h (u + d) (v + e)
      have h2 := hsym (-u) (-v)
      rw [show r + (u + d) = p.y0 + u + 2 * d by rw [hd]; ring, show c + (v + e) = p.x0 + v + 2 * e by rw [he]; ring,
        show r - (u + d) = p.y0 + -u by rw [hd]; ring, show c - (v + e) = p.x0 + -v by rw [he]; ring] at h1
      rw [h1, h2]
      congr 1 <;> ring
    have hn : ∀ n : ℕ, fittedPicture p (p.y0 + 2 * n * d) (p.x0 + 2 * n * e) = fittedPicture p p.y0 p.x0 := by
      intro n
      induction n with
      | zero => simp
      | succ n ih =>
        rw [← ih, ← htrans (2 * n * d) (2 * n * e)]
        congr 1 <;> (push_cast; ring)
    obtain ⟨hdx, hdy, hwx, hwy, ha⟩ := hp
    have hq : 0 < d ^ 2 + e ^ 2 := by
      by_contra hc
      have h1 : d = 0 := by nlinarith [sq_nonneg d, sq_nonneg e]
      have h2 : e = 0 := by nlinarith [sq_nonneg d, sq_nonneg e]
      apply hne
      constructor <;> linarith
    have hsq : 0 < Real.sqrt (e ^ 2 + d ^ 2) := Real.sqrt_pos.2 (by linarith)
    have hM : 0 < max p.dx p.dy := lt_max_of_lt_left hdx
    have hW : 0 < max p.wx p.wy := lt_max_of_lt_left hwx
    -- all exponents along the translates are the same, but grow without bound
    unfold fittedPicture at hn
    simp only [ledModel_eq] at hn
    generalize hE : Real.exp (2 * ((Real.sqrt ((p.x0 - p.x0) ^ 2 + (p.y0 - p.y0) ^ 2) -
      ellipseRadius p.dx p.dy (spotPhi p p.x0 p.y0)) / ellipseRadius p.wx p.wy (spotPhi p p.x0 p.y0))) = E at hn
    have hEpos : 0 < E := by rw [← hE]; exact Real.exp_pos _
    obtain ⟨n, hnbig⟩ := exists_nat_gt ((max p.dx p.dy + max p.wx p.wy * E) / Real.sqrt (e ^ 2 + d ^ 2))
    have hn' := hn n
    simp only [add_sub_cancel_left] at hn'
    have hr : Real.sqrt ((2 * n * e) ^ 2 + (2 * n * d) ^ 2) = 2 * n * Real.sqrt (e ^ 2 + d ^ 2) := by
      rw [show (2 * (n : ℝ) * e) ^ 2 + (2 * n * d) ^ 2 = (2 * n) ^ 2 * (e ^ 2 + d ^ 2) by ring,
        Real.sqrt_mul (by positivity), Real.sqrt_sq (by positivity)]
    rw [hr] at hn'
    generalize spotPhi p (p.x0 + 2 * ↑n * e) (p.y0 + 2 * ↑n * d) = phi at hn'
    obtain ⟨_, hdr⟩ := ellipse_pos hdx hdy phi
    obtain ⟨hdw0, hdw⟩ := ellipse_pos hwx hwy phi
    have hexp : Real.exp (2 * ((2 * n * Real.sqrt (e ^ 2 + d ^ 2) - ellipseRadius p.dx p.dy phi) /
        ellipseRadius p.wx p.wy phi)) = E := by
      have hpos := Real.exp_pos (2 * ((2 * n * Real.sqrt (e ^ 2 + d ^ 2) - ellipseRadius p.dx p.dy phi) /
        ellipseRadius p.wx p.wy phi))
      have h1 : p.a * (1 + E) = p.a * (1 + Real.exp (2 * ((2 * n * Real.sqrt (e ^ 2 + d ^ 2) -
          ellipseRadius p.dx p.dy phi) / ellipseRadius p.wx p.wy phi))) := by
        rw [div_eq_div_iff (by linarith) (by linarith)] at hn'
        exact hn'
      have := mul_left_cancel₀ ha h1
      linarith
    rw [div_lt_iff₀ hsq] at hnbig
    have hnum : max p.wx p.wy * E ≤ 2 * n * Real.sqrt (e ^ 2 + d ^ 2) - ellipseRadius p.dx p.dy phi := by
      have : 0 ≤ (n : ℝ) * Real.sqrt (e ^ 2 + d ^ 2) := by positivity
      nlinarith
    have hge : E ≤ (2 * n * Real.sqrt (e ^ 2 + d ^ 2) - ellipseRadius p.dx p.dy phi) / ellipseRadius p.wx p.wy phi := by
      rw [le_div_iff₀ hdw0]
      nlinarith
    have hadd := Real.add_one_le_exp (2 * ((2 * n * Real.sqrt (e ^ 2 + d ^ 2) - ellipseRadius p.dx p.dy phi) /
        ellipseRadius p.wx p.wy phi))
    rw [hexp] at hadd
    linarith
  · rintro ⟨rfl, rfl⟩
    exact hsym

/-- **C32, exact law.** If the fitted spot is centred at row `r`, column `c` of the search area at `(X, Y)` with radius
`R`, the image row of the centre is `r + X - R`, but the recorded `led_center_x` is `c + X - R`; columns alike. -/
theorem C32_recorded (p : SpotParams) (hp : p.Proper) (r c : ℝ) (h : IsCentre (fittedPicture p) r c) (X Y : ℝ) (R : ℕ) :
    recordedCentre X Y R p = (c + X - R, r + Y - R) := by
  obtain ⟨rfl, rfl⟩ := (C32_centre_of_spot p hp r c).1 h
  rfl

/-- **C32 refuted, exactly**: the recorded centre is right iff the spot lies on the diagonal of the search area. -/
theorem C32_right_iff (p : SpotParams) (hp : p.Proper) (r c : ℝ) (h : IsCentre (fittedPicture p) r c) (X Y : ℝ) (R : ℕ) :
    recordedCentre X Y R p = (r + X - R, c + Y - R) ↔ r = c := by
  rw [C32_recorded p hp r c h, Prod.mk.injEq]
  constructor
  · rintro ⟨h1, _⟩; linarith
  · rintro rfl; exact ⟨rfl, rfl⟩

/-- **C32 refuted.** -/
theorem C32_false : ¬ ∀ (p : SpotParams), p.Proper → ∀ r c, IsCentre (fittedPicture p) r c → ∀ X Y R,
    recordedCentre X Y R p = (r + X - R, c + Y - R) := by
  intro h
  have hp : SpotParams.Proper ⟨7, 4, 2, 2, 200, 0, 1, 1⟩ := by unfold SpotParams.Proper; norm_num
  have hc := (C32_centre_of_spot ⟨7, 4, 2, 2, 200, 0, 1, 1⟩ hp 4 7).2 ⟨rfl, rfl⟩
  have := (C32_right_iff _ hp 4 7 hc 100 200 5).1 (h _ hp 4 7 hc 100 200 5)
  norm_num at this

end Ledsa
