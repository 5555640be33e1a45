import Verif.Model.Rounding
import Verif.Props.Robust
import Mathlib.Analysis.SpecialFunctions.Trigonometric.ArctanDeriv
import Mathlib.Analysis.SpecialFunctions.Trigonometric.Bounds
import Mathlib.Analysis.Calculus.Deriv.MeanValue
import Mathlib.Analysis.Real.Pi.Bounds

/-!
# Relative errors
-/

namespace Ledsa

/-! ### Calculus of `Within` -/

theorem Within.refl (x : ℝ) : Within 0 x x := by unfold Within; simp

theorem Within.nonneg {γ x y : ℝ} (h : Within γ x y) (hy : 0 ≤ y) : 0 ≤ x := le_trans (mul_nonneg hy (Real.exp_pos _).le) h.1

theorem Within.mono {γ δ x y : ℝ} (h : Within γ x y) (hy : 0 ≤ y) (hγ : γ ≤ δ) : Within δ x y :=
  ⟨(mul_le_mul_of_nonneg_left (Real.exp_le_exp.2 (by linarith)) hy).trans h.1,
    h.2.trans (mul_le_mul_of_nonneg_left (Real.exp_le_exp.2 hγ) hy)⟩

theorem Within.symm {γ x y : ℝ} (h : Within γ x y) : Within γ y x := by
  have e : Real.exp (-γ) * Real.exp γ = 1 := by rw [← Real.exp_add]; simp
  constructor
  · calc x * Real.exp (-γ) ≤ y * Real.exp γ * Real.exp (-γ) := mul_le_mul_of_nonneg_right h.2 (Real.exp_pos _).le
      _ = y := by rw [mul_assoc, mul_comm (Real.exp γ), e, mul_one]
  · calc y = y * Real.exp (-γ) * Real.exp γ := by rw [mul_assoc, e, mul_one]
      _ ≤ x * Real.exp γ := mul_le_mul_of_nonneg_right h.1 (Real.exp_pos _).le

theorem Within.add {γ a b c d : ℝ} (h : Within γ a b) (h' : Within γ c d) : Within γ (a + c) (b + d) := by
  constructor
  · rw [add_mul]; exact add_le_add h.1 h'.1
  · rw [add_mul]; exact add_le_add h.2 h'.2

theorem Within.mul {γ δ a b c d : ℝ} (h : Within γ a b) (h' : Within δ c d) (hb : 0 ≤ b) (hd : 0 ≤ d) :
    Within (γ + δ) (a * c) (b * d) := by
  have ha := h.nonneg hb
  have hc := h'.nonneg hd
  constructor
  · rw [neg_add, Real.exp_add]
    calc b * d * (Real.exp (-γ) * Real.exp (-δ)) = (b * Real.exp (-γ)) * (d * Real.exp (-δ)) := by ring
      _ ≤ a * c := mul_le_mul h.1 h'.1 (mul_nonneg hd (Real.exp_pos _).le) ha
  · rw [Real.exp_add]
    calc a * c ≤ (b * Real.exp γ) * (d * Real.exp δ) := mul_le_mul h.2 h'.2 hc (mul_nonneg hb (Real.exp_pos _).le)
      _ = _ := by ring

theorem Within.inv {γ c d : ℝ} (h : Within γ c d) (hd : 0 < d) : Within γ c⁻¹ d⁻¹ := by
  have hc := h.pos hd
  have hs := h.symm
  constructor
  · rw [← div_eq_inv_mul, div_le_iff₀ hd, inv_mul_eq_div, le_div_iff₀ hc]
    rw [mul_comm]
    exact hs.1
  · rw [inv_eq_one_div, div_le_iff₀ hc, mul_assoc, inv_mul_eq_div, le_div_iff₀ hd, one_mul, mul_comm]
    exact hs.2

theorem Within.div {γ δ a b c d : ℝ} (h : Within γ a b) (h' : Within δ c d) (hb : 0 ≤ b) (hd : 0 < d) :
    Within (γ + δ) (a / c) (b / d) := by
  rw [div_eq_mul_inv, div_eq_mul_inv]
  exact h.mul (h'.inv hd) hb (inv_nonneg.2 hd.le)

theorem Within.sqrt {γ a b : ℝ} (h : Within γ a b) (hb : 0 ≤ b) : Within (γ / 2) (Real.sqrt a) (Real.sqrt b) := by
  have e : ∀ t : ℝ, Real.sqrt (b * Real.exp t) = Real.sqrt b * Real.exp (t / 2) := by
    intro t
    rw [Real.sqrt_mul hb, Real.exp_half]
  constructor
  · rw [show -(γ / 2) = -γ / 2 by ring, ← e]; exact Real.sqrt_le_sqrt h.1
  · rw [← e]; exact Real.sqrt_le_sqrt h.2

theorem Within.sum {ι : Type} (s : Finset ι) {γ : ℝ} {f g : ι → ℝ} (h : ∀ i ∈ s, Within γ (f i) (g i)) :
    Within γ (∑ i ∈ s, f i) (∑ i ∈ s, g i) := by
  constructor
  · rw [Finset.sum_mul]; exact Finset.sum_le_sum fun i hi => (h i hi).1
  · rw [Finset.sum_mul]; exact Finset.sum_le_sum fun i hi => (h i hi).2

theorem Within.zero_iff {γ x y : ℝ} (h : Within γ x y) : x = 0 ↔ y = 0 := by
  have e1 := Real.exp_pos (-γ)
  have e2 := Real.exp_pos γ
  obtain ⟨h1, h2⟩ := h
  constructor
  · rintro rfl
    apply le_antisymm
    · exact nonpos_of_mul_nonpos_left h1 e1
    · exact nonneg_of_mul_nonneg_left h2 e2
  · rintro rfl
    simp only [zero_mul] at h1 h2
    exact le_antisymm h2 h1

/-- A relative error as a factor. -/
theorem within_of_err {u x y : ℝ} (hu : 0 ≤ u) (hu' : u ≤ 1 / 2) (hy : 0 ≤ y) (h : |x - y| ≤ u * y) : Within (2 * u) x y := by
  obtain ⟨h1, h2⟩ := abs_le.1 h
  have e1 := Real.add_one_le_exp (2 * u)
  have e2 : Real.exp (-(2 * u)) ≤ 1 - u := by
    rw [Real.exp_neg, inv_le_comm₀ (Real.exp_pos _) (by linarith)]
    refine le_trans ?_ e1
    rw [inv_le_iff_one_le_mul₀ (by linarith)]
    nlinarith
  constructor
  · nlinarith
  · nlinarith

theorem within_abs {u x y : ℝ} (hu : 0 ≤ u) (hu' : u ≤ 1 / 2) (h : |x - y| ≤ u * |y|) : Within (2 * u) |x| |y| :=
  within_of_err hu hu' (abs_nonneg y) ((abs_abs_sub_abs_le x y).trans h)

/-- A factor as a relative error. -/
theorem Within.err {γ x y : ℝ} (h : Within γ x y) (hy : 0 ≤ y) (h0 : 0 ≤ γ) (h1 : γ ≤ 1 / 10) : |x - y| ≤ 12 / 10 * γ * y := by
  obtain ⟨h2, h3⟩ := h
  have e1 := Real.add_one_le_exp (-γ)
  have e2 : Real.exp γ ≤ 1 + 12 / 10 * γ := by
    have := Real.exp_bound_div_one_sub_of_interval h0 (by linarith)
    refine this.trans ?_
    rw [div_le_iff₀ (by linarith)]
    nlinarith
  rw [abs_le]
  constructor <;> nlinarith

/-! ### Elementary functions -/

theorem arctan_mul_le {c t : ℝ} (hc : 1 ≤ c) (ht : 0 ≤ t) : Real.arctan (c * t) ≤ c * Real.arctan t := by
  have hder : ∀ x : ℝ, HasDerivAt (fun t => c * Real.arctan t - Real.arctan (c * t))
      (c * (1 / (1 + x ^ 2)) - 1 / (1 + (c * x) ^ 2) * (c * 1)) x := fun x =>
    ((Real.hasDerivAt_arctan x).const_mul c).sub (((hasDerivAt_id x).const_mul c).arctan)
  have hmono : MonotoneOn (fun t => c * Real.arctan t - Real.arctan (c * t)) (Set.Ici 0) := by
    apply monotoneOn_of_deriv_nonneg (convex_Ici 0)
    · fun_prop
    · exact fun x _ => (hder x).differentiableAt.differentiableWithinAt
    · intro x hx
      rw [interior_Ici] at hx
      have hx' : 0 < x := hx
      rw [(hder x).deriv, mul_one]
      have h2 : 1 / (1 + (c * x) ^ 2) ≤ 1 / (1 + x ^ 2) := by
        apply one_div_le_one_div_of_le (by positivity)
        have : x ≤ c * x := by nlinarith
        nlinarith
      nlinarith
  have := hmono (Set.mem_Ici.2 le_rfl) (Set.mem_Ici.2 ht) ht
  simp only [Real.arctan_zero, mul_zero, sub_zero] at this
  linarith

theorem Within.arctan {γ s t : ℝ} (h : Within γ s t) (ht : 0 ≤ t) (hγ : 0 ≤ γ) : Within γ (Real.arctan s) (Real.arctan t) := by
  have e1 : 1 ≤ Real.exp γ := Real.one_le_exp hγ
  have e2 : Real.exp γ * Real.exp (-γ) = 1 := by rw [← Real.exp_add]; simp
  constructor
  · have h1 := arctan_mul_le e1 (mul_nonneg ht (Real.exp_pos (-γ)).le)
    rw [show Real.exp γ * (t * Real.exp (-γ)) = t * (Real.exp γ * Real.exp (-γ)) by ring, e2, mul_one] at h1
    have h2 := Real.arctan_le_arctan_iff.2 h.1
    have h3 := Real.exp_pos (-γ)
    calc Real.arctan t * Real.exp (-γ) ≤ Real.exp γ * Real.arctan (t * Real.exp (-γ)) * Real.exp (-γ) :=
          mul_le_mul_of_nonneg_right h1 h3.le
      _ = Real.arctan (t * Real.exp (-γ)) * (Real.exp γ * Real.exp (-γ)) := by ring
      _ ≤ Real.arctan s := by rw [e2, mul_one]; exact h2
  · have h1 := arctan_mul_le e1 ht
    have h2 := Real.arctan_le_arctan_iff.2 h.2
    rw [mul_comm] at h1
    rw [mul_comm (Real.arctan t)]
    exact h2.trans h1

theorem Within.sin {γ a b : ℝ} (h : Within γ a b) (hb : 0 ≤ b) (hb' : b ≤ Real.pi / 2) (h0 : 0 ≤ γ) (h1 : γ ≤ 1 / 20) :
    Within (2 * γ) (Real.sin a) (Real.sin b) := by
  have hs : 0 ≤ Real.sin b := Real.sin_nonneg_of_nonneg_of_le_pi hb (by linarith [Real.pi_pos])
  have e2 : Real.exp γ ≤ 1 + 106 / 100 * γ := by
    have := Real.exp_bound_div_one_sub_of_interval h0 (by linarith)
    refine this.trans ?_
    rw [div_le_iff₀ (by linarith)]
    nlinarith
  have hab : |a - b| ≤ 106 / 100 * γ * b := by
    have e1 := Real.add_one_le_exp (-γ)
    rw [abs_le]
    constructor <;> nlinarith [h.1, h.2]
  have hj : b ≤ 16 / 10 * Real.sin b := by
    have := Real.mul_le_sin hb hb'
    have hp := Real.pi_lt_d2
    have hp0 := Real.pi_pos
    rw [div_mul_eq_mul_div, div_le_iff₀ hp0] at this
    nlinarith
  have hd : |Real.sin a - Real.sin b| ≤ 17 / 10 * γ * Real.sin b := by
    have h2 : |Real.sin a - Real.sin b| ≤ |a - b| := Real.abs_sin_sub_sin_le a b
    refine h2.trans (hab.trans ?_)
    nlinarith
  obtain ⟨g1, g2⟩ := abs_le.1 hd
  have e3 := Real.add_one_le_exp (2 * γ)
  have e4 : Real.exp (-(2 * γ)) ≤ 1 - 17 / 10 * γ := by
    rw [Real.exp_neg, inv_le_comm₀ (Real.exp_pos _) (by linarith)]
    refine le_trans ?_ e3
    rw [inv_le_iff_one_le_mul₀ (by linarith)]
    nlinarith
  constructor
  · nlinarith
  · nlinarith

end Ledsa
