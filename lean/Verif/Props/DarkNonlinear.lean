import Verif.Props.DarkLeds
import Verif.Props.NonlinearUnit

/-!
# An LED that fails, with the nonlinear solver (C182)
-/

namespace Ledsa

/-- **C182, nonlinear solver, an LED that fails**: the light of the other LEDs is fitted up to the light that the failed LED would have
(and the weights and the tolerance of the solver allow). -/
theorem C182_nonlinear_others {m n : ℕ} (hm : 0 < m) (A : Fin m → Fin n → ℝ) (o : NonlinearOptions) (hc : 0 ≤ o.curv) (hp : 0 ≤ o.pref)
    (smoke : Fin n → ℝ) (hs : InBounds smoke) (f : Fin m) (σ : Fin n → ℝ)
    (h : NearBest A o (fun i => if i = f then 0 else calcIntensities A smoke i) σ) (i : Fin m) (hi : i ≠ f) :
    |calcIntensities A σ i - calcIntensities A smoke i| ≤
      calcIntensities A smoke f + m * (curvature m o.curv smoke + preference o.pref smoke + o.tol) := by
  have hm' : (0 : ℝ) < m := by exact_mod_cast hm
  have hpos : 0 ≤ calcIntensities A smoke f := by rw [C42_beer_lambert]; positivity
  have h1 := h.2 smoke hs
  have e : ∑ led, (calcIntensities A smoke led - if led = f then 0 else calcIntensities A smoke led) ^ 2 = calcIntensities A smoke f ^ 2 := by
    rw [Finset.sum_eq_single f]
    · simp
    · intro b _ hb; simp [hb]
    · intro hh; exact absurd (Finset.mem_univ _) hh
  have h2 : rmse A (fun i => if i = f then 0 else calcIntensities A smoke i) smoke = calcIntensities A smoke f / m := by
    unfold rmse
    rw [e, Real.sqrt_sq hpos]
  have h3 : |calcIntensities A σ i - calcIntensities A smoke i| / m ≤ rmse A (fun i => if i = f then 0 else calcIntensities A smoke i) σ := by
    unfold rmse
    refine div_le_div_of_nonneg_right ?_ hm'.le
    rw [← Real.sqrt_sq_eq_abs]
    refine Real.sqrt_le_sqrt ?_
    have := Finset.single_le_sum (f := fun led => (calcIntensities A σ led - if led = f then 0 else calcIntensities A smoke led) ^ 2)
      (fun _ _ => sq_nonneg _) (Finset.mem_univ i)
    simpa [hi] using this
  have h4 : 0 ≤ curvature m o.curv σ := by
    unfold curvature
    have := Finset.sum_nonneg fun (k : Fin (n - 2)) (_ : k ∈ Finset.univ) => abs_nonneg (secondDiff σ k)
    positivity
  have h5 : 0 ≤ preference o.pref σ := by
    unfold preference
    have := Finset.sum_nonneg fun (k : Fin n) (_ : k ∈ Finset.univ) => (h.1 k).1
    positivity
  unfold costFunction at h1
  rw [h2] at h1
  have h6 : |calcIntensities A σ i - calcIntensities A smoke i| / m ≤
      calcIntensities A smoke f / m + (curvature m o.curv smoke + preference o.pref smoke + o.tol) := by linarith
  rw [div_le_iff₀ hm'] at h6
  have e2 : (calcIntensities A smoke f / m + (curvature m o.curv smoke + preference o.pref smoke + o.tol)) * m =
      calcIntensities A smoke f + m * (curvature m o.curv smoke + preference o.pref smoke + o.tol) := by
    field_simp
  linarith

/-- `k + 1` LEDs behind one layer, each at the distance `d`. -/
def sameRays (k : ℕ) (d : ℝ) : Fin (k + 1) → Fin 1 → ℝ := fun _ _ => d

theorem sameRays_cost (k : ℕ) (hk : 1 ≤ k) (d w : ℝ) (σ : Fin 1 → ℝ) :
    costFunction (sameRays k d) w 0 (fun i => if i = 0 then 0 else 1) σ =
      Real.sqrt ((k + 1) * (Real.exp (-(d * σ 0)) - k / (k + 1)) ^ 2 + k / (k + 1)) / ((k + 1 : ℕ) : ℝ) := by
  have hk' : (0 : ℝ) < k + 1 := by positivity
  have e1 : curvature (k + 1) w σ = 0 := by
    unfold curvature
    simp
  have e2 : preference 0 σ = 0 := by simp [preference]
  unfold costFunction
  rw [e1, e2, add_zero, add_zero]
  unfold rmse
  congr 2
  have e3 : ∀ led, calcIntensities (sameRays k d) σ led = Real.exp (-(d * σ 0)) := by
    intro led
    rw [C42_beer_lambert]
    simp [sameRays, mul_comm]
  simp only [e3]
  rw [Fin.sum_univ_succ]
  simp only [if_true, Fin.succ_ne_zero, if_false, Finset.sum_const, Finset.card_univ, Fintype.card_fin, nsmul_eq_mul]
  field_simp
  ring

/-- **C182 refuted for the nonlinear solver too**: of `k + 1` LEDs that are seen through the same length `d` of clear air, one fails. The
only result of the exact solver without preference for little smoke is `ln ((k + 1) / k) / d`, which is not zero. -/
theorem C182_nonlinear_false (k : ℕ) (hk : 1 ≤ k) (d : ℝ) (hd : 0 < d) (hthick : Real.log ((k + 1) / k) / d ≤ 10) (w : ℝ) (σ : Fin 1 → ℝ) :
    (NearBest (sameRays k d) ⟨w, 0, 0⟩ (fun i => if i = 0 then 0 else 1) σ ↔ σ 0 = Real.log ((k + 1) / k) / d) ∧
      0 < Real.log (((k : ℝ) + 1) / k) / d := by
  have hk0 : (0 : ℝ) < k := by exact_mod_cast hk
  have hk1 : (0 : ℝ) < k + 1 := by positivity
  have hgt : 1 < ((k : ℝ) + 1) / k := by rw [lt_div_iff₀ hk0]; linarith
  have hpos : 0 < Real.log (((k : ℝ) + 1) / k) / d := div_pos (Real.log_pos hgt) hd
  set s := Real.log (((k : ℝ) + 1) / k) / d with hsdef
  have hes : Real.exp (-(d * s)) = k / (k + 1) := by
    rw [hsdef, mul_div_cancel₀ _ hd.ne', Real.exp_neg, Real.exp_log (by positivity), inv_div]
  have hbest : ∀ τ : Fin 1 → ℝ, Real.sqrt ((k : ℝ) / (k + 1)) / ((k + 1 : ℕ) : ℝ) ≤
      costFunction (sameRays k d) w 0 (fun i => if i = 0 then 0 else 1) τ := by
    intro τ
    rw [sameRays_cost k hk]
    refine div_le_div_of_nonneg_right (Real.sqrt_le_sqrt ?_) (by positivity)
    have := mul_nonneg hk1.le (sq_nonneg (Real.exp (-(d * τ 0)) - k / (k + 1)))
    linarith
  have hval : costFunction (sameRays k d) w 0 (fun i => if i = 0 then 0 else 1) (fun _ => s) = Real.sqrt ((k : ℝ) / (k + 1)) / ((k + 1 : ℕ) : ℝ) := by
    rw [sameRays_cost k hk, hes]
    simp
  refine ⟨⟨fun h => ?_, fun h => ?_⟩, hpos⟩
  · have h1 := h.2 (fun _ => s) fun _ => ⟨hpos.le, hthick⟩
    simp only [add_zero] at h1
    rw [hval, sameRays_cost k hk, div_le_div_iff_of_pos_right (by positivity)] at h1
    have h2 := (Real.sqrt_le_sqrt_iff (by positivity)).1 h1
    have h3 : (Real.exp (-(d * σ 0)) - k / (k + 1)) ^ 2 ≤ 0 := by
      by_contra hc
      have := mul_pos hk1 (not_le.1 hc)
      linarith
    have h4 : Real.exp (-(d * σ 0)) = k / (k + 1) := by
      have := pow_eq_zero_iff (two_ne_zero) |>.1 (le_antisymm h3 (sq_nonneg _))
      linarith
    rw [← hes] at h4
    have := Real.exp_injective h4
    have : d * σ 0 = d * s := by linarith
    exact mul_left_cancel₀ hd.ne' this
  · have e : σ = fun _ => s := by
      funext l
      rw [Subsingleton.elim l 0]
      exact h
    rw [e]
    refine ⟨fun _ => ⟨hpos.le, hthick⟩, fun τ _ => ?_⟩
    simp only [add_zero]
    rw [hval]
    exact hbest τ

/-- One of two LEDs at one metre fails: the nonlinear solver reports `ln 2` per metre in clear air. -/
example (σ : Fin 1 → ℝ) : NearBest (sameRays 1 1) ⟨1 / 10 ^ 6, 0, 0⟩ (fun i => if i = 0 then 0 else 1) σ ↔ σ 0 = Real.log 2 := by
  have h : Real.log 2 ≤ 10 := by
    have := Real.log_two_lt_d9
    linarith
  have := (C182_nonlinear_false 1 le_rfl 1 one_pos (by norm_num; exact h) (1 / 10 ^ 6) σ).1
  norm_num at this ⊢
  exact this

end Ledsa
