import Verif.Props.Robust
import Verif.Model.NonlinearRun
import Mathlib.Data.Fin.VecNotation
import Mathlib.Tactic.FinCases

/-!
# What the weights of the solvers do

`lambda_reg` of the linear solver and `weighting_curvature` and `weighting_preference` of the nonlinear solver.
-/

namespace Ledsa

/-- How far the optical depths of a profile are from the measured ones. -/
noncomputable def misfit {m n : ℕ} (A : Fin m → Fin n → ℝ) (rel : Fin m → ℝ) (σ : Fin n → ℝ) : ℝ :=
  ∑ led, (depth σ (A led) - opticalDepth (rel led)) ^ 2

/-- What the regularisation penalises: the bending of the profile, with fewer than three layers the coefficients themselves. -/
noncomputable def roughness {n : ℕ} (σ : Fin n → ℝ) : ℝ := if 3 ≤ n then bending σ else ∑ l, σ l ^ 2

theorem roughness_nonneg {n : ℕ} (σ : Fin n → ℝ) : 0 ≤ roughness σ := by
  unfold roughness
  split
  · exact bending_nonneg σ
  · exact Finset.sum_nonneg fun _ _ => sq_nonneg _

theorem aug_residual_split {m n : ℕ} (A : Fin m → Fin n → ℝ) {lam : ℝ} (hl : 0 ≤ lam) (rel : Fin m → ℝ) (σ : Fin n → ℝ) :
    residual (augMatrix A lam) (augRhs n rel) σ = misfit A rel σ + lam * roughness σ := by
  unfold residual misfit
  rw [Fintype.sum_sum_type]
  congr 1
  have e : ∀ i : Fin (regRows n), (∑ l, augMatrix A lam (.inr i) l * σ l - augRhs n rel (.inr i)) ^ 2 =
      (∑ l, augMatrix A lam (.inr i) l * σ l) ^ 2 := fun i => by simp [augRhs]
  rw [Finset.sum_congr rfl fun i _ => e i]
  unfold roughness
  split
  · rename_i hn
    exact reg_sum A hn hl σ
  · rename_i hn
    have hr : regRows n = n := if_neg hn
    rw [Finset.mul_sum, ← Equiv.sum_comp (finCongr hr)]
    refine Finset.sum_congr rfl fun i _ => ?_
    have : ∑ l, augMatrix A lam (.inr i) l * σ l = Real.sqrt lam * σ (finCongr hr i) := by
      rw [Finset.sum_eq_single (finCongr hr i)]
      · simp [augMatrix, regEntry, hn]
      · intro l _ hne
        have : (i : ℕ) ≠ l := fun h => hne (Fin.ext h.symm)
        simp [augMatrix, regEntry, hn, this]
      · intro h; exact absurd (Finset.mem_univ _) h
    rw [this, mul_pow, Real.sq_sqrt hl]

/-- **C191.** A larger `lambda_reg` gives profiles that bend no more and fit the measured light no better. -/
theorem C191_lambda {m n : ℕ} (hn : 3 ≤ n) (A : Fin m → Fin n → ℝ) {lam lam' : ℝ} (hl : 0 ≤ lam) (hll : lam < lam') (rel : Fin m → ℝ)
    (x x' : Fin n → ℝ) (h : LinearSolution A lam rel x) (h' : LinearSolution A lam' rel x') :
    bending x' ≤ bending x ∧ misfit A rel x ≤ misfit A rel x' := by
  have h1 := h.minimal x' h'.nonneg
  have h2 := h'.minimal x h.nonneg
  rw [aug_residual_split A hl, aug_residual_split A hl] at h1
  rw [aug_residual_split A (hl.trans hll.le), aug_residual_split A (hl.trans hll.le)] at h2
  simp only [roughness, hn, if_true] at h1 h2
  have h3 : (lam' - lam) * bending x' ≤ (lam' - lam) * bending x := by nlinarith
  have h4 := le_of_mul_le_mul_left h3 (by linarith)
  exact ⟨h4, by nlinarith⟩

/-- **C191.** In numbers: the profile bends by no more than the squares of the measured optical depths over `lambda_reg`, so for a
large `lambda_reg` it is nearly linear. -/
theorem C191_nearly_linear {m n : ℕ} (hn : 3 ≤ n) (A : Fin m → Fin n → ℝ) {lam : ℝ} (hl : 0 < lam) (rel : Fin m → ℝ)
    (x : Fin n → ℝ) (h : LinearSolution A lam rel x) : bending x ≤ (∑ led, opticalDepth (rel led) ^ 2) / lam := by
  have h1 := h.minimal 0 (fun _ => le_rfl)
  rw [aug_residual_split A hl.le, aug_residual_split A hl.le] at h1
  simp only [roughness, hn, if_true] at h1
  have e1 : misfit A rel 0 = ∑ led, opticalDepth (rel led) ^ 2 :=
    Finset.sum_congr rfl fun led _ => by rw [depth_zero]; ring
  have e2 : bending (0 : Fin n → ℝ) = 0 := by simp [bending]
  rw [e1, e2] at h1
  have h2 : 0 ≤ misfit A rel x := Finset.sum_nonneg fun _ _ => sq_nonneg _
  rw [le_div_iff₀ hl]
  linarith

/-- **C191.** The price of the smoothing: no non-negative profile fits better by more than `lambda_reg` times its bending; linear
profiles fit no better at all. -/
theorem C191_price {m n : ℕ} (hn : 3 ≤ n) (A : Fin m → Fin n → ℝ) {lam : ℝ} (hl : 0 ≤ lam) (rel : Fin m → ℝ)
    (x : Fin n → ℝ) (h : LinearSolution A lam rel x) (σ : Fin n → ℝ) (hσ : ∀ l, 0 ≤ σ l) :
    misfit A rel x ≤ misfit A rel σ + lam * bending σ ∧ (Affine σ → misfit A rel x ≤ misfit A rel σ) := by
  have h1 := h.minimal σ hσ
  rw [aug_residual_split A hl, aug_residual_split A hl] at h1
  simp only [roughness, hn, if_true] at h1
  have h2 := mul_nonneg hl (bending_nonneg x)
  refine ⟨by linarith, fun ha => ?_⟩
  rw [(bending_eq_zero σ).2 ha] at h1
  linarith

/-- **C191.** With one or two layers `lambda_reg` does something else: a larger one gives smaller coefficients. -/
theorem C191_few_layers {m n : ℕ} (hn : n < 3) (A : Fin m → Fin n → ℝ) {lam lam' : ℝ} (hl : 0 ≤ lam) (hll : lam < lam')
    (rel : Fin m → ℝ) (x x' : Fin n → ℝ) (h : LinearSolution A lam rel x) (h' : LinearSolution A lam' rel x') :
    ∑ l, x' l ^ 2 ≤ ∑ l, x l ^ 2 ∧ misfit A rel x ≤ misfit A rel x' := by
  have h1 := h.minimal x' h'.nonneg
  have h2 := h'.minimal x h.nonneg
  rw [aug_residual_split A hl, aug_residual_split A hl] at h1
  rw [aug_residual_split A (hl.trans hll.le), aug_residual_split A (hl.trans hll.le)] at h2
  simp only [roughness, not_le.2 hn, if_false] at h1 h2
  have h3 : (lam' - lam) * ∑ l, x' l ^ 2 ≤ (lam' - lam) * ∑ l, x l ^ 2 := by nlinarith
  have h4 := le_of_mul_le_mul_left h3 (by linarith)
  exact ⟨h4, by nlinarith⟩

/-- **C191** (refuted for fewer than three layers): with a single layer uniform smoke is not found but less of it; the coefficient is
the true one times `Σ d² / (Σ d² + lambda_reg)`. -/
theorem C191_one_layer_false {m : ℕ} (d : Fin m → ℝ) (hd : ∀ led, 0 ≤ d led) (hpos : ∃ led, 0 < d led) {lam : ℝ} (hl : 0 ≤ lam) (s : ℝ)
    (hs : 0 ≤ s) (hthin : ∀ led, d led * s ≤ 10 * Real.log 10) (x : Fin 1 → ℝ) :
    LinearSolution (fun led _ => d led) lam (calcIntensities (n := 1) (fun led _ => d led) fun _ => s) x ↔
      x 0 = s * ((∑ led, d led ^ 2) / (∑ led, d led ^ 2 + lam)) := by
  set A : Fin m → Fin 1 → ℝ := fun led _ => d led with hA
  set D := ∑ led, d led ^ 2 with hD
  have hDp : 0 < D := by
    obtain ⟨led, h⟩ := hpos
    exact Finset.sum_pos' (fun i _ => sq_nonneg _) ⟨led, Finset.mem_univ _, by positivity⟩
  have ho : ∀ led, opticalDepth (calcIntensities A (fun _ => s) led) = d led * s := by
    intro led
    have : calcIntensities A (fun _ => s) led = Real.exp (-(d led * s)) := by
      simp [calcIntensities, rayIntensity, hA, List.finRange_succ]
      ring_nf
    rw [this]
    exact opticalDepth_exp (mul_nonneg (hd led) hs) (hthin led)
  have hres : ∀ y : Fin 1 → ℝ, residual (augMatrix A lam) (augRhs 1 (calcIntensities A fun _ => s)) y =
      D * (y 0 - s) ^ 2 + lam * y 0 ^ 2 := by
    intro y
    rw [aug_residual_split A hl]
    unfold misfit roughness
    simp only [ho]
    congr 1
    · rw [hD, Finset.sum_mul]
      refine Finset.sum_congr rfl fun led _ => ?_
      simp [depth, hA]
      ring
    · norm_num
  have hq : 0 < D + lam := by linarith
  set c := s * (D / (D + lam)) with hc
  have hcq : c * (D + lam) = s * D := by rw [hc]; field_simp
  have hdiff : ∀ t : ℝ, D * (t - s) ^ 2 + lam * t ^ 2 = D * (c - s) ^ 2 + lam * c ^ 2 + (D + lam) * (t - c) ^ 2 := by
    intro t
    have : (D + lam) * (t - c) ^ 2 = (D + lam) * t ^ 2 - 2 * t * (c * (D + lam)) + c * (c * (D + lam)) := by ring
    rw [this]
    have h2 : D * (c - s) ^ 2 + lam * c ^ 2 = c * (c * (D + lam)) - 2 * c * (s * D) + D * s ^ 2 := by ring
    rw [h2, hcq]
    ring
  constructor
  · intro h
    have h1 := h.minimal (fun _ => c) (fun _ => mul_nonneg hs (by positivity))
    rw [hres, hres, hdiff (x 0)] at h1
    have h2 : (D + lam) * (x 0 - c) ^ 2 ≤ 0 := by linarith
    have h3 : (x 0 - c) ^ 2 ≤ 0 := by
      by_contra hh
      rw [not_le] at hh
      linarith [mul_pos hq hh]
    have := pow_eq_zero_iff two_ne_zero |>.1 (le_antisymm h3 (sq_nonneg _))
    linarith
  · intro hx
    refine ⟨⟨fun l => by rw [Subsingleton.elim l 0, hx]; exact mul_nonneg hs (by positivity), fun y _ => ?_⟩, fun h0 => ?_⟩
    · rw [hres, hres, hdiff (y 0), hx]
      linarith [mul_nonneg hq.le (sq_nonneg (y 0 - c))]
    · have h1 := h0 0
      rw [Fintype.sum_sum_type] at h1
      have e : ∑ led, augMatrix A lam (.inl led) 0 * augRhs 1 (calcIntensities A fun _ => s) (.inl led) = D * s := by
        rw [hD, Finset.sum_mul]
        refine Finset.sum_congr rfl fun led _ => ?_
        simp only [augMatrix, augRhs, ho]
        ring
      rw [e] at h1
      simp only [augRhs, mul_zero, Finset.sum_const_zero, add_zero] at h1
      have hs0 : s = 0 := by
        by_contra hne
        have := mul_pos hDp (lt_of_le_of_ne hs (Ne.symm hne))
        linarith
      ext l
      rw [Subsingleton.elim l 0, hx, hc, hs0]
      simp

/-! ### Nonlinear solver -/

/-- The sum of the absolute second differences of a profile. -/
noncomputable def bends {n : ℕ} (σ : Fin n → ℝ) : ℝ :=
  ∑ i : Fin (n - 2), |σ ⟨i, by omega⟩ - 2 * σ ⟨i + 1, by omega⟩ + σ ⟨i + 2, by omega⟩|

/-- **C191.** With a larger `weighting_curvature` the nonlinear solver gives profiles that bend no more, up to what the stopping of the
solver above the least cost allows. -/
theorem C191_curvature {m n : ℕ} (hm : 0 < m) (A : Fin m → Fin n → ℝ) (o o' : NonlinearOptions) (hw : o.curv < o'.curv)
    (hp : o.pref = o'.pref) (target : Fin m → ℝ) (σ σ' : Fin n → ℝ) (h : NearBest A o target σ) (h' : NearBest A o' target σ') :
    bends σ' ≤ bends σ + (o.tol + o'.tol) / (2 * m * (o'.curv - o.curv)) := by
  have h1 := h.2 σ' h'.1
  have h2 := h'.2 σ h.1
  have e : ∀ w τ, curvature m w τ = w * (2 * m * bends (n := n) τ) := fun w τ => by
    unfold curvature bends secondDiff
    ring
  unfold costFunction at h1 h2
  simp only [e, hp] at h1 h2
  have hm' : (0 : ℝ) < 2 * m * (o'.curv - o.curv) := mul_pos (by positivity) (by linarith)
  rw [← sub_le_iff_le_add', le_div_iff₀ hm']
  nlinarith

/-- **C191.** With a larger `weighting_preference` the sum of the coefficients is no larger, up to the same: negative weights push the
coefficients up, positive ones down. -/
theorem C191_preference {m n : ℕ} (A : Fin m → Fin n → ℝ) (o o' : NonlinearOptions) (hw : o.curv = o'.curv)
    (hp : o.pref < o'.pref) (target : Fin m → ℝ) (σ σ' : Fin n → ℝ) (h : NearBest A o target σ) (h' : NearBest A o' target σ') :
    (∑ l, σ' l) / n ≤ (∑ l, σ l) / n + (o.tol + o'.tol) / (o'.pref - o.pref) := by
  have h1 := h.2 σ' h'.1
  have h2 := h'.2 σ h.1
  unfold costFunction preference at h1 h2
  simp only [hw] at h1 h2
  rw [← sub_le_iff_le_add', le_div_iff₀ (by linarith)]
  nlinarith

-- one layer, one LED one metre of smoke away, `lambda_reg` 1: half of the smoke is found
example (x : Fin 1 → ℝ) : LinearSolution (fun (_ : Fin 1) _ => 1) 1 (calcIntensities (n := 1) (fun (_ : Fin 1) _ => 1) fun _ => 1) x ↔ x 0 = 1 / 2 := by
  have := C191_one_layer_false (m := 1) (fun _ => 1) (fun _ => zero_le_one) ⟨0, one_pos⟩ (lam := 1) zero_le_one 1 zero_le_one (fun _ => by
    have : (1 : ℝ) ≤ Real.log 10 := by
      rw [Real.le_log_iff_exp_le (by norm_num)]
      exact (Real.exp_one_lt_d9.le).trans (by norm_num)
    linarith) x
  rw [this]
  norm_num

-- three LEDs, each seen through one of three layers with smoke in the middle only: without regularisation the profile is found, with
-- any regularisation the profile bends no more than this one
example (lam : ℝ) (hl : 0 < lam) (x : Fin 3 → ℝ) (h : LinearSolution (threeRays 1) lam (calcIntensities (threeRays 1) ![0, 1, 0]) x) :
    bending x ≤ 4 := by
  have hd : (1 : ℝ) ≤ 10 * Real.log 10 := by
    have : (1 : ℝ) ≤ Real.log 10 := by
      rw [Real.le_log_iff_exp_le (by norm_num)]
      exact (Real.exp_one_lt_d9.le).trans (by norm_num)
    linarith
  have h0 : LinearSolution (threeRays 1) 0 (calcIntensities (threeRays 1) ![0, 1, 0]) ![0, 1, 0] := by
    refine (C43_unregularised (threeRays 1) (fun i l => by unfold threeRays; split <;> norm_num) (fun x y _ _ hxy => ?_) _ (fun l => ?_) (fun led => ?_) _).2 rfl
    · ext l
      have := hxy l
      rw [depth_threeRays, depth_threeRays] at this
      linarith
    · fin_cases l <;> norm_num
    · rw [depth_threeRays]
      fin_cases led <;> norm_num <;> linarith
  have := (C191_lambda le_rfl _ le_rfl hl _ _ _ h0 h).1
  refine this.trans (le_of_eq ?_)
  simp [bending]
  norm_num

end Ledsa
