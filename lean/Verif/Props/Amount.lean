import Verif.Props.Unseen
import Verif.Props.DenserSmoke

/-!
# The amount of smoke

The regularisation spreads smoke over neighbouring layers. Does it add smoke or take some away?
-/

namespace Ledsa

/-- The difference between the optical depths through the reported smoke and the measured ones, each LED weighted with the depth that the profile
`τ` has for it. For `τ = 1` the weights are the lengths of the rays. -/
noncomputable def surplus {m n : ℕ} (A : Fin m → Fin n → ℝ) (rel : Fin m → ℝ) (τ x : Fin n → ℝ) : ℝ :=
  ∑ led, depth τ (A led) * (depth x (A led) - opticalDepth (rel led))

theorem depth_step {n : ℕ} (x τ d : Fin n → ℝ) (ε : ℝ) : depth (fun l => x l + ε * τ l) d = depth x d + ε * depth τ d := by
  unfold depth
  rw [Finset.mul_sum, ← Finset.sum_add_distrib]
  exact Finset.sum_congr rfl fun l _ => by ring

theorem misfit_step {m n : ℕ} (A : Fin m → Fin n → ℝ) (rel : Fin m → ℝ) (x τ : Fin n → ℝ) (ε : ℝ) :
    misfit A rel (fun l => x l + ε * τ l) = misfit A rel x + 2 * ε * surplus A rel τ x + ε ^ 2 * ∑ led, depth τ (A led) ^ 2 := by
  unfold misfit surplus
  simp only [depth_step]
  rw [Finset.mul_sum, Finset.mul_sum, ← Finset.sum_add_distrib, ← Finset.sum_add_distrib]
  exact Finset.sum_congr rfl fun led _ => by ring

theorem bending_step {n : ℕ} (x τ : Fin n → ℝ) (hτ : Affine τ) (ε : ℝ) : bending (fun l => x l + ε * τ l) = bending x := by
  obtain ⟨a, b, h⟩ := hτ
  unfold bending
  refine Finset.sum_congr rfl fun i _ => ?_
  congr 1
  simp only [h]
  push_cast
  ring

theorem step_nonneg {g q : ℝ} (hq : 0 ≤ q) (s : ℝ) (hs : 0 < s) (h : ∀ ε, 0 < ε → ε ≤ s → 0 ≤ 2 * ε * g + ε ^ 2 * q) : 0 ≤ g := by
  by_contra hg
  have hg' : g < 0 := not_le.1 hg
  have hq1 : 0 < q + 1 := by linarith
  set ε := min s (-g / (q + 1)) with hε
  have h0 : 0 < ε := lt_min hs (div_pos (by linarith) hq1)
  have h1 := h ε h0 (min_le_left _ _)
  have h2 : ε * (q + 1) ≤ -g := by
    have := min_le_right s (-g / (q + 1))
    rw [← hε, le_div_iff₀ hq1] at this
    exact this
  nlinarith

/-- **C196** (partial): with three layers or more the linear analysis does not lose smoke. For every straight profile `τ` the weighted sum of
the optical depths through the reported smoke is at least the measured one. -/
theorem C196_not_lost {m n : ℕ} (hn : 3 ≤ n) (A : Fin m → Fin n → ℝ) {lam : ℝ} (hl : 0 ≤ lam) (rel : Fin m → ℝ) (x : Fin n → ℝ)
    (h : LinearSolution A lam rel x) (τ : Fin n → ℝ) (hτ : Affine τ) (h0 : ∀ l, 0 ≤ τ l) : 0 ≤ surplus A rel τ x := by
  refine step_nonneg (q := ∑ led, depth τ (A led) ^ 2) (Finset.sum_nonneg fun led _ => sq_nonneg (depth τ (A led))) 1 one_pos fun ε hε _ => ?_
  have h1 := h.minimal (fun l => x l + ε * τ l) fun l => add_nonneg (h.nonneg l) (mul_nonneg hε.le (h0 l))
  rw [aug_residual_split A hl, aug_residual_split A hl] at h1
  simp only [roughness, hn, if_true] at h1
  rw [misfit_step, bending_step x τ hτ] at h1
  linarith

/-- **C196**: if smoke is reported in every layer, the amount is exactly the measured one, for every straight profile as weight. -/
theorem C196_amount_partial {m n : ℕ} (hn : 3 ≤ n) (A : Fin m → Fin n → ℝ) {lam : ℝ} (hl : 0 ≤ lam) (rel : Fin m → ℝ) (x : Fin n → ℝ)
    (h : LinearSolution A lam rel x) (hx : ∀ l, 0 < x l) (τ : Fin n → ℝ) (hτ : Affine τ) : surplus A rel τ x = 0 := by
  have hex : ∃ s : ℝ, 0 < s ∧ ∀ l, s * |τ l| ≤ x l := by
    have : Nonempty (Fin n) := ⟨⟨0, by omega⟩⟩
    obtain ⟨l0, h0⟩ := Finite.exists_min x
    set T := ∑ l, |τ l| with hT
    have hT0 : 0 ≤ T := Finset.sum_nonneg fun _ _ => abs_nonneg _
    refine ⟨x l0 / (T + 1), div_pos (hx l0) (by linarith), fun l => ?_⟩
    have h1 : |τ l| ≤ T := Finset.single_le_sum (f := fun l => |τ l|) (fun _ _ => abs_nonneg _) (Finset.mem_univ l)
    rw [div_mul_eq_mul_div, div_le_iff₀ (by linarith)]
    have h2 := h0 l
    have h3 := hx l0
    calc x l0 * |τ l| ≤ x l0 * (T + 1) := mul_le_mul_of_nonneg_left (by linarith) h3.le
      _ ≤ x l * (T + 1) := mul_le_mul_of_nonneg_right h2 (by linarith)
  obtain ⟨s, hs, hsl⟩ := hex
  have key : ∀ δ : ℝ, |δ| ≤ s → 0 ≤ 2 * δ * surplus A rel τ x + δ ^ 2 * ∑ led, depth τ (A led) ^ 2 := by
    intro δ hδ
    have h1 := h.minimal (fun l => x l + δ * τ l) fun l => by
      have h2 := neg_abs_le (δ * τ l)
      rw [abs_mul] at h2
      have h3 := mul_le_mul_of_nonneg_right hδ (abs_nonneg (τ l))
      have h4 := hsl l
      show 0 ≤ x l + δ * τ l
      linarith
    rw [aug_residual_split A hl, aug_residual_split A hl] at h1
    simp only [roughness, hn, if_true] at h1
    rw [misfit_step, bending_step x τ hτ] at h1
    linarith
  have hq : 0 ≤ ∑ led, depth τ (A led) ^ 2 := Finset.sum_nonneg fun led _ => sq_nonneg _
  have h1 := step_nonneg hq s hs fun ε hε hεs => key ε (by rwa [abs_of_pos hε])
  have h2 := step_nonneg (g := -surplus A rel τ x) hq s hs fun ε hε hεs => by
    have := key (-ε) (by rwa [abs_neg, abs_of_pos hε])
    have e : 2 * -ε * surplus A rel τ x = 2 * ε * -surplus A rel τ x := by ring
    rw [e, neg_sq] at this
    exact this
  linarith

/-- **C196, darker photos**: if all LEDs are darker and smoke is reported in every layer in both photos, the amount is not smaller. -/
theorem C196_darker {m n : ℕ} (hn : 3 ≤ n) (A : Fin m → Fin n → ℝ) (hA : ∀ i l, 0 ≤ A i l) {lam : ℝ} (hl : 0 ≤ lam) (rel rel' : Fin m → ℝ)
    (hrel : ∀ i, rel' i ≤ rel i) (x x' : Fin n → ℝ) (h : LinearSolution A lam rel x) (h' : LinearSolution A lam rel' x') (hx : ∀ l, 0 < x l)
    (τ : Fin n → ℝ) (hτ : Affine τ) (h0 : ∀ l, 0 ≤ τ l) :
    ∑ led, depth τ (A led) * depth x (A led) ≤ ∑ led, depth τ (A led) * depth x' (A led) := by
  have h1 := C196_amount_partial hn A hl rel x h hx τ hτ
  have h2 := C196_not_lost hn A hl rel' x' h' τ hτ h0
  unfold surplus at h1 h2
  have h3 : ∑ led, depth τ (A led) * opticalDepth (rel led) ≤ ∑ led, depth τ (A led) * opticalDepth (rel' led) :=
    Finset.sum_le_sum fun led _ => mul_le_mul_of_nonneg_left (opticalDepth_anti (hrel led)) (depth_nonneg h0 (hA led))
  simp only [mul_sub, Finset.sum_sub_distrib] at h1 h2
  linarith

/-- **C196, one or two layers**: here the regularisation takes smoke away. Weighted with the reported depths, what is missing is `lambda_reg`
times the sum of squares of the coefficients. -/
theorem C196_few_layers {m n : ℕ} (hn : n < 3) (A : Fin m → Fin n → ℝ) {lam : ℝ} (hl : 0 ≤ lam) (rel : Fin m → ℝ) (x : Fin n → ℝ)
    (h : LinearSolution A lam rel x) : surplus A rel x x = -(lam * ∑ l, x l ^ 2) := by
  have key : ∀ δ : ℝ, |δ| ≤ 1 →
      0 ≤ 2 * δ * (surplus A rel x x + lam * ∑ l, x l ^ 2) + δ ^ 2 * (∑ led, depth x (A led) ^ 2 + lam * ∑ l, x l ^ 2) := by
    intro δ hδ
    have h1 := h.minimal (fun l => x l + δ * x l) fun l => by
      have h2 := h.nonneg l
      have h3 := neg_le_of_abs_le hδ
      show 0 ≤ x l + δ * x l
      nlinarith
    rw [aug_residual_split A hl, aug_residual_split A hl] at h1
    simp only [roughness, not_le.2 hn, if_false] at h1
    rw [misfit_step] at h1
    have e : ∑ l, (x l + δ * x l) ^ 2 = ∑ l, x l ^ 2 + 2 * δ * ∑ l, x l ^ 2 + δ ^ 2 * ∑ l, x l ^ 2 := by
      rw [Finset.mul_sum, Finset.mul_sum, ← Finset.sum_add_distrib, ← Finset.sum_add_distrib]
      exact Finset.sum_congr rfl fun l _ => by ring
    rw [e] at h1
    linarith
  have hq : 0 ≤ ∑ led, depth x (A led) ^ 2 + lam * ∑ l, x l ^ 2 :=
    add_nonneg (Finset.sum_nonneg fun led _ => sq_nonneg _) (mul_nonneg hl (Finset.sum_nonneg fun l _ => sq_nonneg _))
  have h1 := step_nonneg hq 1 one_pos fun ε hε hεs => key ε (by rwa [abs_of_pos hε])
  have h2 := step_nonneg (g := -(surplus A rel x x + lam * ∑ l, x l ^ 2)) hq 1 one_pos fun ε hε hεs => by
    have := key (-ε) (by rwa [abs_neg, abs_of_pos hε])
    rw [neg_sq] at this
    linarith
  linarith

/-- **C196, level rays**: each LED at the height of its own layer, all rays of the same length. If smoke is reported in every layer, the sum of the
coefficients and the height of their centre are those of the smoke in the room. -/
theorem C196_centre {n : ℕ} (hn : 3 ≤ n) {len : ℝ} (hlen : 0 < len) {lam : ℝ} (hl : 0 ≤ lam) (s : Fin n → ℝ) (h0 : ∀ l, 0 ≤ s l)
    (h1 : ∀ l, s l * len ≤ 10 * Real.log 10) (x : Fin n → ℝ) (hx : ∀ l, 0 < x l)
    (h : LinearSolution (fun i l => if i = l then len else 0) lam (calcIntensities (fun (i l : Fin n) => if i = l then len else 0) s) x) :
    ∑ l, x l = ∑ l, s l ∧ ∑ l : Fin n, ((l : ℕ) : ℝ) * x l = ∑ l : Fin n, ((l : ℕ) : ℝ) * s l := by
  have hd : ∀ (σ : Fin n → ℝ) (i : Fin n), depth σ (fun l => if i = l then len else 0) = σ i * len := by
    intro σ i
    unfold depth
    simp [mul_comm]
  have hop : ∀ i, opticalDepth (calcIntensities (fun (i l : Fin n) => if i = l then len else 0) s i) = s i * len := by
    intro i
    rw [intensities_depth, hd]
    exact opticalDepth_exp (mul_nonneg (h0 i) hlen.le) (h1 i)
  have key : ∀ τ : Fin n → ℝ, Affine τ → ∑ l, τ l * x l = ∑ l, τ l * s l := by
    intro τ hτ
    have := C196_amount_partial hn _ hl _ x h hx τ hτ
    unfold surplus at this
    simp only [hd, hop] at this
    have e : ∑ i, τ i * len * (x i * len - s i * len) = len ^ 2 * (∑ l, τ l * x l - ∑ l, τ l * s l) := by
      rw [← Finset.sum_sub_distrib, Finset.mul_sum]
      exact Finset.sum_congr rfl fun i _ => by ring
    rw [e] at this
    rcases mul_eq_zero.1 this with h | h
    · exact absurd h (pow_pos hlen 2).ne'
    · linarith
  refine ⟨?_, key (fun l => ((l : ℕ) : ℝ)) ⟨0, 1, fun _ => by simp⟩⟩
  have := key (fun _ => 1) ⟨1, 0, fun _ => by simp⟩
  simpa using this

/-! ### Refutations -/

/-- The claim: the amount is always the measured one. -/
def AmountKept : Prop := ∀ (m n : ℕ) (A : Fin m → Fin n → ℝ) (lam : ℝ) (rel : Fin m → ℝ) (x : Fin n → ℝ), 3 ≤ n → (∀ i l, 0 ≤ A i l) → 0 < lam →
  LinearSolution A lam rel x → surplus A rel (fun _ => 1) x = 0

/-- The claim: more smoke in the room gives coefficients that are not smaller in any layer. -/
def MoreSmokeShowsMore : Prop := ∀ (m n : ℕ) (A : Fin m → Fin n → ℝ) (lam : ℝ) (s s' : Fin n → ℝ) (x x' : Fin n → ℝ), 3 ≤ n →
  (∀ i l, 0 ≤ A i l) → 0 < lam → (∀ l, 0 ≤ s l ∧ s l ≤ s' l) → LinearSolution A lam (calcIntensities A s) x →
  LinearSolution A lam (calcIntensities A s') x' → ∀ l, x l ≤ x' l

/-- Three LEDs at the heights of three layers, each seen through one metre of its layer. -/
def levelRays : Fin 3 → Fin 3 → ℝ := fun i l => if i = l then 1 else 0

theorem levelRays_depth (σ : Fin 3 → ℝ) (i : Fin 3) : depth σ (levelRays i) = σ i := by
  unfold depth levelRays
  simp

theorem levelRays_optical (s : Fin 3 → ℝ) (h0 : ∀ l, 0 ≤ s l) (h1 : ∀ l, s l ≤ 20) (i : Fin 3) : opticalDepth (calcIntensities levelRays s i) = s i := by
  have hthin : (20 : ℝ) ≤ 10 * Real.log 10 := by
    have : Real.log (Real.exp 1 ^ 2) ≤ Real.log 10 := Real.log_le_log (by positivity) (by nlinarith [Real.exp_one_lt_d9, Real.exp_pos 1])
    rw [Real.log_pow, Real.log_exp] at this
    norm_num at this
    linarith
  rw [intensities_depth, levelRays_depth]
  exact opticalDepth_exp (h0 i) ((h1 i).trans hthin)

theorem levelRays_residual (s : Fin 3 → ℝ) (h0 : ∀ l, 0 ≤ s l) (h1 : ∀ l, s l ≤ 20) (y : Fin 3 → ℝ) :
    residual (augMatrix levelRays 1) (augRhs 3 (calcIntensities levelRays s)) y =
      (y 0 - s 0) ^ 2 + (y 1 - s 1) ^ 2 + (y 2 - s 2) ^ 2 + (y 0 - 2 * y 1 + y 2) ^ 2 := by
  rw [aug_residual_split _ zero_le_one]
  have e1 : misfit levelRays (calcIntensities levelRays s) y = (y 0 - s 0) ^ 2 + (y 1 - s 1) ^ 2 + (y 2 - s 2) ^ 2 := by
    unfold misfit
    simp only [levelRays_depth, levelRays_optical s h0 h1]
    rw [Fin.sum_univ_three]
  have e2 : roughness y = (y 0 - 2 * y 1 + y 2) ^ 2 := by
    unfold roughness
    rw [if_pos le_rfl]
    unfold bending
    rw [Fin.sum_univ_one]
    rfl
  rw [e1, e2, one_mul]

/-- The solution for level rays, if it is not negative: a seventh of the bend is taken off the outer layers and twice that is put on the middle
one. -/
theorem levelRays_solution (s : Fin 3 → ℝ) (h0 : ∀ l, 0 ≤ s l) (h1 : ∀ l, s l ≤ 20) (hs : ∃ l, 0 < s l) (b : ℝ) (hb : b = (s 0 - 2 * s 1 + s 2) / 7)
    (hp0 : b ≤ s 0) (hp1 : 0 ≤ s 1 + 2 * b) (hp2 : b ≤ s 2) :
    LinearSolution levelRays 1 (calcIntensities levelRays s) ![s 0 - b, s 1 + 2 * b, s 2 - b] := by
  refine ⟨⟨fun l => ?_, fun y _ => ?_⟩, fun hg => ?_⟩
  · fin_cases l
    · show 0 ≤ s 0 - b
      linarith
    · exact hp1
    · show 0 ≤ s 2 - b
      linarith
  · rw [levelRays_residual s h0 h1, levelRays_residual s h0 h1]
    show (s 0 - b - s 0) ^ 2 + (s 1 + 2 * b - s 1) ^ 2 + (s 2 - b - s 2) ^ 2 + (s 0 - b - 2 * (s 1 + 2 * b) + (s 2 - b)) ^ 2 ≤ _
    have e : s 2 = 7 * b - s 0 + 2 * s 1 := by linarith
    rw [e]
    nlinarith [sq_nonneg (y 0 - s 0 + b), sq_nonneg (y 1 - s 1 - 2 * b), sq_nonneg (y 2 - (7 * b - s 0 + 2 * s 1) + b), sq_nonneg (y 0 - 2 * y 1 + y 2 - b)]
  · exfalso
    obtain ⟨l, hl⟩ := hs
    have := hg l
    rw [gradient_aug] at this
    simp only [levelRays_optical s h0 h1] at this
    simp [levelRays] at this
    linarith

/-- **C196 refuted for single layers**: with three level rays, smoke in the lowest layer that grows from 2 to 9 per metre lets the coefficient
of the uppermost layer fall from 2 to 1. -/
theorem C196_layer_false : ¬ MoreSmokeShowsMore := by
  intro h
  have h1 := levelRays_solution ![2, 2, 2] (fun l => by fin_cases l <;> norm_num) (fun l => by fin_cases l <;> norm_num) ⟨0, by norm_num⟩ 0
    (by show (0 : ℝ) = (2 - 2 * 2 + 2) / 7; norm_num) (by show (0 : ℝ) ≤ 2; norm_num) (by show (0 : ℝ) ≤ 2 + 2 * 0; norm_num) (by show (0 : ℝ) ≤ 2; norm_num)
  have h2 := levelRays_solution ![9, 2, 2] (fun l => by fin_cases l <;> norm_num) (fun l => by fin_cases l <;> norm_num) ⟨0, by norm_num⟩ 1
    (by show (1 : ℝ) = (9 - 2 * 2 + 2) / 7; norm_num) (by show (1 : ℝ) ≤ 9; norm_num) (by show (0 : ℝ) ≤ 2 + 2 * 1; norm_num) (by show (1 : ℝ) ≤ 2; norm_num)
  have := h 3 3 levelRays 1 ![2, 2, 2] ![9, 2, 2] _ _ le_rfl (fun i l => by unfold levelRays; split <;> norm_num) one_pos
    (fun l => by fin_cases l <;> norm_num) h1 h2 2
  have h3 : (2 : ℝ) - 0 ≤ 2 - 1 := this
  norm_num at h3

/-- **C196 refuted in general**: smoke 7 per metre in the lowest of three layers only. The bound at zero adds smoke: 35/6, 14/6 and nothing are
reported, 7/6 more than there is. -/
theorem C196_false : ¬ AmountKept := by
  intro h
  have hs0 : ∀ l, 0 ≤ (![7, 0, 0] : Fin 3 → ℝ) l := fun l => by fin_cases l <;> norm_num
  have hs1 : ∀ l, (![7, 0, 0] : Fin 3 → ℝ) l ≤ 20 := fun l => by fin_cases l <;> norm_num
  have hsol : LinearSolution levelRays 1 (calcIntensities levelRays ![7, 0, 0]) ![35 / 6, 14 / 6, 0] := by
    refine ⟨⟨fun l => by fin_cases l <;> norm_num, fun y hy => ?_⟩, fun hg => ?_⟩
    · rw [levelRays_residual _ hs0 hs1, levelRays_residual _ hs0 hs1]
      show ((35 : ℝ) / 6 - 7) ^ 2 + (14 / 6 - 0) ^ 2 + (0 - 0) ^ 2 + (35 / 6 - 2 * (14 / 6) + 0) ^ 2 ≤
        (y 0 - 7) ^ 2 + (y 1 - 0) ^ 2 + (y 2 - 0) ^ 2 + (y 0 - 2 * y 1 + y 2) ^ 2
      have := hy 2
      nlinarith [sq_nonneg (y 0 - 35 / 6), sq_nonneg (y 1 - 14 / 6), sq_nonneg (y 2), sq_nonneg (y 0 - 2 * y 1 + y 2 - 7 / 6)]
    · exfalso
      have := hg 0
      rw [gradient_aug] at this
      simp only [levelRays_optical _ hs0 hs1] at this
      simp [levelRays] at this
      linarith
  have := h 3 3 levelRays 1 _ _ le_rfl (fun i l => by unfold levelRays; split <;> norm_num) one_pos hsol
  unfold surplus at this
  simp only [levelRays_depth, levelRays_optical _ hs0 hs1] at this
  rw [Fin.sum_univ_three] at this
  have h2 : (1 : ℝ) * (35 / 6 - 7) + 1 * (14 / 6 - 0) + 1 * (0 - 0) = 0 := this
  norm_num at h2

/-- The amount is kept: smoke 9, 2, 2 is reported as 8, 4, 1. -/
example : surplus levelRays (calcIntensities levelRays ![9, 2, 2]) (fun _ => 1) ![8, 4, 1] = 0 := by
  have h2 := levelRays_solution ![9, 2, 2] (fun l => by fin_cases l <;> norm_num) (fun l => by fin_cases l <;> norm_num) ⟨0, by norm_num⟩ 1
    (by show (1 : ℝ) = (9 - 2 * 2 + 2) / 7; norm_num) (by show (1 : ℝ) ≤ 9; norm_num) (by show (0 : ℝ) ≤ 2 + 2 * 1; norm_num) (by show (1 : ℝ) ≤ 2; norm_num)
  have e : (![(![9, 2, 2] : Fin 3 → ℝ) 0 - 1, (![9, 2, 2] : Fin 3 → ℝ) 1 + 2 * 1, (![9, 2, 2] : Fin 3 → ℝ) 2 - 1] : Fin 3 → ℝ) = ![8, 4, 1] := by
    funext l
    fin_cases l
    · show (9 : ℝ) - 1 = 8; norm_num
    · show (2 : ℝ) + 2 * 1 = 4; norm_num
    · show (2 : ℝ) - 1 = 1; norm_num
  rw [e] at h2
  exact C196_amount_partial le_rfl levelRays zero_le_one _ _ h2 (fun l => by fin_cases l <;> norm_num) _ ⟨1, 0, fun _ => by simp⟩

end Ledsa
