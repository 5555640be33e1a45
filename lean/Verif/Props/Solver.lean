import Verif.Model.Solver
import Mathlib.Analysis.Complex.ExponentialBounds
import Mathlib.Analysis.Normed.Module.FiniteDimension
import Mathlib.Algebra.BigOperators.Field
/-
Properties C42 - C44 and C73: the Beer-Lambert model, the linear solver and the cost function of the nonlinear solver.
-/
namespace Ledsa

/-- Optical depth of a ray with lengths `d` through layers with coefficients `σ`. -/
def depth {n : ℕ} (σ d : Fin n → ℝ) : ℝ := ∑ l, d l * σ l

/-- A profile that is linear in the layer number. -/
def Affine {n : ℕ} (σ : Fin n → ℝ) : Prop := ∃ a b : ℝ, ∀ l : Fin n, σ l = a + b * (l : ℕ)

/-! ### C42 -/

theorem foldl_exp {ι : Type} (g : ι → ℝ) (l : List ι) : ∀ acc : ℝ,
    l.foldl (fun acc i => acc * Real.exp (g i)) acc = acc * Real.exp ((l.map g).sum) := by
  induction l with
  | nil => intro acc; simp
  | cons a t ih => intro acc; rw [List.foldl_cons, ih, List.map_cons, List.sum_cons, Real.exp_add, mul_assoc]

/-- **C42.** The predicted intensity is `exp(-Σ σ d)`. -/
theorem C42_beer_lambert {m n : ℕ} (A : Fin m → Fin n → ℝ) (σ : Fin n → ℝ) (led : Fin m) :
    calcIntensities A σ led = Real.exp (-∑ l, σ l * A led l) := by
  unfold calcIntensities rayIntensity
  rw [foldl_exp, one_mul, ← List.ofFn_eq_map, List.sum_ofFn, ← Finset.sum_neg_distrib]
  simp

/-- **C42.** Intensities lie in (0, 1] for non-negative coefficients. -/
theorem C42_range {m n : ℕ} (A : Fin m → Fin n → ℝ) (hA : ∀ i l, 0 ≤ A i l) (σ : Fin n → ℝ) (hσ : ∀ l, 0 ≤ σ l)
    (led : Fin m) : 0 < calcIntensities A σ led ∧ calcIntensities A σ led ≤ 1 := by
  rw [C42_beer_lambert]
  refine ⟨Real.exp_pos _, Real.exp_le_one_iff.2 ?_⟩
  have := Finset.sum_nonneg (s := Finset.univ) (f := fun l => σ l * A led l)
    fun l _ => mul_nonneg (hσ l) (hA led l)
  linarith

/-- **C42.** More smoke never makes an LED brighter; it makes it darker if the ray crosses the layer. -/
theorem C42_antitone {m n : ℕ} (A : Fin m → Fin n → ℝ) (hA : ∀ i l, 0 ≤ A i l) (σ τ : Fin n → ℝ)
    (h : ∀ l, σ l ≤ τ l) (led : Fin m) :
    calcIntensities A τ led ≤ calcIntensities A σ led ∧
    ((∃ l, σ l < τ l ∧ 0 < A led l) → calcIntensities A τ led < calcIntensities A σ led) := by
  rw [C42_beer_lambert, C42_beer_lambert, Real.exp_le_exp, Real.exp_lt_exp, neg_le_neg_iff, neg_lt_neg_iff]
  refine ⟨Finset.sum_le_sum fun l _ => mul_le_mul_of_nonneg_right (h l) (hA led l), ?_⟩
  rintro ⟨l, h1, h2⟩
  exact Finset.sum_lt_sum (fun l _ => mul_le_mul_of_nonneg_right (h l) (hA led l))
    ⟨l, Finset.mem_univ _, mul_lt_mul_of_pos_right h1 h2⟩

/-- **C42.** Splitting layers: if every fine layer `j` is part of the coarse layer `f j`, the distances in the fine
layers add up to the coarse ones and all parts of a layer have its coefficient, all intensities are the same. -/
theorem C42_split {m n k : ℕ} (f : Fin k → Fin n) (A : Fin m → Fin n → ℝ) (B : Fin m → Fin k → ℝ) (σ : Fin n → ℝ)
    (h : ∀ i l, A i l = ∑ j with f j = l, B i j) (led : Fin m) :
    calcIntensities B (σ ∘ f) led = calcIntensities A σ led := by
  rw [C42_beer_lambert, C42_beer_lambert]
  congr 2
  rw [← Finset.sum_fiberwise (s := Finset.univ) (g := f)]
  refine Finset.sum_congr rfl fun l _ => ?_
  rw [h, Finset.mul_sum]
  refine Finset.sum_congr rfl fun j hj => ?_
  simp only [Finset.mem_filter, Finset.mem_univ, true_and] at hj
  simp [hj]

/-! ### Second differences -/

theorem affine_iff_secondDiff {n : ℕ} (σ : Fin n → ℝ) : Affine σ ↔ ∀ i, secondDiff σ i = 0 := by
  constructor
  · rintro ⟨a, b, h⟩ i
    unfold secondDiff
    rw [h, h, h]
    push_cast
    ring
  · intro h
    match n, σ, h with
    | 0, σ, _ => exact ⟨0, 0, fun l => l.elim0⟩
    | 1, σ, _ => exact ⟨σ 0, 0, fun l => by simp [Subsingleton.elim l 0]⟩
    | n + 2, σ, h =>
      refine ⟨σ 0, σ 1 - σ 0, ?_⟩
      have key : ∀ (k : ℕ) (hk : k + 1 < n + 2),
          σ ⟨k, by omega⟩ = σ 0 + (σ 1 - σ 0) * k ∧ σ ⟨k + 1, hk⟩ = σ 0 + (σ 1 - σ 0) * (k + 1 : ℕ) := by
        intro k
        induction k with
        | zero =>
          intro _
          refine ⟨by simp, ?_⟩
          have : (⟨0 + 1, by omega⟩ : Fin (n + 2)) = 1 := rfl
          rw [this]; push_cast; ring
        | succ k ih =>
          intro hk
          obtain ⟨h1, h2⟩ := ih (by omega)
          refine ⟨h2, ?_⟩
          have := h ⟨k, by omega⟩
          unfold secondDiff at this
          simp only at this
          rw [h1, h2] at this
          push_cast at this ⊢
          linarith
      intro l
      obtain ⟨l, hl⟩ := l
      cases l with
      | zero => simp
      | succ l => exact (key l hl).2

/-! ### C73 -/

/-- **C73.** The curvature term is never negative and vanishes exactly for profiles linear in the layer number. -/
theorem C73_curvature {n m : ℕ} (hm : 0 < m) (w : ℝ) (hw : 0 < w) (σ : Fin n → ℝ) :
    0 ≤ curvature m w σ ∧ (curvature m w σ = 0 ↔ Affine σ) := by
  have h0 : 0 ≤ ∑ i, |secondDiff σ i| := Finset.sum_nonneg fun i _ => abs_nonneg _
  have hm' : (0 : ℝ) < m := by exact_mod_cast hm
  refine ⟨by unfold curvature; positivity, ?_⟩
  rw [affine_iff_secondDiff]
  unfold curvature
  constructor
  · intro h i
    have h1 : ∑ i, |secondDiff σ i| = 0 := by
      rcases mul_eq_zero.1 h with h | h
      · rcases mul_eq_zero.1 h with h | h
        · rcases mul_eq_zero.1 h with h | h
          · exact h
          · exact absurd h hm'.ne'
        · norm_num at h
      · exact absurd h hw.ne'
    have := (Finset.sum_eq_zero_iff_of_nonneg fun i _ => abs_nonneg (secondDiff σ i)).1 h1 i (Finset.mem_univ _)
    exact abs_eq_zero.1 this
  · intro h
    simp [h]

theorem rmse_eq_zero {m n : ℕ} (A : Fin m → Fin n → ℝ) (target : Fin m → ℝ) (σ : Fin n → ℝ) :
    rmse A target σ = 0 ↔ ∀ led, calcIntensities A σ led = target led := by
  rcases Nat.eq_zero_or_pos m with rfl | hm
  · simp [rmse]
  unfold rmse
  have hm' : (m : ℝ) ≠ 0 := by exact_mod_cast hm.ne'
  have h0 : 0 ≤ ∑ led, (calcIntensities A σ led - target led) ^ 2 := Finset.sum_nonneg fun i _ => sq_nonneg _
  rw [div_eq_zero_iff, or_iff_left hm', Real.sqrt_eq_zero h0,
    Finset.sum_eq_zero_iff_of_nonneg fun i _ => sq_nonneg _]
  simp [sub_eq_zero]

theorem rmse_nonneg {m n : ℕ} (A : Fin m → Fin n → ℝ) (target : Fin m → ℝ) (σ : Fin n → ℝ) : 0 ≤ rmse A target σ := by
  unfold rmse; positivity

/-- **C73.** Without preference the cost is never negative and vanishes exactly for profiles linear in the layer number
that reproduce the measured intensities. -/
theorem C73_cost {m n : ℕ} (hm : 0 < m) (A : Fin m → Fin n → ℝ) (w : ℝ) (hw : 0 < w) (target : Fin m → ℝ)
    (σ : Fin n → ℝ) : 0 ≤ costFunction A w 0 target σ ∧
    (costFunction A w 0 target σ = 0 ↔ Affine σ ∧ ∀ led, Real.exp (-∑ l, σ l * A led l) = target led) := by
  obtain ⟨h1, h2⟩ := C73_curvature hm w hw σ
  have h3 := rmse_nonneg A target σ
  have h4 : costFunction A w 0 target σ = rmse A target σ + curvature m w σ := by
    simp [costFunction, preference]
  rw [h4]
  refine ⟨by linarith, ?_⟩
  simp only [← C42_beer_lambert]
  rw [← h2, ← rmse_eq_zero]
  constructor
  · intro h; constructor <;> linarith
  · rintro ⟨h5, h6⟩; rw [h5, h6]; norm_num

/-- **C73.** With a negative preference (the default is `-6e-3`) a layer that no ray crosses is pushed up: raising its
coefficient lowers the cost as long as the change of curvature is cheaper. In particular without smoothing the cost has
no minimum except at the upper bound of the coefficient. -/
theorem C73_unseen_layer_pushed_up {m n : ℕ} (A : Fin m → Fin n → ℝ) (wPref : ℝ) (hw : wPref < 0) (target : Fin m → ℝ)
    (k : Fin n) (hk : ∀ led, A led k = 0) (σ : Fin n → ℝ) (v : ℝ) (hv : σ k < v) :
    costFunction A 0 wPref target (Function.update σ k v) < costFunction A 0 wPref target σ := by
  have h1 : rmse A target (Function.update σ k v) = rmse A target σ := by
    unfold rmse
    have : calcIntensities A (Function.update σ k v) = calcIntensities A σ := by
      funext led
      rw [C42_beer_lambert, C42_beer_lambert]
      congr 2
      refine Finset.sum_congr rfl fun l _ => ?_
      by_cases hl : l = k
      · subst hl; simp [hk]
      · rw [Function.update_of_ne hl]
    rw [this]
  have hn : (0 : ℝ) < n := by exact_mod_cast k.pos
  have h2 : ∑ l, σ l < ∑ l, Function.update σ k v l := by
    apply Finset.sum_lt_sum
    · intro l _
      by_cases hl : l = k
      · subst hl; simpa using hv.le
      · rw [Function.update_of_ne hl]
    · exact ⟨k, Finset.mem_univ _, by simpa using hv⟩
  unfold costFunction
  rw [h1]
  have h3 : preference wPref (Function.update σ k v) < preference wPref σ := by
    unfold preference
    exact mul_lt_mul_of_neg_right (div_lt_div_of_pos_right h2 hn) hw
  simp only [curvature, mul_zero]
  linarith

/-! ### C43 -/

/-- Two profiles linear in the layer number with the same optical depth along all rays are equal. -/
def DeterminesAffine {m n : ℕ} (A : Fin m → Fin n → ℝ) : Prop :=
  ∀ σ τ : Fin n → ℝ, Affine σ → Affine τ → (∀ led, depth σ (A led) = depth τ (A led)) → σ = τ

/-- Two non-negative profiles with the same optical depth along all rays are equal. -/
def DeterminesAll {m n : ℕ} (A : Fin m → Fin n → ℝ) : Prop :=
  ∀ σ τ : Fin n → ℝ, (∀ l, 0 ≤ σ l) → (∀ l, 0 ≤ τ l) → (∀ led, depth σ (A led) = depth τ (A led)) → σ = τ

theorem opticalDepth_exp {t : ℝ} (h0 : 0 ≤ t) (h1 : t ≤ 10 * Real.log 10) : opticalDepth (Real.exp (-t)) = t := by
  have h2 : (1 : ℝ) / 10 ^ 10 ≤ Real.exp (-t) := by
    have : (1 : ℝ) / 10 ^ 10 = Real.exp (-(10 * Real.log 10)) := by
      have h : 10 * Real.log 10 = Real.log (10 ^ 10) := by rw [Real.log_pow]; norm_num
      rw [Real.exp_neg, one_div, h, Real.exp_log (by norm_num)]
    rw [this, Real.exp_le_exp]
    linarith
  have h3 : Real.exp (-t) ≤ 1 := Real.exp_le_one_iff.2 (by linarith)
  unfold opticalDepth clip
  rw [max_eq_left h2, min_eq_left h3, Real.log_exp]
  ring

theorem residual_nonneg {ι : Type} [Fintype ι] {n : ℕ} (B : ι → Fin n → ℝ) (b : ι → ℝ) (x : Fin n → ℝ) :
    0 ≤ residual B b x := Finset.sum_nonneg fun _ _ => sq_nonneg _

theorem residual_eq_zero {ι : Type} [Fintype ι] {n : ℕ} (B : ι → Fin n → ℝ) (b : ι → ℝ) (x : Fin n → ℝ) :
    residual B b x = 0 ↔ ∀ i, ∑ l, B i l * x l = b i := by
  unfold residual
  rw [Finset.sum_eq_zero_iff_of_nonneg fun i _ => sq_nonneg _]
  simp [sub_eq_zero]

theorem sum_regEntry {n : ℕ} (hn : 3 ≤ n) (σ : Fin n → ℝ) (i : ℕ) (hi : i < n - 2) :
    ∑ l : Fin n, regEntry n i l * σ l = secondDiff σ ⟨i, hi⟩ := by
  have h : ∀ l : Fin n, regEntry n i l * σ l =
      (if l = ⟨i, by omega⟩ then σ l else 0) + (if l = ⟨i + 1, by omega⟩ then -2 * σ l else 0) +
        (if l = ⟨i + 2, by omega⟩ then σ l else 0) := by
    intro l
    obtain ⟨l, hl⟩ := l
    unfold regEntry
    rw [if_pos hn]
    simp only [Fin.mk.injEq]
    by_cases h1 : l = i
    · subst h1; simp
    · by_cases h2 : l = i + 1
      · subst h2; simp
      · by_cases h3 : l = i + 2
        · subst h3; simp
        · simp [h1, h2, h3]
  simp only [h, Finset.sum_add_distrib, Finset.sum_ite_eq', Finset.mem_univ, if_true]
  unfold secondDiff
  ring

theorem sum_regEntry_small {n : ℕ} (hn : n < 3) (σ : Fin n → ℝ) (i : Fin n) :
    ∑ l : Fin n, regEntry n i l * σ l = σ i := by
  have h : ∀ l : Fin n, regEntry n i l * σ l = if l = i then σ l else 0 := by
    intro l
    unfold regEntry
    rw [if_neg (by omega)]
    by_cases h : l = i
    · subst h; simp
    · rw [if_neg (fun h' => h (Fin.ext h'.symm)), if_neg h, zero_mul]
  simp only [h, Finset.sum_ite_eq', Finset.mem_univ, if_true]

/-- The regularisation rows vanish exactly for linear profiles. -/
theorem aug_reg_zero {m n : ℕ} (A : Fin m → Fin n → ℝ) (hn : 3 ≤ n) {lam : ℝ} (hl : 0 < lam) (σ : Fin n → ℝ) :
    (∀ i, ∑ l, augMatrix A lam (.inr i) l * σ l = 0) ↔ Affine σ := by
  rw [affine_iff_secondDiff]
  have hr : regRows n = n - 2 := if_pos hn
  have hs : Real.sqrt lam ≠ 0 := (Real.sqrt_pos.2 hl).ne'
  have h1 : ∀ i : Fin (regRows n), ∑ l, augMatrix A lam (.inr i) l * σ l =
      Real.sqrt lam * secondDiff σ ⟨i, by rw [← hr]; exact i.2⟩ := by
    intro i
    rw [← sum_regEntry hn σ i (by rw [← hr]; exact i.2), Finset.mul_sum]
    exact Finset.sum_congr rfl fun l _ => by simp [augMatrix, mul_assoc]
  simp only [h1, mul_eq_zero, hs, false_or]
  constructor
  · intro h i; exact h ⟨i, by rw [hr]; exact i.2⟩
  · intro h i; exact h _

theorem aug_reg_lam_zero {m n : ℕ} (A : Fin m → Fin n → ℝ) (σ : Fin n → ℝ) (i : Fin (regRows n)) :
    ∑ l, augMatrix A 0 (.inr i) l * σ l = 0 := by simp [augMatrix]

/-- Zero residual of the augmented system for intensities that follow the Beer-Lambert law. -/
theorem aug_residual_zero {m n : ℕ} (A : Fin m → Fin n → ℝ) (lam : ℝ) (σ x : Fin n → ℝ)
    (h0 : ∀ led, 0 ≤ depth σ (A led)) (hd : ∀ led, depth σ (A led) ≤ 10 * Real.log 10) :
    residual (augMatrix A lam) (augRhs n (calcIntensities A σ)) x = 0 ↔
      (∀ led, depth x (A led) = depth σ (A led)) ∧ ∀ i, ∑ l, augMatrix A lam (.inr i) l * x l = 0 := by
  have hb : ∀ led, augRhs n (calcIntensities A σ) (.inl led) = depth σ (A led) := by
    intro led
    have : ∑ l, σ l * A led l = depth σ (A led) := Finset.sum_congr rfl fun l _ => mul_comm _ _
    simp only [augRhs, C42_beer_lambert, this]
    exact opticalDepth_exp (h0 led) (hd led)
  rw [residual_eq_zero, Sum.forall]
  simp only [hb]
  rfl

theorem depth_nonneg {n : ℕ} {σ d : Fin n → ℝ} (h1 : ∀ l, 0 ≤ σ l) (h2 : ∀ l, 0 ≤ d l) : 0 ≤ depth σ d :=
  Finset.sum_nonneg fun l _ => mul_nonneg (h2 l) (h1 l)

theorem depth_zero {n : ℕ} (d : Fin n → ℝ) : depth (0 : Fin n → ℝ) d = 0 := by simp [depth]

/-- If the right hand side of a consistent system has no positive correlation with any column, the exact solution has
zero image. -/
theorem start_of_consistent {ι : Type} [Fintype ι] {n : ℕ} (B : ι → Fin n → ℝ) (b : ι → ℝ) (x : Fin n → ℝ)
    (hx : ∀ l, 0 ≤ x l) (hb : ∀ i, ∑ l, B i l * x l = b i) (h : ∀ l, ∑ i, B i l * b i ≤ 0) : ∀ i, b i = 0 := by
  have h1 : ∑ i, b i ^ 2 = ∑ l, x l * ∑ i, B i l * b i := by
    simp only [Finset.mul_sum]
    rw [Finset.sum_comm]
    refine Finset.sum_congr rfl fun i _ => ?_
    rw [sq]
    nth_rewrite 1 [← hb i]
    rw [Finset.sum_mul]
    exact Finset.sum_congr rfl fun l _ => by ring
  have h2 : ∑ i, b i ^ 2 ≤ 0 := by
    rw [h1]
    exact Finset.sum_nonpos fun l _ => mul_nonpos_of_nonneg_of_nonpos (hx l) (h l)
  have h3 : ∑ i, b i ^ 2 = 0 := le_antisymm h2 (Finset.sum_nonneg fun i _ => sq_nonneg _)
  rw [Finset.sum_eq_zero_iff_of_nonneg fun i _ => sq_nonneg _] at h3
  intro i
  exact pow_eq_zero_iff (two_ne_zero) |>.1 (h3 i (Finset.mem_univ _))

/-- General recovery: if zero residual characterises the profile, the solver returns it and nothing else. -/
theorem linearSolution_iff {m n : ℕ} (A : Fin m → Fin n → ℝ) (hA : ∀ i l, 0 ≤ A i l) (lam : ℝ) (σ : Fin n → ℝ)
    (hσ : ∀ l, 0 ≤ σ l) (hd : ∀ led, depth σ (A led) ≤ 10 * Real.log 10)
    (hreg : ∀ i, ∑ l, augMatrix A lam (.inr i) l * σ l = 0)
    (huniq : ∀ x : Fin n → ℝ, (∀ l, 0 ≤ x l) → (∀ led, depth x (A led) = depth σ (A led)) →
      (∀ i, ∑ l, augMatrix A lam (.inr i) l * x l = 0) → x = σ) (x : Fin n → ℝ) :
    LinearSolution A lam (calcIntensities A σ) x ↔ x = σ := by
  have h0 : ∀ led, 0 ≤ depth σ (A led) := fun led => depth_nonneg hσ (hA led)
  have hz := aug_residual_zero A lam σ σ h0 hd
  have hres : residual (augMatrix A lam) (augRhs n (calcIntensities A σ)) σ = 0 := hz.2 ⟨fun _ => rfl, hreg⟩
  constructor
  · intro h
    have h1 : residual (augMatrix A lam) (augRhs n (calcIntensities A σ)) x = 0 :=
      le_antisymm (hres ▸ h.minimal σ hσ) (residual_nonneg _ _ _)
    obtain ⟨h2, h3⟩ := (aug_residual_zero A lam σ x h0 hd).1 h1
    exact huniq x h.nonneg h2 h3
  · rintro rfl
    refine ⟨⟨hσ, fun y _ => hres ▸ residual_nonneg _ _ _⟩, ?_⟩
    intro hs
    have hb := (residual_eq_zero _ _ _).1 hres
    have hb0 := start_of_consistent _ _ _ hσ hb hs
    symm
    apply huniq 0 (fun l => le_refl _)
    · intro led
      have h1 := hb (.inl led)
      have h2 := hb0 (.inl led)
      rw [h2] at h1
      rw [depth_zero]
      exact h1.symm
    · intro i; simp

/-- **C43** (partial): for a non-negative profile linear in the layer number whose optical depths are at most `10 ln 10`,
rays that determine linear profiles and positive regularisation, the linear solver returns exactly this profile. Missing:
denser smoke (`C43_dense_false`) and no regularisation (`C43_unregularised`, `C43_lambda_zero_false`). -/
theorem C43_linear_profile_partial {m n : ℕ} (hn : 3 ≤ n) (A : Fin m → Fin n → ℝ) (hA : ∀ i l, 0 ≤ A i l)
    (hdet : DeterminesAffine A) (lam : ℝ) (hl : 0 < lam) (σ : Fin n → ℝ) (hσ : ∀ l, 0 ≤ σ l) (haff : Affine σ)
    (hd : ∀ led, depth σ (A led) ≤ 10 * Real.log 10) (x : Fin n → ℝ) :
    LinearSolution A lam (calcIntensities A σ) x ↔ x = σ := by
  apply linearSolution_iff A hA lam σ hσ hd ((aug_reg_zero A hn hl σ).2 haff)
  intro x _ h1 h2
  exact hdet x σ ((aug_reg_zero A hn hl x).1 h2) haff h1

/-- **C43.** Without regularisation every non-negative profile is recovered if the rays determine all profiles; any
number of layers. -/
theorem C43_unregularised {m n : ℕ} (A : Fin m → Fin n → ℝ) (hA : ∀ i l, 0 ≤ A i l)
    (hdet : DeterminesAll A) (σ : Fin n → ℝ) (hσ : ∀ l, 0 ≤ σ l)
    (hd : ∀ led, depth σ (A led) ≤ 10 * Real.log 10) (x : Fin n → ℝ) :
    LinearSolution A 0 (calcIntensities A σ) x ↔ x = σ := by
  apply linearSolution_iff A hA 0 σ hσ hd (aug_reg_lam_zero A σ)
  intro x hx h1 _
  exact hdet x σ hx hσ h1

/-- Number of layers crossed, weighted by the length in them, and the same weighted by the layer number. -/
def rayLength {n : ℕ} (d : Fin n → ℝ) : ℝ := ∑ l, d l

/-- First moment of the lengths of a ray with respect to the layer number. -/
def rayMoment {n : ℕ} (d : Fin n → ℝ) : ℝ := ∑ l, d l * (l : ℕ)

theorem depth_affine {n : ℕ} (d : Fin n → ℝ) (a b : ℝ) :
    depth (fun l : Fin n => a + b * (l : ℕ)) d = a * rayLength d + b * rayMoment d := by
  unfold depth rayLength rayMoment
  rw [Finset.mul_sum, Finset.mul_sum, ← Finset.sum_add_distrib]
  exact Finset.sum_congr rfl fun l _ => by ring

/-- **C43.** The condition on the rays: linear profiles are determined exactly if two LEDs are seen at different mean
layer numbers (`rayMoment / rayLength` for rays of positive length). -/
theorem C43_condition_iff {m n : ℕ} (hn : 2 ≤ n) (A : Fin m → Fin n → ℝ) :
    DeterminesAffine A ↔ ∃ i j, rayMoment (A i) * rayLength (A j) ≠ rayMoment (A j) * rayLength (A i) := by
  constructor
  · intro h
    by_contra hne
    push Not at hne
    -- a linear profile that no ray can see
    have key : ∀ a b : ℝ, (∀ led, a * rayLength (A led) + b * rayMoment (A led) = 0) → a = 0 ∧ b = 0 := by
      intro a b hab
      have h1 := h (fun l : Fin n => a + b * (l : ℕ)) (fun l : Fin n => 0 + 0 * (l : ℕ)) ⟨a, b, fun _ => rfl⟩
        ⟨0, 0, fun _ => rfl⟩ (fun led => by rw [depth_affine, depth_affine, hab]; ring)
      have h2 := congrFun h1 ⟨0, by omega⟩
      have h3 := congrFun h1 ⟨1, by omega⟩
      simp at h2 h3
      subst h2
      simpa using h3
    by_cases hz : ∀ led, rayLength (A led) = 0 ∧ rayMoment (A led) = 0
    · exact one_ne_zero (key 1 0 fun led => by rw [(hz led).1, (hz led).2]; ring).1
    · push Not at hz
      obtain ⟨i, hi⟩ := hz
      obtain ⟨h1, h2⟩ := key (rayMoment (A i)) (-rayLength (A i)) fun led => by
        have := hne i led; linarith
      exact hi (by linarith) h1
  · rintro ⟨i, j, hij⟩ σ τ ⟨a, b, hσ⟩ ⟨c, d, hτ⟩ h
    have e1 := h i
    have e2 := h j
    rw [funext hσ, funext hτ, depth_affine, depth_affine] at e1 e2
    have hb : (b - d) * (rayMoment (A i) * rayLength (A j) - rayMoment (A j) * rayLength (A i)) = 0 := by
      linear_combination rayLength (A j) * e1 - rayLength (A i) * e2
    have ha : (a - c) * (rayMoment (A i) * rayLength (A j) - rayMoment (A j) * rayLength (A i)) = 0 := by
      linear_combination rayMoment (A i) * e2 - rayMoment (A j) * e1
    have hne := sub_ne_zero.2 hij
    have hb' : b = d := sub_eq_zero.1 ((mul_eq_zero.1 hb).resolve_right hne)
    have ha' : a = c := sub_eq_zero.1 ((mul_eq_zero.1 ha).resolve_right hne)
    funext l
    rw [hσ, hτ, ha', hb']

/-- Three LEDs seen horizontally, each in its own layer, at distance `r`. -/
def threeRays (r : ℝ) : Fin 3 → Fin 3 → ℝ := fun i l => if i = l then r else 0

theorem depth_threeRays (r : ℝ) (σ : Fin 3 → ℝ) (i : Fin 3) : depth σ (threeRays r i) = r * σ i := by
  unfold depth threeRays
  simp

theorem threeRays_determines {r : ℝ} (hr : r ≠ 0) : DeterminesAffine (threeRays r) := by
  intro σ τ _ _ h
  funext i
  have := h i
  rw [depth_threeRays, depth_threeRays] at this
  exact mul_left_cancel₀ hr this

/-- Non-trivial case of C43: extinction 1, 2, 3 in three layers seen over one metre. -/
example (x : Fin 3 → ℝ) :
    LinearSolution (threeRays 1) (1 / 1000) (calcIntensities (threeRays 1) fun l : Fin 3 => 1 + 1 * ((l : ℕ) : ℝ)) x ↔
      x = fun l : Fin 3 => 1 + 1 * ((l : ℕ) : ℝ) := by
  have hlog : (1 : ℝ) ≤ Real.log 10 := by
    rw [Real.le_log_iff_exp_le (by norm_num)]
    have := Real.exp_one_lt_d9; linarith
  apply C43_linear_profile_partial (le_refl _) _ _ (threeRays_determines one_ne_zero) _ (by norm_num)
  · intro l; positivity
  · exact ⟨1, 1, fun _ => rfl⟩
  · intro led
    rw [depth_threeRays]
    have : ((led : ℕ) : ℝ) ≤ 2 := by exact_mod_cast (by omega : (led : ℕ) ≤ 2)
    linarith
  · intro i l; unfold threeRays; split <;> norm_num

/-- **C43 refuted** for dense smoke: at an optical depth of 30 the exact coefficients are not returned, because
intensities below `1e-10` are raised to `1e-10`. -/
theorem C43_dense_false : ¬ ∀ (m n : ℕ) (A : Fin m → Fin n → ℝ) (lam : ℝ) (σ : Fin n → ℝ), 3 ≤ n → (∀ i l, 0 ≤ A i l) →
    DeterminesAffine A → 0 < lam → (∀ l, 0 ≤ σ l) → Affine σ → LinearSolution A lam (calcIntensities A σ) σ := by
  intro h
  have hs := h 3 3 (threeRays 30) 1 (fun _ => 1) (le_refl _)
    (fun i l => by unfold threeRays; split <;> norm_num) (threeRays_determines (by norm_num)) one_pos
    (fun _ => zero_le_one) ⟨1, 0, fun _ => by simp⟩
  have hlog : Real.log 10 < 3 := by
    rw [Real.log_lt_iff_lt_exp (by norm_num)]
    have h1 := Real.exp_one_gt_d9
    have h2 : Real.exp 3 = Real.exp 1 ^ 3 := by rw [← Real.exp_nat_mul]; norm_num
    rw [h2]
    calc (10 : ℝ) < 2.7 ^ 3 := by norm_num
      _ < Real.exp 1 ^ 3 := by gcongr; linarith
  have hlog0 : 0 < Real.log 10 := Real.log_pos (by norm_num)
  have hI : ∀ led, opticalDepth (calcIntensities (threeRays 30) (fun _ => 1) led) = 10 * Real.log 10 := by
    intro led
    have h1 : calcIntensities (threeRays 30) (fun _ => 1) led = Real.exp (-30) := by
      rw [C42_beer_lambert]
      have : ∑ l, (1 : ℝ) * threeRays 30 led l = depth (fun _ => 1) (threeRays 30 led) :=
        Finset.sum_congr rfl fun l _ => mul_comm _ _
      rw [this, depth_threeRays]; norm_num
    have h2 : Real.exp (-30) ≤ 1 / 10 ^ 10 := by
      have h3 : (1 : ℝ) / 10 ^ 10 = Real.exp (-(10 * Real.log 10)) := by
        have h : 10 * Real.log 10 = Real.log (10 ^ 10) := by rw [Real.log_pow]; norm_num
        rw [Real.exp_neg, one_div, h, Real.exp_log (by norm_num)]
      rw [h3, Real.exp_le_exp]; linarith
    rw [h1]
    unfold opticalDepth clip
    rw [max_eq_right h2, min_eq_left (by norm_num), one_div, Real.log_inv, Real.log_pow]
    norm_num
  have hz : residual (augMatrix (threeRays 30) 1) (augRhs 3 (calcIntensities (threeRays 30) fun _ => 1))
      (fun _ => 10 * Real.log 10 / 30) = 0 := by
    rw [residual_eq_zero, Sum.forall]
    refine ⟨fun led => ?_, (aug_reg_zero _ (le_refl _) one_pos _).2 ⟨10 * Real.log 10 / 30, 0, fun _ => by simp⟩⟩
    simp only [augRhs, hI]
    have := depth_threeRays 30 (fun _ => 10 * Real.log 10 / 30) led
    unfold depth at this
    simp only [augMatrix]
    rw [this]; ring
  have h1 := hs.minimal (fun _ => 10 * Real.log 10 / 30) (fun _ => by positivity)
  rw [hz] at h1
  have h2 := (residual_eq_zero _ _ _).1 (le_antisymm h1 (residual_nonneg _ _ _)) (.inl 0)
  simp only [augRhs, hI, augMatrix] at h2
  have h3 := depth_threeRays 30 (fun _ => 1) 0
  unfold depth at h3
  rw [h3] at h2
  linarith

/-- Two LEDs seen horizontally in the lowest two of three layers. -/
def twoRays : Fin 2 → Fin 3 → ℝ := fun i l => if (i : ℕ) = l then 1 else 0

theorem depth_twoRays (σ : Fin 3 → ℝ) (i : Fin 2) : depth σ (twoRays i) = σ ⟨i, by omega⟩ := by
  unfold depth twoRays
  have : ∀ l : Fin 3, (if (i : ℕ) = l then (1 : ℝ) else 0) * σ l = if l = ⟨i, by omega⟩ then σ l else 0 := by
    intro l
    by_cases h : l = ⟨i, by omega⟩
    · subst h; simp
    · rw [if_neg h, if_neg fun h' => h (Fin.ext h'.symm), zero_mul]
  simp [this]

/-- **C43 refuted** without regularisation: the rays determine linear profiles, but other profiles fit as well and may be
returned. -/
theorem C43_lambda_zero_false : ¬ ∀ (m n : ℕ) (A : Fin m → Fin n → ℝ) (lam : ℝ) (σ x : Fin n → ℝ), 3 ≤ n →
    (∀ i l, 0 ≤ A i l) → DeterminesAffine A → 0 ≤ lam → (∀ l, 0 ≤ σ l) → Affine σ →
    (∀ led, depth σ (A led) ≤ 10 * Real.log 10) → LinearSolution A lam (calcIntensities A σ) x → x = σ := by
  intro h
  have hlog : (1 : ℝ) ≤ Real.log 10 := by
    rw [Real.le_log_iff_exp_le (by norm_num)]
    have := Real.exp_one_lt_d9; linarith
  have hA : ∀ i l, 0 ≤ twoRays i l := fun i l => by unfold twoRays; split <;> norm_num
  have h0 : ∀ led, 0 ≤ depth (fun _ => 1) (twoRays led) := fun led => by rw [depth_twoRays]; norm_num
  have h1 : ∀ led, depth (fun _ => 1) (twoRays led) ≤ 10 * Real.log 10 := fun led => by
    rw [depth_twoRays]; linarith
  let x : Fin 3 → ℝ := fun l => if (l : ℕ) = 2 then 0 else 1
  have hz : residual (augMatrix twoRays 0) (augRhs 3 (calcIntensities twoRays fun _ => 1)) x = 0 := by
    rw [aug_residual_zero twoRays 0 (fun _ => 1) x h0 h1]
    refine ⟨fun led => ?_, aug_reg_lam_zero _ _⟩
    rw [depth_twoRays, depth_twoRays]
    simp only [x]
    rw [if_neg]
    omega
  have hx : LinearSolution twoRays 0 (calcIntensities twoRays fun _ => 1) x := by
    refine ⟨⟨fun l => by simp only [x]; split <;> norm_num, fun y _ => by rw [hz]; exact residual_nonneg _ _ _⟩, ?_⟩
    intro hs
    have hb := (residual_eq_zero _ _ _).1 hz
    have := start_of_consistent _ _ _ (fun l => by simp only [x]; split <;> norm_num) hb hs (.inl 0)
    have h2 := hb (.inl 0)
    rw [this] at h2
    have h3 := depth_twoRays x 0
    unfold depth at h3
    simp only [augMatrix] at h2
    rw [h3] at h2
    simp [x] at h2
  have hdet : DeterminesAffine twoRays := by
    rw [C43_condition_iff (by norm_num)]
    refine ⟨0, 1, ?_⟩
    simp only [rayMoment, rayLength, twoRays, Fin.sum_univ_three]
    norm_num
  have := h 2 3 twoRays 0 (fun _ => 1) x (le_refl _) hA hdet (le_refl _) (fun _ => zero_le_one)
    ⟨1, 0, fun _ => by simp⟩ h1 hx
  have h2 := congrFun this 2
  simp [x] at h2

/-- **C43.** With one or two layers the regularisation shrinks the coefficients themselves: the exact coefficients are
returned only for clear air. -/
theorem C43_two_layers_biased {m n : ℕ} (hn : n < 3) (A : Fin m → Fin n → ℝ) (hA : ∀ i l, 0 ≤ A i l) (lam : ℝ)
    (hl : 0 < lam) (σ : Fin n → ℝ) (hσ : ∀ l, 0 ≤ σ l) (hd : ∀ led, depth σ (A led) ≤ 10 * Real.log 10)
    (h : LinearSolution A lam (calcIntensities A σ) σ) : σ = 0 := by
  have hr : regRows n = n := if_neg (by omega)
  have hb : ∀ led, augRhs n (calcIntensities A σ) (.inl led) = depth σ (A led) := by
    intro led
    have : ∑ l, σ l * A led l = depth σ (A led) := Finset.sum_congr rfl fun l _ => mul_comm _ _
    simp only [augRhs, C42_beer_lambert, this]
    exact opticalDepth_exp (depth_nonneg hσ (hA led)) (hd led)
  -- residual of a multiple of the profile
  have hres : ∀ c : ℝ, residual (augMatrix A lam) (augRhs n (calcIntensities A σ)) (fun l => c * σ l) =
      (c - 1) ^ 2 * ∑ led, depth σ (A led) ^ 2 + c ^ 2 * (lam * ∑ l, σ l ^ 2) := by
    intro c
    unfold residual
    rw [Fintype.sum_sum_type]
    congr 1
    · rw [Finset.mul_sum]
      refine Finset.sum_congr rfl fun led _ => ?_
      rw [hb]
      have : ∑ l, augMatrix A lam (.inl led) l * (c * σ l) = c * depth σ (A led) := by
        unfold depth
        rw [Finset.mul_sum]
        exact Finset.sum_congr rfl fun l _ => by simp only [augMatrix]; ring
      rw [this]; ring
    · rw [Finset.mul_sum, Finset.mul_sum]
      rw [← Equiv.sum_comp (finCongr hr)]
      refine Finset.sum_congr rfl fun i _ => ?_
      have h1 := sum_regEntry_small hn σ (finCongr hr i)
      have : ∑ l, augMatrix A lam (.inr i) l * (c * σ l) = Real.sqrt lam * c * σ (finCongr hr i) := by
        rw [← h1, Finset.mul_sum]
        exact Finset.sum_congr rfl fun l _ => by simp only [augMatrix, finCongr_apply, Fin.val_cast]; ring
      rw [this]
      simp only [augRhs]
      have h2 := Real.sq_sqrt hl.le
      generalize Real.sqrt lam = s at *
      rw [← h2]; ring
  set D := ∑ led, depth σ (A led) ^ 2 with hD
  set S := ∑ l, σ l ^ 2 with hS
  have hD0 : 0 ≤ D := Finset.sum_nonneg fun _ _ => sq_nonneg _
  have hS0 : 0 ≤ S := Finset.sum_nonneg fun _ _ => sq_nonneg _
  by_contra hne
  have hSpos : 0 < S := by
    rcases hS0.lt_or_eq with h | h
    · exact h
    · exfalso; apply hne
      funext l
      have := (Finset.sum_eq_zero_iff_of_nonneg fun i _ => sq_nonneg (σ i)).1 h.symm l (Finset.mem_univ _)
      simpa using this
  -- a slightly smaller multiple is better
  let t := lam * S / (D + lam * S)
  have hp : 0 < D + lam * S := by positivity
  have ht0 : 0 < t := by positivity
  have ht1 : t ≤ 1 := by
    rw [div_le_one hp]; linarith
  have h1 := h.minimal (fun l => (1 - t) * σ l) fun l => mul_nonneg (by linarith) (hσ l)
  have h2 := hres 1
  have h3 := hres (1 - t)
  simp only [one_mul, sub_self] at h2
  rw [h2, h3] at h1
  have h4 : t * (D + lam * S) = lam * S := by
    simp only [t]; field_simp
  have h5 : (1 - t - 1) ^ 2 * D + (1 - t) ^ 2 * (lam * S) = lam * S - t * (lam * S) := by
    have : t ^ 2 * (D + lam * S) = t * (lam * S) := by rw [sq, mul_assoc, h4]
    linear_combination this
  rw [h5] at h1
  have : 0 < t * (lam * S) := by positivity
  linarith

/-- Non-trivial case: one layer, one LED, extinction 1 over one metre is not recovered. -/
example : ¬ LinearSolution (m := 1) (n := 1) (fun _ _ => 1) 1 (calcIntensities (n := 1) (fun _ _ => 1) fun _ => 1)
    (fun _ => 1) := by
  intro h
  have hlog : (1 : ℝ) ≤ Real.log 10 := by
    rw [Real.le_log_iff_exp_le (by norm_num)]
    have := Real.exp_one_lt_d9; linarith
  have := C43_two_layers_biased (by norm_num) _ (fun _ _ => zero_le_one) 1 one_pos _ (fun _ => zero_le_one)
    (fun led => by simp [depth]; linarith) h
  have := congrFun this 0
  simp at this

/-! ### The solution of the linear solver exists and is unique -/

/-- The augmented system determines the coefficients. -/
theorem aug_injective {m n : ℕ} (hn : 3 ≤ n) (A : Fin m → Fin n → ℝ) (hdet : DeterminesAffine A) {lam : ℝ}
    (hl : 0 < lam) (z : Fin n → ℝ) (hz : ∀ i, ∑ l, augMatrix A lam i l * z l = 0) : z = 0 := by
  have h1 : Affine z := (aug_reg_zero A hn hl z).1 fun i => hz (.inr i)
  refine hdet z 0 h1 ⟨0, 0, fun _ => by simp⟩ fun led => ?_
  rw [depth_zero]
  exact hz (.inl led)

theorem residual_midpoint {ι : Type} [Fintype ι] {n : ℕ} (B : ι → Fin n → ℝ) (b : ι → ℝ) (x y : Fin n → ℝ) :
    residual B b (fun l => (x l + y l) / 2) =
      (residual B b x + residual B b y) / 2 - (∑ i, (∑ l, B i l * (x l - y l)) ^ 2) / 4 := by
  unfold residual
  rw [← Finset.sum_add_distrib, Finset.sum_div, Finset.sum_div, ← Finset.sum_sub_distrib]
  refine Finset.sum_congr rfl fun i _ => ?_
  have h1 : ∑ l, B i l * ((x l + y l) / 2) = (∑ l, B i l * x l + ∑ l, B i l * y l) / 2 := by
    rw [← Finset.sum_add_distrib, Finset.sum_div]
    exact Finset.sum_congr rfl fun l _ => by ring
  have h2 : ∑ l, B i l * (x l - y l) = ∑ l, B i l * x l - ∑ l, B i l * y l := by
    rw [← Finset.sum_sub_distrib]
    exact Finset.sum_congr rfl fun l _ => by ring
  rw [h1, h2]; ring

/-- **C43.** For any measured intensities the coefficients are determined by the data (they do not depend on how the
minimiser works): there is exactly one solution, if the rays determine linear profiles and the regularisation is
positive. -/
theorem C43_unique_solution {m n : ℕ} (hn : 3 ≤ n) (A : Fin m → Fin n → ℝ)
    (hdet : DeterminesAffine A) (lam : ℝ) (hl : 0 < lam) (rel : Fin m → ℝ) : ∃! σ, LinearSolution A lam rel σ := by
  set B := augMatrix A lam with hB
  set b := augRhs n rel with hb
  have hinj := fun z => aug_injective hn A hdet hl z
  have huniq : ∀ x y : Fin n → ℝ, IsMinimiser B b x → IsMinimiser B b y → x = y := by
    intro x y hx hy
    have h1 := hx.minimal (fun l => (x l + y l) / 2) fun l => by
      have := hx.nonneg l; have := hy.nonneg l; positivity
    have h2 := hx.minimal y hy.nonneg
    have h3 := hy.minimal x hx.nonneg
    rw [residual_midpoint] at h1
    have h4 : 0 ≤ ∑ i, (∑ l, B i l * (x l - y l)) ^ 2 := Finset.sum_nonneg fun _ _ => sq_nonneg _
    have h5 : ∑ i, (∑ l, B i l * (x l - y l)) ^ 2 = 0 := by linarith
    have h6 := (Finset.sum_eq_zero_iff_of_nonneg fun i _ => sq_nonneg _).1 h5
    have h7 := hinj (fun l => x l - y l) fun i => pow_eq_zero_iff (two_ne_zero) |>.1 (h6 i (Finset.mem_univ _))
    funext l
    exact sub_eq_zero.1 (congrFun h7 l)
  -- existence: the residual is coercive
  let L : (Fin n → ℝ) →ₗ[ℝ] (Fin m ⊕ Fin (regRows n) → ℝ) :=
    { toFun := fun x i => ∑ l, B i l * x l
      map_add' := by
        intro x y; funext i; simp [mul_add, Finset.sum_add_distrib]
      map_smul' := by
        intro c x; funext i
        simp only [Pi.smul_apply, smul_eq_mul, RingHom.id_apply, Finset.mul_sum]
        exact Finset.sum_congr rfl fun l _ => by ring }
  have hL : LinearMap.ker L = ⊥ := by
    rw [LinearMap.ker_eq_bot']
    intro z hz
    exact hinj z fun i => congrFun hz i
  obtain ⟨K, hK, hLip⟩ := L.exists_antilipschitzWith hL
  have hcont : Continuous (residual B b) := by unfold residual; fun_prop
  have hcoer : ∀ x, residual B b 0 < residual B b x ∨ ‖x‖ ≤ K * (‖b‖ + Real.sqrt (residual B b 0)) := by
    intro x
    by_contra hne
    push Not at hne
    obtain ⟨h1, h2⟩ := hne
    have h3 : ‖x‖ ≤ K * ‖L x‖ := by
      have := hLip.le_mul_dist x 0
      simpa [dist_eq_norm] using this
    have h4 : ‖L x - b‖ ≤ Real.sqrt (residual B b 0) := by
      rw [pi_norm_le_iff_of_nonneg (Real.sqrt_nonneg _)]
      intro i
      apply Real.le_sqrt_of_sq_le
      rw [Real.norm_eq_abs, sq_abs]
      refine le_trans ?_ h1
      unfold residual
      exact Finset.single_le_sum (f := fun i => (∑ l, B i l * x l - b i) ^ 2) (fun i _ => sq_nonneg _)
        (Finset.mem_univ i)
    have h5 : ‖L x‖ ≤ ‖b‖ + Real.sqrt (residual B b 0) := by
      have := norm_le_norm_add_norm_sub' (L x) b
      linarith
    have h6 : (0 : ℝ) ≤ K := K.2
    have := mul_le_mul_of_nonneg_left h5 h6
    linarith
  obtain ⟨x, hx, hmin⟩ : ∃ x ∈ Metric.closedBall (0 : Fin n → ℝ) (K * (‖b‖ + Real.sqrt (residual B b 0))) ∩
      {x | ∀ l, 0 ≤ x l}, IsMinOn (residual B b) (Metric.closedBall 0 (K * (‖b‖ + Real.sqrt (residual B b 0))) ∩
      {x | ∀ l, 0 ≤ x l}) x := by
    apply IsCompact.exists_isMinOn
    · apply (isCompact_closedBall _ _).inter_right
      have : {x : Fin n → ℝ | ∀ l, 0 ≤ x l} = ⋂ l, {x | 0 ≤ x l} := by ext; simp
      rw [this]
      exact isClosed_iInter fun l => isClosed_le continuous_const (continuous_apply l)
    · refine ⟨0, ?_, fun l => le_refl _⟩
      rw [Metric.mem_closedBall, dist_self]
      have : (0 : ℝ) ≤ K := K.2
      positivity
    · exact hcont.continuousOn
  have hxmin : IsMinimiser B b x := by
    refine ⟨hx.2, fun y hy => ?_⟩
    have h0 : residual B b x ≤ residual B b 0 := by
      refine hmin ⟨?_, fun l => le_refl _⟩
      rw [Metric.mem_closedBall, dist_self]
      have : (0 : ℝ) ≤ K := K.2
      positivity
    rcases hcoer y with h | h
    · linarith
    · exact hmin ⟨by simpa using h, hy⟩
  refine ⟨x, ⟨hxmin, ?_⟩, fun y hy => huniq y x hy.toIsMinimiser hxmin⟩
  intro hs
  -- zero satisfies the optimality conditions
  refine huniq x 0 hxmin ⟨fun _ => le_refl _, fun y hy => ?_⟩
  have h1 : residual B b y = residual B b 0 + ∑ i, (∑ l, B i l * y l) ^ 2 - 2 * ∑ l, y l * ∑ i, B i l * b i := by
    have h2 : ∑ l, y l * ∑ i, B i l * b i = ∑ i, (∑ l, B i l * y l) * b i := by
      simp only [Finset.mul_sum, Finset.sum_mul]
      rw [Finset.sum_comm]
      exact Finset.sum_congr rfl fun i _ => Finset.sum_congr rfl fun l _ => by ring
    rw [h2, Finset.mul_sum]
    unfold residual
    rw [← Finset.sum_add_distrib, ← Finset.sum_sub_distrib]
    exact Finset.sum_congr rfl fun i _ => by simp; ring
  rw [h1]
  have h3 : 0 ≤ ∑ i, (∑ l, B i l * y l) ^ 2 := Finset.sum_nonneg fun _ _ => sq_nonneg _
  have h4 : ∑ l, y l * ∑ i, B i l * b i ≤ 0 :=
    Finset.sum_nonpos fun l _ => mul_nonpos_of_nonneg_of_nonpos (hy l) (hs l)
  linarith

/-! ### C44 -/

/-- **C44.** Clipping: intensities of at least 1 count as 1, those below `1e-10` (also negative ones) as `1e-10`. -/
theorem C44_clipping (x : ℝ) :
    (1 ≤ x → opticalDepth x = 0) ∧ (x ≤ 1 / 10 ^ 10 → opticalDepth x = 10 * Real.log 10) ∧
    (1 / 10 ^ 10 ≤ x → x ≤ 1 → opticalDepth x = -Real.log x) ∧ 0 ≤ opticalDepth x := by
  have h0 : (0 : ℝ) < 1 / 10 ^ 10 := by positivity
  have h1 : (1 : ℝ) / 10 ^ 10 ≤ 1 := by norm_num
  refine ⟨?_, ?_, ?_, ?_⟩
  · intro h
    unfold opticalDepth clip
    rw [max_eq_left (h1.trans h), min_eq_right h]
    simp
  · intro h
    unfold opticalDepth clip
    rw [max_eq_right h, min_eq_left h1, one_div, Real.log_inv, Real.log_pow]
    norm_num
  · intro h2 h3
    unfold opticalDepth clip
    rw [max_eq_left h2, min_eq_left h3]
  · unfold opticalDepth
    have h2 : clip x ≤ 1 := min_le_right _ _
    have h3 : 0 < clip x := lt_min (lt_max_of_lt_right h0) one_pos
    have := Real.log_nonpos h3.le h2
    linarith

/-- **C44.** If no LED is dimmer than its reference, the linear solver returns zero extinction in all layers. -/
theorem C44_clear_air {m n : ℕ} (A : Fin m → Fin n → ℝ) (lam : ℝ) (rel : Fin m → ℝ) (hrel : ∀ led, 1 ≤ rel led)
    (σ : Fin n → ℝ) : LinearSolution A lam rel σ ↔ σ = 0 := by
  have hb : ∀ i, augRhs n rel i = 0 := by
    intro i
    cases i with
    | inl led => exact (C44_clipping _).1 (hrel led)
    | inr i => rfl
  constructor
  · intro h
    exact h.start fun l => by simp [hb]
  · rintro rfl
    refine ⟨⟨fun _ => le_refl _, fun y _ => ?_⟩, fun _ => rfl⟩
    have : residual (augMatrix A lam) (augRhs n rel) 0 = 0 := by
      rw [residual_eq_zero]; intro i; simp [hb]
    rw [this]; exact residual_nonneg _ _ _

/-- **C44.** Without relying on the starting point of the minimiser: every minimiser has zero extinction in each layer
that some ray crosses. -/
theorem C44_any_minimiser {m n : ℕ} (A : Fin m → Fin n → ℝ) (hA : ∀ i l, 0 ≤ A i l) (lam : ℝ) (rel : Fin m → ℝ)
    (hrel : ∀ led, 1 ≤ rel led) (σ : Fin n → ℝ) (h : IsMinimiser (augMatrix A lam) (augRhs n rel) σ) (led : Fin m)
    (l : Fin n) (hl : 0 < A led l) : σ l = 0 := by
  have hb : ∀ i, augRhs n rel i = 0 := by
    intro i
    cases i with
    | inl led => exact (C44_clipping _).1 (hrel led)
    | inr i => rfl
  have h0 : residual (augMatrix A lam) (augRhs n rel) 0 = 0 := by
    rw [residual_eq_zero]; intro i; simp [hb]
  have h1 := h.minimal 0 fun _ => le_refl _
  rw [h0] at h1
  have h2 := (residual_eq_zero _ _ _).1 (le_antisymm h1 (residual_nonneg _ _ _)) (.inl led)
  rw [hb] at h2
  simp only [augMatrix] at h2
  have h3 := (Finset.sum_eq_zero_iff_of_nonneg fun l _ => mul_nonneg (hA led l) (h.nonneg l)).1 h2 l
    (Finset.mem_univ _)
  exact (mul_eq_zero.1 h3).resolve_left hl.ne'

/-- **C44** (converse): if an LED whose ray crosses some layer is dimmer than its reference, the result is not zero. -/
theorem C44_smoke_detected {m n : ℕ} (A : Fin m → Fin n → ℝ) (hA : ∀ i l, 0 ≤ A i l) (lam : ℝ) (rel : Fin m → ℝ)
    (led : Fin m) (hdim : rel led < 1) (l : Fin n) (hl : 0 < A led l) (σ : Fin n → ℝ)
    (h : LinearSolution A lam rel σ) : σ ≠ 0 := by
  rintro rfl
  -- gradient of the residual in the direction of layer `l`
  have hpos : 0 < opticalDepth (rel led) := by
    unfold opticalDepth
    have h3 : 0 < clip (rel led) := lt_min (lt_max_of_lt_right (by positivity)) one_pos
    have h2 : clip (rel led) < 1 := by
      unfold clip
      rw [min_lt_iff]; left
      exact max_lt hdim (by norm_num)
    have := Real.log_neg h3 h2
    linarith
  set B := augMatrix A lam
  set b := augRhs n rel
  have hg : 0 < ∑ i, B i l * b i := by
    have h0 : ∀ i, 0 ≤ B i l * b i := by
      intro i
      cases i with
      | inl i => exact mul_nonneg (hA i l) (C44_clipping _).2.2.2
      | inr i => simp [b, augRhs]
    exact Finset.sum_pos' (fun i _ => h0 i) ⟨.inl led, Finset.mem_univ _, mul_pos hl hpos⟩
  have hQ : 0 < ∑ i, B i l ^ 2 :=
    Finset.sum_pos' (fun i _ => sq_nonneg _) ⟨.inl led, Finset.mem_univ _, pow_pos hl 2⟩
  set g := ∑ i, B i l * b i with hgd
  set Q := ∑ i, B i l ^ 2 with hQd
  have hres : ∀ t : ℝ, residual B b (fun k => if k = l then t else 0) = t ^ 2 * Q - 2 * t * g + ∑ i, b i ^ 2 := by
    intro t
    unfold residual
    rw [hQd, hgd, Finset.mul_sum, Finset.mul_sum, ← Finset.sum_sub_distrib, ← Finset.sum_add_distrib]
    refine Finset.sum_congr rfl fun i _ => ?_
    simp only [mul_ite, mul_zero, Finset.sum_ite_eq', Finset.mem_univ, if_true]
    ring
  have h0 : residual B b 0 = ∑ i, b i ^ 2 := by
    unfold residual; exact Finset.sum_congr rfl fun i _ => by simp
  have h1 := h.minimal (fun k => if k = l then g / Q else 0) fun k => by
    split
    · positivity
    · exact le_refl _
  rw [hres, h0] at h1
  have : (g / Q) ^ 2 * Q - 2 * (g / Q) * g = -(g ^ 2 / Q) := by field_simp; ring
  have h2 : 0 < g ^ 2 / Q := by positivity
  linarith

/-- Non-trivial case of C44: one LED brighter than its reference, one unchanged. -/
example (σ : Fin 3 → ℝ) : LinearSolution (threeRays 2) (1 / 1000) (fun i => if i = 0 then 2 else 1) σ ↔ σ = 0 :=
  C44_clear_air _ _ _ (fun led => by split <;> norm_num) σ

/-- Non-trivial case of C42: one metre through coefficient 1 and two metres through coefficient 3. -/
example : calcIntensities (m := 1) (n := 2) (fun _ l => if l = 0 then 1 else 2) (fun l => if l = 0 then 1 else 3) 0 =
    Real.exp (-7) := by
  rw [C42_beer_lambert, Fin.sum_univ_two]
  norm_num

/-- Non-trivial cases of C73: the profile 0, 0, 1 is bent, the profile 1, 2, 3 is not. -/
example : curvature 1 1 (fun l : Fin 3 => if (l : ℕ) = 2 then 1 else 0) = 2 := by
  simp [curvature, secondDiff]

example : curvature 1 1 (fun l : Fin 3 => (l : ℝ) + 1) = 0 :=
  ((C73_curvature one_pos 1 one_pos _).2).2 ⟨1, 1, fun l => by ring⟩

end Ledsa
