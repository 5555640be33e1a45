import Mathlib.Analysis.InnerProductSpace.PiL2
import Mathlib.Algebra.Order.Chebyshev
import Mathlib.Analysis.Convex.SpecificFunctions.Basic
import Mathlib.Topology.Order.Compact
import Verif.Model.Nonlinear
import Verif.Props.Solver

/-!
# What the nonlinear solver looks for (C119, C120)
-/

namespace Ledsa

/-- The sum of the absolute values. -/
def absSum {n : ℕ} (z : Fin n → ℝ) : ℝ := ∑ k, |z k|

/-- The length of a vector. -/
noncomputable def vecLength {m : ℕ} (v : Fin m → ℝ) : ℝ := Real.sqrt (∑ i, v i ^ 2)

theorem vecLength_norm {m : ℕ} (v : Fin m → ℝ) : vecLength v = ‖(WithLp.toLp 2 v : EuclideanSpace ℝ (Fin m))‖ := by
  rw [EuclideanSpace.norm_eq]
  unfold vecLength
  simp

theorem vecLength_add {m : ℕ} (v w : Fin m → ℝ) : vecLength (fun i => v i + w i) ≤ vecLength v + vecLength w := by
  rw [vecLength_norm, vecLength_norm, vecLength_norm]
  exact norm_add_le (WithLp.toLp 2 v : EuclideanSpace ℝ (Fin m)) (WithLp.toLp 2 w)

theorem vecLength_nonneg {m : ℕ} (v : Fin m → ℝ) : 0 ≤ vecLength v := Real.sqrt_nonneg _

theorem vecLength_mono {m : ℕ} (v w : Fin m → ℝ) (h : ∀ i, |v i| ≤ |w i|) : vecLength v ≤ vecLength w :=
  Real.sqrt_le_sqrt (Finset.sum_le_sum fun i _ => sq_le_sq.2 (h i))

theorem vecLength_smul {m : ℕ} (c : ℝ) (v : Fin m → ℝ) : vecLength (fun i => c * v i) = |c| * vecLength v := by
  unfold vecLength
  rw [← Real.sqrt_sq_eq_abs, ← Real.sqrt_mul (sq_nonneg c), Finset.mul_sum]
  congr 1
  exact Finset.sum_congr rfl fun i _ => by ring

theorem vecLength_eq_zero {m : ℕ} (v : Fin m → ℝ) : vecLength v = 0 ↔ ∀ i, v i = 0 := by
  unfold vecLength
  rw [Real.sqrt_eq_zero (Finset.sum_nonneg fun i _ => sq_nonneg _), Finset.sum_eq_zero_iff_of_nonneg fun i _ => sq_nonneg _]
  simp

theorem rmse_eq {m n : ℕ} (A : Fin m → Fin n → ℝ) (target : Fin m → ℝ) (σ : Fin n → ℝ) :
    rmse A target σ = vecLength (fun led => Real.exp (-depth σ (A led)) - target led) / m := by
  unfold rmse vecLength
  have : ∀ led, calcIntensities A σ led = Real.exp (-depth σ (A led)) := by
    intro led
    rw [C42_beer_lambert]
    unfold depth
    congr 2
    exact Finset.sum_congr rfl fun l _ => mul_comm _ _
  simp only [this]

/-! ### Existence -/

theorem cost_continuous {m n : ℕ} (A : Fin m → Fin n → ℝ) (wCurv wPref : ℝ) (target : Fin m → ℝ) :
    Continuous (costFunction A wCurv wPref target) := by
  have h : costFunction A wCurv wPref target = fun σ => vecLength (fun led => Real.exp (-depth σ (A led)) - target led) / m +
      curvature m wCurv σ + preference wPref σ := by
    funext σ
    unfold costFunction
    rw [rmse_eq]
  rw [h]
  unfold vecLength depth curvature secondDiff preference
  fun_prop

/-- There is always a best fit. -/
theorem bestFit_exists {m n : ℕ} (A : Fin m → Fin n → ℝ) (wCurv wPref : ℝ) (target : Fin m → ℝ) :
    ∃ σ, BestFit A wCurv wPref target σ := by
  have hc : IsCompact (Set.Icc (fun _ : Fin n => (0 : ℝ)) (fun _ => 10)) := isCompact_Icc
  obtain ⟨σ, hσ, hmin⟩ := hc.exists_isMinOn ⟨fun _ => 0, by simp [Pi.le_def]⟩
    (cost_continuous A wCurv wPref target).continuousOn
  refine ⟨σ, fun l => ⟨hσ.1 l, hσ.2 l⟩, fun τ hτ => ?_⟩
  exact hmin ⟨fun l => (hτ l).1, fun l => (hτ l).2⟩

/-! ### Rays that determine linear profiles -/

theorem exp_gap {a b M : ℝ} (ha : a ≤ M) (hb : b ≤ M) : Real.exp (-M) * |a - b| ≤ |Real.exp (-a) - Real.exp (-b)| := by
  wlog h : a ≤ b generalizing a b
  · rw [abs_sub_comm a b, abs_sub_comm (Real.exp _)]
    exact this hb ha (le_of_not_ge h)
  · rw [abs_of_nonpos (by linarith), abs_of_nonneg (by
      have := Real.exp_le_exp.2 (neg_le_neg h); linarith)]
    have h1 : Real.exp (-a) = Real.exp (-b) * Real.exp (b - a) := by rw [← Real.exp_add]; congr 1; ring
    have h2 := Real.add_one_le_exp (b - a)
    have h3 : Real.exp (-M) ≤ Real.exp (-b) := Real.exp_le_exp.2 (by linarith)
    have h4 := Real.exp_pos (-b)
    rw [h1]
    nlinarith [mul_le_mul_of_nonneg_right h3 (by linarith : 0 ≤ b - a)]

theorem depth_sub {n : ℕ} (σ τ d : Fin n → ℝ) : depth (fun k => σ k - τ k) d = depth σ d - depth τ d := by
  unfold depth
  rw [← Finset.sum_sub_distrib]
  exact Finset.sum_congr rfl fun l _ => by ring

theorem depth_mul {n : ℕ} (c : ℝ) (σ d : Fin n → ℝ) : depth (fun k => c * σ k) d = c * depth σ d := by
  unfold depth
  rw [Finset.mul_sum]
  exact Finset.sum_congr rfl fun l _ => by ring

theorem secondDiff_sub {n : ℕ} (σ τ : Fin n → ℝ) (i : Fin (n - 2)) :
    secondDiff (fun k => σ k - τ k) i = secondDiff σ i - secondDiff τ i := by
  unfold secondDiff; ring

theorem curvature_sub {n : ℕ} (m : ℕ) (w : ℝ) (hw : 0 ≤ w) (σ τ : Fin n → ℝ) :
    curvature m w (fun k => σ k - τ k) ≤ curvature m w σ + curvature m w τ := by
  unfold curvature
  rw [← add_mul, ← add_mul, ← add_mul, ← Finset.sum_add_distrib]
  have h : ∑ i, |secondDiff (fun k => σ k - τ k) i| ≤ ∑ i, (|secondDiff σ i| + |secondDiff τ i|) :=
    Finset.sum_le_sum fun i _ => by rw [secondDiff_sub]; exact abs_sub _ _
  gcongr

/-- If the rays determine linear profiles, optical depths and curvature together control a profile. -/
theorem sees_profile {m n : ℕ} (hm : 0 < m) (A : Fin m → Fin n → ℝ) (hdet : DeterminesAffine A) (w s : ℝ) (hw : 0 < w) (hs : 0 < s) :
    ∃ c : ℝ, 0 < c ∧ ∀ z : Fin n → ℝ, c * absSum z ≤ s * vecLength (fun led => depth z (A led)) + curvature m w z := by
  set G : (Fin n → ℝ) → ℝ := fun z => s * vecLength (fun led => depth z (A led)) + curvature m w z with hG
  have hcont : Continuous G := by
    rw [hG]
    unfold vecLength depth curvature secondDiff
    fun_prop
  have hhom : ∀ (c : ℝ) z, 0 ≤ c → G (fun k => c * z k) = c * G z := by
    intro c z hc
    rw [hG]
    simp only [depth_mul]
    rw [vecLength_smul, abs_of_nonneg hc]
    have : curvature m w (fun k => c * z k) = c * curvature m w z := by
      unfold curvature
      have e : ∀ i, |secondDiff (fun k => c * z k) i| = c * |secondDiff z i| := by
        intro i
        rw [← abs_of_nonneg hc, ← abs_mul, abs_of_nonneg hc]
        congr 1
        unfold secondDiff
        ring
      simp only [e, ← Finset.mul_sum]
      ring
    rw [this]
    ring
  have hpos : ∀ z, absSum z = 1 → 0 < G z := by
    intro z hz
    have h1 : 0 ≤ s * vecLength (fun led => depth z (A led)) := mul_nonneg hs.le (vecLength_nonneg _)
    obtain ⟨h2, h3⟩ := C73_curvature hm w hw z
    rcases (add_nonneg h1 h2).lt_or_eq with h | h
    · exact h
    · exfalso
      have e1 : s * vecLength (fun led => depth z (A led)) = 0 := by linarith
      have e2 : curvature m w z = 0 := by linarith
      have haff := h3.1 e2
      have hd := (vecLength_eq_zero _).1 ((mul_eq_zero.1 e1).resolve_left hs.ne')
      have := hdet z (fun _ => 0) haff ⟨0, 0, fun _ => by simp⟩ (fun led => by rw [hd led]; simp [depth])
      rw [this] at hz
      simp [absSum] at hz
  have hca : Continuous fun z : Fin n → ℝ => absSum z := by unfold absSum; fun_prop
  have hcomp : IsCompact {z : Fin n → ℝ | absSum z = 1} := by
    apply Metric.isCompact_of_isClosed_isBounded
    · exact isClosed_eq hca continuous_const
    · refine (Metric.isBounded_closedBall (x := (0 : Fin n → ℝ)) (r := 1)).subset ?_
      intro z hz
      rw [mem_closedBall_zero_iff, pi_norm_le_iff_of_nonneg zero_le_one]
      intro k
      rw [Real.norm_eq_abs]
      have : |z k| ≤ absSum z := Finset.single_le_sum (f := fun k => |z k|) (fun k _ => abs_nonneg _) (Finset.mem_univ k)
      rw [Set.mem_ofPred_eq] at hz
      linarith
  have hG0 : ∀ z, 0 ≤ G z := fun z =>
    add_nonneg (mul_nonneg hs.le (vecLength_nonneg _)) (C73_curvature hm w hw z).1
  have key : ∃ c : ℝ, 0 < c ∧ ∀ z, absSum z = 1 → c ≤ G z := by
    by_cases hne : {z : Fin n → ℝ | absSum z = 1}.Nonempty
    · obtain ⟨z0, hz0, hmin⟩ := hcomp.exists_isMinOn hne hcont.continuousOn
      exact ⟨G z0, hpos z0 hz0, fun z hz => hmin hz⟩
    · exact ⟨1, one_pos, fun z hz => absurd ⟨z, hz⟩ hne⟩
  obtain ⟨c, hc, hmin⟩ := key
  refine ⟨c, hc, fun z => ?_⟩
  have h0 : 0 ≤ absSum z := Finset.sum_nonneg fun k _ => abs_nonneg _
  rcases h0.eq_or_lt with h | h
  · rw [← h, mul_zero]; exact hG0 z
  · have e : absSum (fun k => (absSum z)⁻¹ * z k) = 1 := by
      have e1 : absSum (fun k => (absSum z)⁻¹ * z k) = |(absSum z)⁻¹| * absSum z := by
        generalize (absSum z)⁻¹ = c
        unfold absSum
        simp only [abs_mul]
        rw [← Finset.mul_sum]
      rw [e1, abs_of_pos (inv_pos.2 h)]
      exact inv_mul_cancel₀ h.ne'
    have h1 := hmin _ e
    rw [hhom _ _ (inv_pos.2 h).le] at h1
    calc c * absSum z ≤ (absSum z)⁻¹ * G z * absSum z := mul_le_mul_of_nonneg_right h1 h0
      _ = G z := by field_simp

theorem absSum_nonneg {n : ℕ} (z : Fin n → ℝ) : 0 ≤ absSum z := Finset.sum_nonneg fun _ _ => abs_nonneg _

theorem preference_sub {n : ℕ} (w : ℝ) (σ τ : Fin n → ℝ) :
    |preference w σ - preference w τ| ≤ |w| / n * absSum (fun k => σ k - τ k) := by
  unfold preference absSum
  rw [show (∑ l, σ l) / n * w - (∑ l, τ l) / n * w = w / n * ∑ l, (σ l - τ l) by
    rw [Finset.sum_sub_distrib]; ring, abs_mul, abs_div, Nat.abs_cast]
  exact mul_le_mul_of_nonneg_left (Finset.abs_sum_le_sum_abs _ _) (by positivity)

/-- Bound for the optical depths of profiles within the bounds. -/
theorem depth_bound {m n : ℕ} (A : Fin m → Fin n → ℝ) (hA : ∀ i l, 0 ≤ A i l) (σ : Fin n → ℝ) (hσ : InBounds σ) (led : Fin m) :
    depth σ (A led) ≤ ∑ i, 10 * rayLength (A i) := by
  have h1 : depth σ (A led) ≤ 10 * rayLength (A led) := by
    unfold depth rayLength
    rw [Finset.mul_sum]
    exact Finset.sum_le_sum fun l _ => by nlinarith [hA led l, (hσ l).2]
  have h2 : ∀ i, 0 ≤ 10 * rayLength (A i) := fun i => mul_nonneg (by norm_num) (Finset.sum_nonneg fun l _ => hA i l)
  exact h1.trans (Finset.single_le_sum (f := fun i => 10 * rayLength (A i)) (fun i _ => h2 i) (Finset.mem_univ led))

/-- **C119 (partial).** If the rays determine the profiles linear in the layer number and the preference is weak enough, the best
fit is near the true profile: the distance is at most a constant times the error of the intensities plus the curvature of
the true profile. The constants depend on the rays and the weight of the curvature only. -/
theorem C119_error_partial {m n : ℕ} (hm : 0 < m) (A : Fin m → Fin n → ℝ) (hA : ∀ i l, 0 ≤ A i l) (hdet : DeterminesAffine A)
    (wCurv : ℝ) (hw : 0 < wCurv) : ∃ w0 K : ℝ, 0 < w0 ∧ 0 < K ∧ ∀ wPref : ℝ, |wPref| ≤ w0 →
      ∀ (σ : Fin n → ℝ) (target : Fin m → ℝ) (x : Fin n → ℝ), InBounds σ → BestFit A wCurv wPref target x →
        ∑ l, |x l - σ l| ≤ K * (Real.sqrt (∑ led, (target led - Real.exp (-∑ l, A led l * σ l)) ^ 2) / m +
          curvature m wCurv σ) := by
  have hm' : (0 : ℝ) < m := by exact_mod_cast hm
  set M := ∑ i, 10 * rayLength (A i) with hM
  obtain ⟨c, hc, hsee⟩ := sees_profile hm A hdet wCurv (Real.exp (-M) / m) hw (by positivity)
  refine ⟨c / 2, 4 / c, by positivity, by positivity, fun wPref hwp σ target x hσ ⟨hx, hmin⟩ => ?_⟩
  have hcost := hmin σ hσ
  unfold costFunction at hcost
  rw [rmse_eq, rmse_eq] at hcost
  have hcurvσ := (C73_curvature hm wCurv hw σ).1
  -- the intensities of the fit and of the truth differ by twice the error at most
  have h1 : vecLength (fun led => Real.exp (-depth x (A led)) - Real.exp (-depth σ (A led))) ≤
      vecLength (fun led => Real.exp (-depth x (A led)) - target led) +
        vecLength (fun led => target led - Real.exp (-depth σ (A led))) := by
    refine le_of_eq_of_le ?_ (vecLength_add _ _)
    congr 1
    funext led
    ring
  have h2 : vecLength (fun led => Real.exp (-M) * depth (fun k => x k - σ k) (A led)) ≤
      vecLength (fun led => Real.exp (-depth x (A led)) - Real.exp (-depth σ (A led))) := by
    apply vecLength_mono
    intro led
    rw [abs_mul, abs_of_pos (Real.exp_pos _), depth_sub]
    exact exp_gap (depth_bound A hA x hx led) (depth_bound A hA σ hσ led)
  rw [vecLength_smul, abs_of_pos (Real.exp_pos _)] at h2
  have h3 : vecLength (fun led => Real.exp (-depth σ (A led)) - target led) =
      vecLength (fun led => target led - Real.exp (-depth σ (A led))) := by
    unfold vecLength
    congr 1
    exact Finset.sum_congr rfl fun led _ => by ring
  rw [h3] at hcost
  have h4 := hsee (fun k => x k - σ k)
  have h5 := curvature_sub m wCurv hw.le x σ
  have h6 := preference_sub wPref σ x
  have h6' : absSum (fun k => σ k - x k) = absSum (fun k => x k - σ k) := by
    unfold absSum
    exact Finset.sum_congr rfl fun k _ => abs_sub_comm _ _
  rw [h6'] at h6
  have h7 : |wPref| / n * absSum (fun k => x k - σ k) ≤ c / 2 * absSum (fun k => x k - σ k) := by
    rcases Nat.eq_zero_or_pos n with hn | hn
    · subst hn; simp [absSum]
    · apply mul_le_mul_of_nonneg_right _ (absSum_nonneg _)
      have hn' : (1 : ℝ) ≤ n := by exact_mod_cast hn
      exact (div_le_self (abs_nonneg _) hn').trans hwp
  have h8 := (le_abs_self _).trans h6
  have h9 : Real.exp (-M) / m * vecLength (fun led => depth (fun k => x k - σ k) (A led)) ≤
      vecLength (fun led => Real.exp (-depth x (A led)) - target led) / m +
        vecLength (fun led => target led - Real.exp (-depth σ (A led))) / m := by
    rw [div_mul_eq_mul_div, ← add_div]
    exact div_le_div_of_nonneg_right (h2.trans h1) hm'.le
  have key : c / 2 * absSum (fun k => x k - σ k) ≤
      2 * (vecLength (fun led => target led - Real.exp (-depth σ (A led))) / m) + 2 * curvature m wCurv σ := by
    linarith
  have e : absSum (fun k => x k - σ k) ≤ 4 / c * (vecLength (fun led => target led - Real.exp (-depth σ (A led))) / m +
      curvature m wCurv σ) := by
    rw [div_mul_eq_mul_div, le_div_iff₀ hc]
    linarith
  exact e

/-- **C119 (partial).** Intensities that follow the Beer-Lambert law for a profile linear in the layer number: the best fit is that
profile and nothing else, if the rays determine such profiles and the preference is weak enough. How weak depends on the rays and
the weight of the curvature only, not on the smoke. -/
theorem C119_exact_partial {m n : ℕ} (hm : 0 < m) (A : Fin m → Fin n → ℝ) (hA : ∀ i l, 0 ≤ A i l) (hdet : DeterminesAffine A)
    (wCurv : ℝ) (hw : 0 < wCurv) : ∃ w0 : ℝ, 0 < w0 ∧ ∀ wPref : ℝ, |wPref| ≤ w0 →
      ∀ σ : Fin n → ℝ, InBounds σ → Affine σ → ∀ x : Fin n → ℝ,
        BestFit A wCurv wPref (fun led => Real.exp (-∑ l, A led l * σ l)) x ↔ x = σ := by
  obtain ⟨w0, K, h0, hK, h⟩ := C119_error_partial hm A hA hdet wCurv hw
  refine ⟨w0, h0, fun wPref hwp σ hσ haff x => ?_⟩
  have hc := (C73_curvature hm wCurv hw σ).2.2 haff
  have uniq : ∀ y, BestFit A wCurv wPref (fun led => Real.exp (-∑ l, A led l * σ l)) y → y = σ := by
    intro y hy
    have := h wPref hwp σ _ y hσ hy
    rw [hc] at this
    simp only [sub_self, ne_eq, OfNat.ofNat_ne_zero, not_false_eq_true, zero_pow, Finset.sum_const_zero, Real.sqrt_zero,
      zero_div, add_zero, mul_zero] at this
    funext l
    have h1 : |y l - σ l| ≤ ∑ l, |y l - σ l| :=
      Finset.single_le_sum (f := fun l => |y l - σ l|) (fun _ _ => abs_nonneg _) (Finset.mem_univ l)
    have h2 : |y l - σ l| = 0 := le_antisymm (h1.trans this) (abs_nonneg _)
    linarith [abs_eq_zero.1 h2]
  refine ⟨uniq x, ?_⟩
  rintro rfl
  obtain ⟨y, hy⟩ := bestFit_exists A wCurv wPref (fun led => Real.exp (-∑ l, A led l * x l))
  rwa [uniq y hy] at hy

/-! ### Layers that no ray crosses -/

/-- How much the curvature feels a change of one layer: the sum of the absolute second differences of a unit step at `k`. -/
def bend (n k : ℕ) : ℝ := (if k + 2 < n then 1 else 0) + (if 1 ≤ k ∧ k + 1 < n then 2 else 0) + (if 2 ≤ k then 1 else 0)

theorem secondDiff_update {n : ℕ} (σ : Fin n → ℝ) (k : Fin n) (v : ℝ) (i : Fin (n - 2)) :
    |secondDiff (Function.update σ k v) i| ≤ |secondDiff σ i| + |v - σ k| *
      ((if (i : ℕ) = k then 1 else 0) + (if (i : ℕ) + 1 = k then 2 else 0) + (if (i : ℕ) + 2 = k then 1 else 0)) := by
  have hk := k.2
  have e : ∀ (j : ℕ) (hj : j < n), Function.update σ k v ⟨j, hj⟩ = σ ⟨j, hj⟩ + (v - σ k) * if j = k then 1 else 0 := by
    intro j hj
    by_cases h : j = k
    · have : (⟨j, hj⟩ : Fin n) = k := Fin.ext h
      rw [this, Function.update_self, if_pos h]; ring
    · rw [Function.update_of_ne (fun h' => h (congrArg Fin.val h')), if_neg h]; ring
  have h1 : secondDiff (Function.update σ k v) i = secondDiff σ i + (v - σ k) *
      ((if (i : ℕ) = k then 1 else 0) - 2 * (if (i : ℕ) + 1 = k then 1 else 0) + (if (i : ℕ) + 2 = k then 1 else 0)) := by
    unfold secondDiff
    rw [e, e, e]
    ring
  rw [h1]
  refine (abs_add_le _ _).trans (add_le_add le_rfl ?_)
  rw [abs_mul]
  refine mul_le_mul_of_nonneg_left ?_ (abs_nonneg _)
  split_ifs <;> first | omega | norm_num

theorem sum_secondDiff_update {n : ℕ} (σ : Fin n → ℝ) (k : Fin n) (v : ℝ) :
    ∑ i, |secondDiff (Function.update σ k v) i| ≤ ∑ i, |secondDiff σ i| + |v - σ k| * bend n k := by
  refine (Finset.sum_le_sum fun i _ => secondDiff_update σ k v i).trans ?_
  rw [Finset.sum_add_distrib, ← Finset.mul_sum]
  refine add_le_add le_rfl (mul_le_mul_of_nonneg_left ?_ (abs_nonneg _))
  rw [Finset.sum_add_distrib, Finset.sum_add_distrib]
  have hk := k.2
  have one : ∀ (s : ℕ) (c : ℝ), 0 ≤ c →
      ∑ i : Fin (n - 2), (if (i : ℕ) + s = k then c else 0) ≤ if s ≤ k ∧ k - s < n - 2 then c else 0 := by
    intro s c hc
    by_cases h : s ≤ (k : ℕ) ∧ k - s < n - 2
    · rw [if_pos h, Finset.sum_eq_single ⟨k - s, h.2⟩]
      · split_ifs <;> linarith
      · intro b _ hb
        rw [if_neg]
        intro h'
        exact hb (Fin.ext (by simp only; omega))
      · intro h'; exact absurd (Finset.mem_univ _) h'
    · rw [if_neg h]
      refine le_of_eq (Finset.sum_eq_zero fun i _ => if_neg ?_)
      have := i.2
      omega
  have h0 := one 0 1 zero_le_one
  have h1 := one 1 2 zero_le_two
  have h2 := one 2 1 zero_le_one
  simp only [add_zero, Nat.zero_le, true_and, Nat.sub_zero] at h0
  have e0 : ((k : ℕ) < n - 2) ↔ (k : ℕ) + 2 < n := by omega
  have e1 : (1 ≤ (k : ℕ) ∧ (k : ℕ) - 1 < n - 2) ↔ 1 ≤ (k : ℕ) ∧ (k : ℕ) + 1 < n := by omega
  have e2 : (2 ≤ (k : ℕ) ∧ (k : ℕ) - 2 < n - 2) ↔ 2 ≤ (k : ℕ) := by omega
  simp only [e0] at h0
  simp only [e1] at h1
  simp only [e2] at h2
  unfold bend
  linarith

/-- **C120 (partial).** A layer crossed by no ray gets the upper bound, whatever the intensities are, if the preference for high
values outweighs the curvature. -/
theorem C120_unseen_partial {m n : ℕ} (A : Fin m → Fin n → ℝ) (wCurv wPref : ℝ) (hw : 0 ≤ wCurv) (k : Fin n)
    (hk : ∀ led, A led k = 0) (hp : 2 * m * n * bend n k * wCurv < -wPref) (target : Fin m → ℝ) (x : Fin n → ℝ)
    (h : BestFit A wCurv wPref target x) : x k = 10 := by
  obtain ⟨hx, hmin⟩ := h
  by_contra hne
  have hlt : x k < 10 := lt_of_le_of_ne (hx k).2 hne
  have hb : InBounds (Function.update x k 10) := by
    intro l
    by_cases e : l = k
    · subst e; simp
    · rw [Function.update_of_ne e]; exact hx l
  have h0 := hmin _ hb
  have hn : (0 : ℝ) < n := by exact_mod_cast (Nat.zero_le _).trans_lt k.2
  have h1 : rmse A target (Function.update x k 10) = rmse A target x := by
    rw [rmse_eq, rmse_eq]
    congr 2
    funext led
    have : depth (Function.update x k 10) (A led) = depth x (A led) := by
      unfold depth
      refine Finset.sum_congr rfl fun l _ => ?_
      by_cases e : l = k
      · subst e; rw [hk led]; ring
      · rw [Function.update_of_ne e]
    rw [this]
  have h2 : preference wPref (Function.update x k 10) = preference wPref x + (10 - x k) / n * wPref := by
    unfold preference
    rw [Finset.sum_update_of_mem (Finset.mem_univ k),
      ← Finset.add_sum_erase Finset.univ x (Finset.mem_univ k), ← Finset.erase_eq]
    ring
  have h3 : curvature m wCurv (Function.update x k 10) ≤ curvature m wCurv x + (10 - x k) * bend n k * m * 2 * wCurv := by
    unfold curvature
    have := sum_secondDiff_update x k 10
    rw [abs_of_pos (by linarith)] at this
    have hmw : (0 : ℝ) ≤ m * 2 * wCurv := by positivity
    nlinarith [mul_le_mul_of_nonneg_right this hmw]
  unfold costFunction at h0
  rw [h1, h2] at h0
  have h4 : 0 ≤ (10 - x k) * bend n k * m * 2 * wCurv + (10 - x k) / n * wPref := by linarith
  have h5 : (10 - x k) * bend n k * m * 2 * wCurv + (10 - x k) / n * wPref =
      (10 - x k) / n * (2 * m * n * bend n k * wCurv + wPref) := by
    field_simp
  rw [h5] at h4
  have h6 : 0 < (10 - x k) / n := div_pos (by linarith) hn
  nlinarith

theorem bend_le (n k : ℕ) : bend n k ≤ 4 ∧ (k = 0 ∨ k + 1 = n → bend n k ≤ 1) := by
  unfold bend
  constructor
  · split_ifs <;> norm_num
  · rintro (h | h) <;> split_ifs <;> first | omega | norm_num

/-- **C120 (partial).** With the default weights and fewer than 3000 pairs of LED and layer, the lowest and the highest layer get the
upper bound if no ray crosses them; any other layer does with fewer than 750 pairs. -/
theorem C120_default_partial {m n : ℕ} (A : Fin m → Fin n → ℝ) (k : Fin n) (hk : ∀ led, A led k = 0)
    (hmn : m * n < 750 ∨ ((k : ℕ) = 0 ∨ (k : ℕ) + 1 = n) ∧ m * n < 3000) (target : Fin m → ℝ) (x : Fin n → ℝ)
    (h : BestFit A defaultCurv defaultPref target x) : x k = 10 := by
  refine C120_unseen_partial A defaultCurv defaultPref (by unfold defaultCurv; positivity) k hk ?_ target x h
  obtain ⟨h4, h1⟩ := bend_le n k
  have h0 : (0 : ℝ) ≤ m * n := by positivity
  unfold defaultCurv defaultPref
  rcases hmn with hmn | ⟨he, hmn⟩
  · have e : (m : ℝ) * n < 750 := by exact_mod_cast hmn
    nlinarith
  · have e : (m : ℝ) * n < 3000 := by exact_mod_cast hmn
    have := h1 he
    nlinarith

theorem one_sub_exp {d M : ℝ} (h0 : 0 ≤ d) (hd : d ≤ M) (hM : 0 < M) : d * ((1 - Real.exp (-M)) / M) ≤ 1 - Real.exp (-d) := by
  have hb : 0 ≤ 1 - d / M := by rw [sub_nonneg, div_le_one hM]; exact hd
  have h := convexOn_exp.2 (Set.mem_univ (-M)) (Set.mem_univ 0) (div_nonneg h0 hM.le) hb (by ring)
  simp only [smul_eq_mul, mul_zero, add_zero, Real.exp_zero, mul_one] at h
  rw [show d / M * -M = -d by field_simp] at h
  have : d * ((1 - Real.exp (-M)) / M) = d / M * (1 - Real.exp (-M)) := by ring
  rw [this]
  linarith

theorem sum_le_vecLength {m : ℕ} (v : Fin m → ℝ) : ∑ i, v i ≤ Real.sqrt m * vecLength v := by
  unfold vecLength
  rw [← Real.sqrt_mul (Nat.cast_nonneg m)]
  apply Real.le_sqrt_of_sq_le
  have := sq_sum_le_card_mul_sum_sq (s := Finset.univ) (f := v)
  simpa using this

/-- **C120 (partial).** Without smoke the best fit is zero in all layers and nothing else, if the rays are long enough in every
layer: `M` is ten times the length of the longest ray. -/
theorem C120_clear_partial {m n : ℕ} (hm : 0 < m) (A : Fin m → Fin n → ℝ) (hA : ∀ i l, 0 ≤ A i l) (wCurv wPref M : ℝ)
    (hw : 0 < wCurv) (hM : 0 < M) (hlen : ∀ i, 10 * ∑ l, A i l ≤ M)
    (hseen : ∀ l, -wPref * (m * Real.sqrt m) * M < n * (1 - Real.exp (-M)) * ∑ i, A i l) (x : Fin n → ℝ) :
    BestFit A wCurv wPref (fun _ => 1) x ↔ ∀ l, x l = 0 := by
  have hm' : (0 : ℝ) < m := by exact_mod_cast hm
  have hsm : 0 < Real.sqrt m := Real.sqrt_pos.2 hm'
  set c := (1 - Real.exp (-M)) / M with hcd
  have hlow : ∀ τ, InBounds τ → ∑ l, τ l * (c * (∑ i, A i l) / (m * Real.sqrt m) + wPref / n) ≤
      costFunction A wCurv wPref (fun _ => 1) τ := by
    intro τ hτ
    have hd0 : ∀ led, 0 ≤ depth τ (A led) := fun led => depth_nonneg (fun l => (hτ l).1) (hA led)
    have hdM : ∀ led, depth τ (A led) ≤ M := by
      intro led
      refine le_trans ?_ (hlen led)
      unfold depth
      rw [Finset.mul_sum]
      exact Finset.sum_le_sum fun l _ => by nlinarith [hA led l, (hτ l).2]
    have h1 : ∑ led, depth τ (A led) * c ≤ Real.sqrt m * vecLength (fun led => Real.exp (-depth τ (A led)) - 1) := by
      have e : vecLength (fun led => Real.exp (-depth τ (A led)) - 1) = vecLength (fun led => 1 - Real.exp (-depth τ (A led))) := by
        unfold vecLength
        congr 1
        exact Finset.sum_congr rfl fun led _ => by ring
      rw [e]
      exact (Finset.sum_le_sum fun led _ => one_sub_exp (hd0 led) (hdM led) hM).trans (sum_le_vecLength _)
    have h2 : ∑ led, depth τ (A led) * c = ∑ l, τ l * (c * ∑ i, A i l) := by
      unfold depth
      simp only [Finset.sum_mul, Finset.mul_sum]
      rw [Finset.sum_comm]
      exact Finset.sum_congr rfl fun l _ => Finset.sum_congr rfl fun i _ => by ring
    have h3 : (∑ l, τ l * (c * ∑ i, A i l)) / (m * Real.sqrt m) ≤ rmse A (fun _ => 1) τ := by
      rw [rmse_eq, div_le_div_iff₀ (by positivity) hm']
      rw [h2] at h1
      nlinarith
    have h4 := (C73_curvature (n := n) hm wCurv hw τ).1
    have h5 : ∑ l, τ l * (c * (∑ i, A i l) / (m * Real.sqrt m) + wPref / n) =
        (∑ l, τ l * (c * ∑ i, A i l)) / (m * Real.sqrt m) + preference wPref τ := by
      unfold preference
      rw [Finset.sum_div, div_mul_eq_mul_div, Finset.sum_mul, Finset.sum_div, ← Finset.sum_add_distrib]
      exact Finset.sum_congr rfl fun l _ => by ring
    rw [h5]
    unfold costFunction
    linarith
  have hpos : ∀ l, 0 < c * (∑ i, A i l) / (m * Real.sqrt m) + wPref / n := by
    intro l
    have hn : (0 : ℝ) < n := by exact_mod_cast (Nat.zero_le _).trans_lt l.2
    have h := hseen l
    have e : c * (∑ i, A i l) / (m * Real.sqrt m) + wPref / n =
        (n * (1 - Real.exp (-M)) * (∑ i, A i l) - -wPref * (m * Real.sqrt m) * M) / (M * (m * Real.sqrt m) * n) := by
      rw [hcd]
      field_simp
      ring
    rw [e]
    exact div_pos (by linarith) (by positivity)
  have hzero : costFunction A wCurv wPref (fun _ => 1) (fun _ : Fin n => 0) = 0 := by
    unfold costFunction preference curvature secondDiff
    rw [rmse_eq]
    simp [depth, vecLength]
  constructor
  · rintro ⟨hx, hmin⟩
    have h0 := hmin (fun _ => 0) (fun _ => ⟨le_rfl, by norm_num⟩)
    rw [hzero] at h0
    have h1 := (hlow x hx).trans h0
    have h2 : ∀ l ∈ Finset.univ, 0 ≤ x l * (c * (∑ i, A i l) / (m * Real.sqrt m) + wPref / n) :=
      fun l _ => mul_nonneg (hx l).1 (hpos l).le
    have h3 := (Finset.sum_eq_zero_iff_of_nonneg h2).1 (le_antisymm h1 (Finset.sum_nonneg h2))
    intro l
    exact (mul_eq_zero.1 (h3 l (Finset.mem_univ l))).resolve_right (hpos l).ne'
  · intro hx
    have : x = fun _ => 0 := funext hx
    subst this
    refine ⟨fun _ => ⟨le_rfl, by norm_num⟩, fun τ hτ => ?_⟩
    rw [hzero]
    exact (Finset.sum_nonneg fun l _ => mul_nonneg (hτ l).1 (hpos l).le).trans (hlow τ hτ)

/-- **C120 is false in general.** Three LEDs in front of four layers, the highest layer crossed by no ray: without smoke every best
fit has the largest possible extinction coefficient there. -/
theorem C120_false : ∃ A : Fin 3 → Fin 4 → ℝ, (∀ i l, 0 ≤ A i l) ∧ DeterminesAffine A ∧
    (∃ x, BestFit A defaultCurv defaultPref (fun _ => 1) x) ∧
    ∀ x, BestFit A defaultCurv defaultPref (fun _ => 1) x → x 3 = 10 := by
  let A : Fin 3 → Fin 4 → ℝ := ![![5, 0, 0, 0], ![2, 3, 0, 0], ![1, 2, 2, 0]]
  refine ⟨A, ?_, ?_, bestFit_exists _ _ _ _, fun x hx => ?_⟩
  · intro i l
    fin_cases i <;> fin_cases l <;> norm_num [A]
  · rw [C43_condition_iff (by norm_num)]
    refine ⟨0, 1, ?_⟩
    simp [rayMoment, rayLength, Fin.sum_univ_four, A]
  · refine C120_default_partial A 3 ?_ (.inl (by norm_num)) _ x hx
    intro led
    fin_cases led <;> rfl

/-! ### Examples -/

/-- C119: a profile that grows from layer to layer, three LEDs. -/
example : ∃ w0 : ℝ, 0 < w0 ∧ ∀ wPref : ℝ, |wPref| ≤ w0 → ∀ x : Fin 3 → ℝ,
    BestFit ![![4, 0, 0], ![0, 2, 2]] defaultCurv wPref (fun led => Real.exp (-![2, 5] led)) x ↔ x = ![1 / 2, 1, 3 / 2] := by
  obtain ⟨w0, h0, h⟩ := C119_exact_partial (by norm_num) (![![4, 0, 0], ![0, 2, 2]] : Fin 2 → Fin 3 → ℝ)
    (by intro i l; fin_cases i <;> fin_cases l <;> norm_num)
    ((C43_condition_iff (by norm_num) _).2 ⟨0, 1, by simp [rayMoment, rayLength, Fin.sum_univ_three]; norm_num⟩)
    defaultCurv (by unfold defaultCurv; positivity)
  refine ⟨w0, h0, fun wPref hw x => ?_⟩
  rw [← h wPref hw ![1 / 2, 1, 3 / 2] (by intro l; fin_cases l <;> norm_num)
    ⟨1 / 2, 1 / 2, by intro l; fin_cases l <;> norm_num⟩ x]
  have e : (fun led : Fin 2 => Real.exp (-(![2, 5] : Fin 2 → ℝ) led)) = fun led : Fin 2 =>
      Real.exp (-∑ l, (![![4, 0, 0], ![0, 2, 2]] : Fin 2 → Fin 3 → ℝ) led l * (![1 / 2, 1, 3 / 2] : Fin 3 → ℝ) l) := by
    funext led
    fin_cases led <;> simp [Fin.sum_univ_succ] <;> norm_num
  rw [e]

/-- C120: four LEDs, rays of five metres in ten layers, half a metre in each; the default weights give zero. -/
example (x : Fin 10 → ℝ) : BestFit (fun (_ : Fin 4) (_ : Fin 10) => 1 / 2) defaultCurv defaultPref (fun _ => 1) x ↔ ∀ l, x l = 0 := by
  refine C120_clear_partial (by norm_num) _ (fun _ _ => by norm_num) _ _ 50 (by unfold defaultCurv; positivity) (by norm_num)
    (fun _ => by norm_num) (fun _ => ?_) x
  have h1 : Real.exp (-50) ≤ 1 / 2 := by
    have := Real.add_one_le_exp (50 : ℝ)
    rw [Real.exp_neg, inv_le_comm₀ (Real.exp_pos _) (by norm_num)]
    linarith
  have h2 : Real.sqrt ((4 : ℕ) : ℝ) = 2 := by
    rw [show ((4 : ℕ) : ℝ) = 2 ^ 2 by norm_num]
    exact Real.sqrt_sq (by norm_num)
  rw [h2]
  unfold defaultPref
  norm_num
  linarith

end Ledsa
