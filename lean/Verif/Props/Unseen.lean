import Verif.Props.Downwards

/-!
# Layers that no LED is seen through

The domain may be larger than the part of the room that the rays cross. Nothing is known about the smoke in the other layers.
-/

namespace Ledsa

/-- No ray crosses the layer. -/
def Unseen {m n : ℕ} (A : Fin m → Fin n → ℝ) (l : Fin n) : Prop := ∀ led, A led l = 0

theorem depth_seen {m n : ℕ} (A : Fin m → Fin n → ℝ) (σ τ : Fin n → ℝ) (h : ∀ l, ¬ Unseen A l → σ l = τ l) (led : Fin m) :
    depth σ (A led) = depth τ (A led) := by
  unfold depth
  refine Finset.sum_congr rfl fun l _ => ?_
  by_cases hl : Unseen A l
  · rw [hl led]; simp
  · rw [h l hl]

theorem intensities_depth {m n : ℕ} (A : Fin m → Fin n → ℝ) (σ : Fin n → ℝ) (led : Fin m) :
    calcIntensities A σ led = Real.exp (-depth σ (A led)) := by
  rw [C42_beer_lambert]
  unfold depth
  simp only [mul_comm]

/-- **C195.** The light does not depend on the smoke in layers that no LED is seen through, and so the result does not either: it tells
nothing about it. -/
theorem C195_no_information {m n : ℕ} (A : Fin m → Fin n → ℝ) (smoke smoke' : Fin n → ℝ) (h : ∀ l, ¬ Unseen A l → smoke l = smoke' l) :
    calcIntensities A smoke = calcIntensities A smoke' := by
  funext led
  rw [intensities_depth, intensities_depth, depth_seen A smoke smoke' h]

/-- **C195.** No LED is seen through the layers above the camera and the LEDs and below them. -/
theorem C195_outside (cam led : P3) (lo hi : ℝ) (n : ℕ) (ds : List ℝ) (h : distPerLayer cam led (layers lo hi n) = .dists ds) (l : ℕ) (hl : l < n)
    (hout : (cam.2.2 < border lo hi n l ∧ led.2.2 < border lo hi n l) ∨ (border lo hi n (l + 1) ≤ cam.2.2 ∧ border lo hi n (l + 1) ≤ led.2.2)) :
    ds.getD l 0 = 0 := by
  have e : ∀ t, checked cam led t = .dists ds → ds = t := by
    intro t ht
    unfold checked at ht
    split at ht
    · cases ht
    · cases ht; rfl
  have hget : ∀ f : Layer → ℝ, f ⟨border lo hi n l, border lo hi n (l + 1)⟩ = 0 → ((layers lo hi n).map f).getD l 0 = 0 := by
    intro f hf
    rw [List.getD_eq_getElem?_getD]
    simp [layers, hl, hf]
  unfold distPerLayer at h
  split at h
  · cases h
  · split at h
    · rw [e _ h]
      refine hget _ ?_
      simp only
      rw [if_neg]
      rintro ⟨h1, h2⟩
      rcases hout with ⟨h3, _⟩ | ⟨h3, _⟩ <;> linarith
    · rw [e _ h]
      refine hget _ ?_
      have : heightInLayer cam.2.2 led.2.2 (border lo hi n l) (border lo hi n (l + 1)) = 0 := by
        unfold heightInLayer
        simp only
        split
        · rfl
        · rename_i hc
          refine le_antisymm ?_ (not_lt.1 hc)
          rcases hout with ⟨h3, h4⟩ | ⟨h3, h4⟩
          · have a := min_le_left (max cam.2.2 led.2.2) (border lo hi n (l + 1))
            have b := le_max_right (min cam.2.2 led.2.2) (border lo hi n l)
            have c := max_lt h3 h4
            linarith
          · have a := min_le_right (max cam.2.2 led.2.2) (border lo hi n (l + 1))
            have b := le_max_left (min cam.2.2 led.2.2) (border lo hi n l)
            have c := le_min h3 h4
            linarith
      simp only [this]
      simp

/-- The profile that goes on in a straight line from layer `k + 2` on. -/
noncomputable def continued {n : ℕ} (k : ℕ) (hk : k + 1 < n) (x : Fin n → ℝ) : Fin n → ℝ := fun l =>
  if (l : ℕ) < k + 2 then x l else x ⟨k + 1, hk⟩ + (((l : ℕ) : ℝ) - (k + 1)) * (x ⟨k + 1, hk⟩ - x ⟨k, by omega⟩)

theorem continued_line {n : ℕ} (k : ℕ) (hk : k + 1 < n) (x : Fin n → ℝ) (l : Fin n) (hl : k ≤ l) :
    continued k hk x l = x ⟨k + 1, hk⟩ + (((l : ℕ) : ℝ) - (k + 1)) * (x ⟨k + 1, hk⟩ - x ⟨k, by omega⟩) := by
  unfold continued
  split
  · rename_i h
    have : (l : ℕ) = k ∨ (l : ℕ) = k + 1 := by omega
    rcases this with h | h
    · have e : l = ⟨k, by omega⟩ := Fin.ext h
      rw [e]
      simp only
      ring
    · have e : l = ⟨k + 1, hk⟩ := Fin.ext h
      rw [e]
      push_cast
      ring
  · rfl

theorem continued_straight {n : ℕ} (k : ℕ) (hk : k + 1 < n) (x : Fin n → ℝ) (i : Fin (n - 2)) (hi : k ≤ i) :
    secondDiff (continued k hk x) i = 0 := by
  have hi2 := i.2
  unfold secondDiff
  rw [continued_line k hk x _ hi, continued_line k hk x ⟨i + 1, by omega⟩ (by simp only; omega),
    continued_line k hk x ⟨i + 2, by omega⟩ (by simp only; omega)]
  push_cast
  ring

theorem continued_before {n : ℕ} (k : ℕ) (hk : k + 1 < n) (x : Fin n → ℝ) (i : Fin (n - 2)) (hi : (i : ℕ) < k) :
    secondDiff (continued k hk x) i = secondDiff x i := by
  have hi2 := i.2
  unfold secondDiff continued
  simp only
  rw [if_pos (by omega), if_pos (by omega), if_pos (by omega)]

theorem straight_tail {n : ℕ} (k : ℕ) (hk : k + 1 < n) (x : Fin n → ℝ) (h : ∀ i : Fin (n - 2), k ≤ (i : ℕ) → secondDiff x i = 0) :
    ∀ l (hl : l < n), k ≤ l → x ⟨l, hl⟩ = x ⟨k + 1, hk⟩ + ((l : ℝ) - (k + 1)) * (x ⟨k + 1, hk⟩ - x ⟨k, by omega⟩) := by
  intro l
  induction l using Nat.strong_induction_on with
  | _ l ih =>
    intro hl hkl
    rcases Nat.lt_or_ge l (k + 2) with h2 | h2
    · have e := continued_line k hk x ⟨l, hl⟩ hkl
      unfold continued at e
      rw [if_pos h2] at e
      exact e
    · obtain ⟨i, rfl⟩ : ∃ i, l = i + 2 := ⟨l - 2, by omega⟩
      have h3 := h ⟨i, by omega⟩ (by simp only; omega)
      have h4 := ih i (by omega) (by omega) (by omega)
      have h5 := ih (i + 1) (by omega) (by omega) (by omega)
      unfold secondDiff at h3
      simp only at h3
      rw [h4, h5] at h3
      push_cast at h3 ⊢
      linarith

/-- **C195, linear solver, layers above the rays**: the profile goes on in a straight line from the two uppermost layers that are seen
through all layers above them, if this line does not become negative in the uppermost layer. -/
theorem C195_above {m n : ℕ} (A : Fin m → Fin n → ℝ) {lam : ℝ} (hl : 0 < lam) (rel : Fin m → ℝ) (x : Fin n → ℝ) (h : LinearSolution A lam rel x)
    (k : ℕ) (hk : k + 1 < n) (hun : ∀ l : Fin n, k + 2 ≤ (l : ℕ) → Unseen A l)
    (hline : 0 ≤ x ⟨k + 1, hk⟩ + ((n : ℝ) - (k + 2)) * (x ⟨k + 1, hk⟩ - x ⟨k, by omega⟩)) (l : Fin n) (hkl : k ≤ (l : ℕ)) :
    x l = x ⟨k + 1, hk⟩ + (((l : ℕ) : ℝ) - (k + 1)) * (x ⟨k + 1, hk⟩ - x ⟨k, by omega⟩) := by
  refine straight_tail k hk x (fun i hi => ?_) l l.2 hkl
  have hi2 := i.2
  have hn : 3 ≤ n := by omega
  have h0 : ∀ l, 0 ≤ continued k hk x l := by
    intro l
    unfold continued
    split
    · exact h.nonneg l
    · rename_i h2
      have h3 : (0 : ℝ) ≤ ((l : ℕ) : ℝ) - (k + 1) := by
        have : ((k + 1 : ℕ) : ℝ) ≤ ((l : ℕ) : ℝ) := by exact_mod_cast (by omega : k + 1 ≤ (l : ℕ))
        push_cast at this
        linarith
      have h5 : ((l : ℕ) : ℝ) - (k + 1) ≤ (n : ℝ) - (k + 2) := by
        have : (((l : ℕ) + 1 : ℕ) : ℝ) ≤ (n : ℝ) := by exact_mod_cast l.2
        push_cast at this
        linarith
      have h6 := h.nonneg ⟨k + 1, hk⟩
      rcases le_total 0 (x ⟨k + 1, hk⟩ - x ⟨k, by omega⟩) with h4 | h4
      · have := mul_nonneg h3 h4
        linarith
      · have := mul_le_mul_of_nonpos_right h5 h4
        linarith
  have h1 := h.minimal _ h0
  rw [aug_residual_split A hl.le, aug_residual_split A hl.le] at h1
  simp only [roughness, hn, if_true] at h1
  have e : misfit A rel (continued k hk x) = misfit A rel x := by
    unfold misfit
    refine Finset.sum_congr rfl fun led _ => ?_
    rw [depth_seen A _ x (fun l hl => ?_)]
    unfold continued
    rw [if_pos]
    by_contra hc
    exact hl (hun l (by omega))
  rw [e] at h1
  have h2 : bending x ≤ bending (continued k hk x) := le_of_mul_le_mul_left (by linarith) hl
  have eb : ∀ y : Fin n → ℝ, bending y = ∑ i, secondDiff y i ^ 2 := fun y => rfl
  rw [eb, eb] at h2
  have h3 : ∑ i, secondDiff (continued k hk x) i ^ 2 ≤ (∑ j, secondDiff x j ^ 2) - secondDiff x i ^ 2 := by
    rw [← Finset.sum_erase_add Finset.univ _ (Finset.mem_univ i), ← Finset.sum_erase_add Finset.univ (fun j => secondDiff x j ^ 2) (Finset.mem_univ i),
      continued_straight k hk x i hi]
    have : ∑ b ∈ Finset.univ.erase i, secondDiff (continued k hk x) b ^ 2 ≤ ∑ b ∈ Finset.univ.erase i, secondDiff x b ^ 2 := by
      refine Finset.sum_le_sum fun b _ => ?_
      rcases Nat.lt_or_ge b k with hb | hb
      · rw [continued_before k hk x b hb]
      · rw [continued_straight k hk x b hb]
        have := sq_nonneg (secondDiff x b)
        linarith
    linarith
  have h4 : secondDiff x i ^ 2 ≤ 0 := by linarith
  exact pow_eq_zero_iff two_ne_zero |>.1 (le_antisymm h4 (sq_nonneg _))

/-- **C195, linear solver, rising profiles**: a profile that rises over the two uppermost layers that are seen goes on rising above them. -/
theorem C195_rising {m n : ℕ} (A : Fin m → Fin n → ℝ) {lam : ℝ} (hl : 0 < lam) (rel : Fin m → ℝ) (x : Fin n → ℝ) (h : LinearSolution A lam rel x)
    (k : ℕ) (hk : k + 1 < n) (hun : ∀ l : Fin n, k + 2 ≤ (l : ℕ) → Unseen A l) (hrise : x ⟨k, by omega⟩ < x ⟨k + 1, hk⟩)
    (l : Fin n) (hkl : k + 2 ≤ (l : ℕ)) : x ⟨k + 1, hk⟩ < x l := by
  have hn : ((k + 2 : ℕ) : ℝ) ≤ (n : ℝ) := by exact_mod_cast hk
  push_cast at hn
  have h0 := h.nonneg ⟨k + 1, hk⟩
  have h1 : 0 < x ⟨k + 1, hk⟩ - x ⟨k, by omega⟩ := by linarith
  have h2 := mul_nonneg (sub_nonneg.2 hn) h1.le
  rw [C195_above A hl rel x h k hk hun (by linarith) l (by omega)]
  have h3 : ((k + 2 : ℕ) : ℝ) ≤ ((l : ℕ) : ℝ) := by exact_mod_cast hkl
  push_cast at h3
  have := mul_pos (show 0 < ((l : ℕ) : ℝ) - (k + 1) by linarith) h1
  linarith

/-- **C195, linear solver, layers below the rays**: the same downwards. -/
theorem C195_below {m n : ℕ} (A : Fin m → Fin n → ℝ) {lam : ℝ} (hl : 0 < lam) (rel : Fin m → ℝ) (x : Fin n → ℝ) (h : LinearSolution A lam rel x)
    (k : ℕ) (hk : k + 1 < n) (hun : ∀ l : Fin n, (l : ℕ) < k → Unseen A l)
    (hline : 0 ≤ x ⟨k, by omega⟩ + k * (x ⟨k, by omega⟩ - x ⟨k + 1, hk⟩)) (l : Fin n) (hkl : (l : ℕ) ≤ k + 1) :
    x l = x ⟨k, by omega⟩ + ((k : ℝ) - (l : ℕ)) * (x ⟨k, by omega⟩ - x ⟨k + 1, hk⟩) := by
  have h1 := (C194_linear A hl.le rel x).2 h
  have e0 : (⟨n - 2 - k, by omega⟩ : Fin n).rev = ⟨k + 1, hk⟩ := by apply Fin.ext; simp [Fin.val_rev]; omega
  have e1 : (⟨n - 2 - k + 1, by omega⟩ : Fin n).rev = ⟨k, by omega⟩ := by apply Fin.ext; simp [Fin.val_rev]; omega
  have hl2 := l.2
  have h2 := C195_above _ hl rel _ h1 (n - 2 - k) (by omega) (fun l' hl' led => hun l'.rev (by rw [Fin.val_rev]; omega) led)
    (by
      simp only [turnedRound, e0, e1]
      rw [show (n : ℝ) - (((n - 2 - k : ℕ) : ℝ) + 2) = k by rw [Nat.cast_sub (by omega), Nat.cast_sub (by omega)]; push_cast; ring]
      exact hline) l.rev (by rw [Fin.val_rev]; omega)
  simp only [turnedRound, e0, e1, Fin.rev_rev] at h2
  rw [h2, Fin.val_rev]
  congr 2
  have hc1 : ((n - ((l : ℕ) + 1) : ℕ) : ℝ) = (n : ℝ) - ((l : ℕ) + 1) := by
    rw [Nat.cast_sub (by omega)]; push_cast; ring
  have hc2 : ((n - 2 - k : ℕ) : ℝ) = (n : ℝ) - 2 - k := by
    rw [Nat.cast_sub (by omega), Nat.cast_sub (by omega)]; push_cast; ring
  rw [hc1, hc2]
  ring

/-- **C195, linear solver, one or two layers**: a layer that no LED is seen through gets the coefficient zero. -/
theorem C195_few_layers {m n : ℕ} (hn : n < 3) (A : Fin m → Fin n → ℝ) {lam : ℝ} (hl : 0 < lam) (rel : Fin m → ℝ) (x : Fin n → ℝ)
    (h : LinearSolution A lam rel x) (l : Fin n) (hun : Unseen A l) : x l = 0 := by
  have h1 := h.minimal (Function.update x l 0) fun j => by
    by_cases hj : j = l
    · subst hj; simp
    · rw [Function.update_of_ne hj]; exact h.nonneg j
  rw [aug_residual_split A hl.le, aug_residual_split A hl.le] at h1
  simp only [roughness, not_le.2 hn, if_false] at h1
  have e : misfit A rel (Function.update x l 0) = misfit A rel x := by
    unfold misfit
    refine Finset.sum_congr rfl fun led _ => ?_
    rw [depth_seen A _ x fun j hj => ?_]
    rw [Function.update_of_ne]
    rintro rfl
    exact hj hun
  rw [e] at h1
  have h2 : ∑ j, x j ^ 2 ≤ ∑ j, Function.update x l 0 j ^ 2 := le_of_mul_le_mul_left (by linarith) hl
  rw [← Finset.sum_erase_add Finset.univ _ (Finset.mem_univ l), ← Finset.sum_erase_add Finset.univ (fun j => Function.update x l 0 j ^ 2) (Finset.mem_univ l)] at h2
  have e2 : ∑ j ∈ Finset.univ.erase l, Function.update x l 0 j ^ 2 = ∑ j ∈ Finset.univ.erase l, x j ^ 2 :=
    Finset.sum_congr rfl fun j hj => by rw [Function.update_of_ne (Finset.ne_of_mem_erase hj)]
  rw [e2] at h2
  simp only [Function.update_self] at h2
  have h3 : x l ^ 2 ≤ 0 := by linarith
  exact pow_eq_zero_iff two_ne_zero |>.1 (le_antisymm h3 (sq_nonneg _))

/-! ### Nonlinear solver -/

theorem rmse_seen {m n : ℕ} (A : Fin m → Fin n → ℝ) (target : Fin m → ℝ) (σ τ : Fin n → ℝ) (h : ∀ l, ¬ Unseen A l → σ l = τ l) :
    rmse A target σ = rmse A target τ := by
  unfold rmse
  rw [C195_no_information A σ τ h]

/-- **C195, nonlinear solver without weights**: in a layer that no LED is seen through, every coefficient from 0 to 10 is a possible
result. -/
theorem C195_any {m n : ℕ} (A : Fin m → Fin n → ℝ) (tol : ℝ) (target : Fin m → ℝ) (σ : Fin n → ℝ) (h : NearBest A ⟨0, 0, tol⟩ target σ)
    (l : Fin n) (hun : Unseen A l) (v : ℝ) (h0 : 0 ≤ v) (h1 : v ≤ 10) : NearBest A ⟨0, 0, tol⟩ target (Function.update σ l v) := by
  refine ⟨fun j => ?_, fun τ hτ => ?_⟩
  · by_cases hj : j = l
    · subst hj; simp [h0, h1]
    · rw [Function.update_of_ne hj]; exact h.1 j
  · have e : costFunction A 0 0 target (Function.update σ l v) = costFunction A 0 0 target σ := by
      unfold costFunction curvature preference
      rw [rmse_seen A target _ σ fun j hj => ?_]
      · simp
      · rw [Function.update_of_ne]
        rintro rfl
        exact hj hun
    have := h.2 τ hτ
    simp only at this ⊢
    rw [e]
    exact this

/-- **C195, nonlinear solver with `weighting_preference` alone**: the coefficient of a layer that no LED is seen through is zero, up to the
tolerance of the solver. -/
theorem C195_preference {m n : ℕ} (A : Fin m → Fin n → ℝ) (p tol : ℝ) (hp : 0 < p) (target : Fin m → ℝ) (σ : Fin n → ℝ)
    (h : NearBest A ⟨0, p, tol⟩ target σ) (l : Fin n) (hun : Unseen A l) : σ l ≤ n * tol / p := by
  have hn : (0 : ℝ) < n := by exact_mod_cast l.pos
  have hb : InBounds (Function.update σ l 0) := fun j => by
    by_cases hj : j = l
    · subst hj; simp
    · rw [Function.update_of_ne hj]; exact h.1 j
  have h1 := h.2 _ hb
  simp only at h1
  unfold costFunction curvature preference at h1
  rw [rmse_seen A target (Function.update σ l 0) σ fun j hj => by
    rw [Function.update_of_ne]
    rintro rfl
    exact hj hun] at h1
  have e2 : ∑ j, Function.update σ l 0 j = ∑ j, σ j - σ l := by
    rw [← Finset.sum_erase_add Finset.univ _ (Finset.mem_univ l), ← Finset.sum_erase_add Finset.univ σ (Finset.mem_univ l)]
    rw [Finset.sum_congr rfl fun j hj => Function.update_of_ne (Finset.ne_of_mem_erase hj) (0 : ℝ) σ]
    simp
  rw [e2] at h1
  have h2 : σ l / n * p ≤ tol := by
    have : (∑ j, σ j - σ l) / n * p = (∑ j, σ j) / n * p - σ l / n * p := by ring
    rw [this] at h1
    linarith
  rw [le_div_iff₀ hp]
  rw [div_mul_eq_mul_div, div_le_iff₀ hn] at h2
  linarith

/-! ### Refutation -/

/-- The claim: no smoke is reported in layers that no LED is seen through. -/
def NothingInvented : Prop := ∀ (m n : ℕ) (A : Fin m → Fin n → ℝ) (lam : ℝ) (rel : Fin m → ℝ) (x : Fin n → ℝ), (∀ i l, 0 ≤ A i l) → 0 < lam →
  LinearSolution A lam rel x → ∀ l, Unseen A l → x l = 0

/-- Two LEDs seen through the lower two of three layers, one through each. -/
def lowRays : Fin 2 → Fin 3 → ℝ := ![![1, 0, 0], ![0, 1, 0]]

theorem lowRays_residual (y : Fin 3 → ℝ) : residual (augMatrix lowRays 1) (augRhs 3 (calcIntensities lowRays ![0, 1, 0])) y =
    y 0 ^ 2 + (y 1 - 1) ^ 2 + (y 0 - 2 * y 1 + y 2) ^ 2 ∧ opticalDepth (calcIntensities lowRays ![0, 1, 0] 0) = 0 ∧
      opticalDepth (calcIntensities lowRays ![0, 1, 0] 1) = 1 := by
  have hd0 : depth ![0, 1, 0] (lowRays 0) = 0 := by simp [depth, lowRays, Fin.sum_univ_three]
  have hd1 : depth ![0, 1, 0] (lowRays 1) = 1 := by simp [depth, lowRays, Fin.sum_univ_three]
  have hthin : (1 : ℝ) ≤ 10 * Real.log 10 := by
    have : Real.log (Real.exp 1) ≤ Real.log 10 := Real.log_le_log (Real.exp_pos 1) (by linarith [Real.exp_one_lt_d9])
    rw [Real.log_exp] at this
    linarith
  have o0 : opticalDepth (calcIntensities lowRays ![0, 1, 0] 0) = 0 := by
    rw [intensities_depth, hd0]
    exact opticalDepth_exp le_rfl (by linarith)
  have o1 : opticalDepth (calcIntensities lowRays ![0, 1, 0] 1) = 1 := by
    rw [intensities_depth, hd1]
    exact opticalDepth_exp zero_le_one hthin
  refine ⟨?_, o0, o1⟩
  rw [aug_residual_split _ zero_le_one]
  have e1 : misfit lowRays (calcIntensities lowRays ![0, 1, 0]) y = y 0 ^ 2 + (y 1 - 1) ^ 2 := by
    unfold misfit
    rw [Fin.sum_univ_two, o0, o1]
    simp [depth, lowRays, Fin.sum_univ_three]
  have e2 : roughness y = (y 0 - 2 * y 1 + y 2) ^ 2 := by
    unfold roughness
    rw [if_pos le_rfl]
    unfold bending
    rw [Fin.sum_univ_one]
    rfl
  rw [e1, e2, one_mul]

theorem lowRays_light : LinearSolution lowRays 1 (calcIntensities lowRays ![0, 1, 0]) ![0, 1, 2] := by
  refine ⟨⟨fun l => ?_, fun y _ => ?_⟩, fun hs => ?_⟩
  · fin_cases l <;> norm_num
  · rw [(lowRays_residual _).1, (lowRays_residual _).1]
    have : ((![0, 1, 2] : Fin 3 → ℝ) 0) ^ 2 + ((![0, 1, 2] : Fin 3 → ℝ) 1 - 1) ^ 2 +
        ((![0, 1, 2] : Fin 3 → ℝ) 0 - 2 * (![0, 1, 2] : Fin 3 → ℝ) 1 + (![0, 1, 2] : Fin 3 → ℝ) 2) ^ 2 = 0 := by
      show (0 : ℝ) ^ 2 + (1 - 1) ^ 2 + (0 - 2 * 1 + 2) ^ 2 = 0
      norm_num
    rw [this]
    positivity
  · exfalso
    have := hs 1
    rw [gradient_aug, Fin.sum_univ_two, (lowRays_residual 0).2.1, (lowRays_residual 0).2.2] at this
    simp [lowRays] at this
    linarith

/-- **C195 refuted**: smoke only in the middle one of three layers, the upper one is not seen. The linear solver reports twice as much smoke
in the upper one as in the middle one, and no other result is possible. -/
theorem C195_false : ¬ NothingInvented ∧ ∀ x, LinearSolution lowRays 1 (calcIntensities lowRays ![0, 1, 0]) x ↔ x = ![0, 1, 2] := by
  have hu : Unseen lowRays 2 := by
    intro led
    fin_cases led <;> rfl
  constructor
  · intro h
    have := h 2 3 lowRays 1 _ _ (fun i l => by fin_cases i <;> fin_cases l <;> norm_num [lowRays]) one_pos lowRays_light 2 hu
    exact two_ne_zero this
  · intro x
    refine ⟨fun hx => ?_, fun hx => hx ▸ lowRays_light⟩
    have h1 := hx.minimal ![0, 1, 2] lowRays_light.nonneg
    rw [(lowRays_residual _).1, (lowRays_residual _).1] at h1
    have h2 : x 0 ^ 2 + (x 1 - 1) ^ 2 + (x 0 - 2 * x 1 + x 2) ^ 2 ≤ (0 : ℝ) ^ 2 + (1 - 1) ^ 2 + (0 - 2 * 1 + 2) ^ 2 := h1
    norm_num at h2
    have a0 : x 0 = 0 := pow_eq_zero_iff two_ne_zero |>.1 (le_antisymm (by nlinarith [sq_nonneg (x 1 - 1), sq_nonneg (x 0 - 2 * x 1 + x 2)]) (sq_nonneg _))
    have a1 : x 1 - 1 = 0 := pow_eq_zero_iff two_ne_zero |>.1 (le_antisymm (by nlinarith [sq_nonneg (x 0), sq_nonneg (x 0 - 2 * x 1 + x 2)]) (sq_nonneg _))
    have a2 : x 0 - 2 * x 1 + x 2 = 0 := pow_eq_zero_iff two_ne_zero |>.1 (le_antisymm (by nlinarith [sq_nonneg (x 1 - 1), sq_nonneg (x 0)]) (sq_nonneg _))
    funext l
    fin_cases l
    · exact a0
    · show x 1 = 1
      linarith
    · show x 2 = 2
      linarith

/-- The straight line above the rays: 0, 1, then 2. -/
example (x : Fin 3 → ℝ) (hx : LinearSolution lowRays 1 (calcIntensities lowRays ![0, 1, 0]) x) : x 2 = 2 * x 1 - x 0 := by
  rw [(C195_false.2 x).1 hx]
  show (2 : ℝ) = 2 * 1 - 0
  norm_num

end Ledsa
