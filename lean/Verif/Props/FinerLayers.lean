import Verif.Props.Pipeline
import Verif.Props.Smoothing
import Mathlib.Logic.Equiv.Fin.Basic

/-!
# More layers

Each layer divided into `r` layers of the same height.
-/

namespace Ledsa

/-- The profile on layers divided into `r` parts. -/
def refined {n : ℕ} (r : ℕ) (σ : Fin n → ℝ) : Fin (n * r) → ℝ := fun k => σ ⟨k / r, Nat.div_lt_of_lt_mul (lt_of_lt_of_eq k.2 (Nat.mul_comm n r))⟩

theorem refined_at {n r : ℕ} (σ : Fin n → ℝ) (a : Fin n) (b : Fin r) : refined r σ (finProdFinEquiv (a, b)) = σ a := by
  have hr : 0 < r := b.pos
  unfold refined
  congr 1
  apply Fin.ext
  show ((b : ℕ) + r * a) / r = a
  rw [Nat.add_mul_div_left _ _ hr, Nat.div_eq_of_lt b.2, zero_add]

theorem slices_sum (c s z v : ℝ) (hs : 0 ≤ s) (r : ℕ) : open Classical in
    ∑ b ∈ Finset.range r, (if c + b * s ≤ z ∧ z < c + (b + 1) * s then v else 0) = if c ≤ z ∧ z < c + r * s then v else 0 := by
  classical
  induction r with
  | zero => simp
  | succ r ih =>
    rw [Finset.sum_range_succ, ih]
    have h0 : 0 ≤ (r : ℝ) * s := by positivity
    push_cast
    by_cases h1 : c ≤ z
    · by_cases h2 : z < c + r * s
      · have h3 : ¬ c + r * s ≤ z := not_le.2 h2
        have h4 : z < c + (r + 1) * s := by nlinarith
        simp [h1, h2, h3, h4]
      · have h3 : c + r * s ≤ z := not_lt.1 h2
        simp [h1, h2, h3]
    · have h3 : ¬ c + r * s ≤ z := fun h => h1 (by linarith)
      simp [h1, h3]

/-- **C192.** The divided layers hold the same smoke at every height. -/
theorem C192_same_smoke {n : ℕ} (r : ℕ) (hr : 0 < r) (lo hi : ℝ) (h : lo ≤ hi) (σ : Fin n → ℝ) (z : ℝ) :
    extinctionAt lo hi (refined r σ) z = extinctionAt lo hi σ z := by
  classical
  unfold extinctionAt
  rw [← Equiv.sum_comp finProdFinEquiv, Fintype.sum_prod_type]
  refine Finset.sum_congr rfl fun a _ => ?_
  have hn : 0 < n := a.pos
  have hn' : (n : ℝ) ≠ 0 := by exact_mod_cast hn.ne'
  have hr' : (r : ℝ) ≠ 0 := by exact_mod_cast hr.ne'
  set w := (hi - lo) / n with hw
  have hw0 : 0 ≤ w := div_nonneg (by linarith) (by positivity)
  have e : ∀ b : Fin r, refined r σ (finProdFinEquiv (a, b)) = σ a := refined_at σ a
  have hs : (hi - lo) / ((n * r : ℕ) : ℝ) = w / r := by
    rw [hw]
    push_cast
    field_simp
  have hk : ∀ b : Fin r, ((finProdFinEquiv (a, b) : Fin (n * r)) : ℕ) = (b : ℕ) + r * a := fun b => rfl
  simp only [e, hs, hk]
  have h1 := slices_sum (lo + a * w) (w / r) z (σ a) (div_nonneg hw0 (by positivity)) r
  rw [← Fin.sum_univ_eq_sum_range fun b => if lo + a * w + b * (w / r) ≤ z ∧ z < lo + a * w + (b + 1) * (w / r) then σ a else 0] at h1
  have h2 : lo + a * w + r * (w / r) = lo + ((a : ℕ) + 1) * w := by
    field_simp
    ring
  rw [h2] at h1
  rw [← h1]
  refine Finset.sum_congr rfl fun b _ => ?_
  have e1 : lo + (((b : ℕ) + r * (a : ℕ) : ℕ) : ℝ) * (w / r) = lo + a * w + b * (w / r) := by
    push_cast
    field_simp
    ring
  have e2 : lo + ((((b : ℕ) + r * (a : ℕ) : ℕ) : ℝ) + 1) * (w / r) = lo + a * w + (b + 1) * (w / r) := by
    push_cast
    field_simp
    ring
  rw [e1, e2]

/-- **C192.** The optical depth of every ray is the same. -/
theorem C192_depth {n : ℕ} (r : ℕ) (hr : 0 < r) (lo hi : ℝ) (h : lo ≤ hi) (σ : Fin n → ℝ) (cam led : P3) :
    lineDepth cam led lo hi (refined r σ) = lineDepth cam led lo hi σ := by
  unfold lineDepth
  simp only [C192_same_smoke r hr lo hi h]

/-- **C192.** The distance through a layer is the sum of the distances through its parts. -/
theorem C192_distances (cam led : P3) (lo hi : ℝ) (n r : ℕ) (hn : 1 ≤ n) (hr : 1 ≤ r) (h : lo < hi) (hray : RayInDomain cam led lo hi) :
    ∃ ds ds', distPerLayer cam led (layers lo hi n) = .dists ds ∧ distPerLayer cam led (layers lo hi (n * r)) = .dists ds' ∧
      ∀ j < n, ds.getD j 0 = ∑ b ∈ Finset.range r, ds'.getD (r * j + b) 0 := by
  obtain ⟨ds, h1, _, _, h2⟩ := C95_distances cam led lo hi n hn h hray
  obtain ⟨ds', h1', _, _, h2'⟩ := C95_distances cam led lo hi (n * r) (Nat.mul_pos hn hr) h hray
  refine ⟨ds, ds', h1, h1', fun j hj => ?_⟩
  have e := C192_depth r hr lo hi h.le (Pi.single (⟨j, hj⟩ : Fin n) (1 : ℝ)) cam led
  rw [← h2, ← h2'] at e
  have e1 : ∑ k : Fin n, ds.getD k 0 * (Pi.single (⟨j, hj⟩ : Fin n) (1 : ℝ) : Fin n → ℝ) k = ds.getD j 0 := by
    rw [Finset.sum_eq_single ⟨j, hj⟩]
    · simp
    · intro b _ hb; simp [Pi.single_eq_of_ne hb]
    · intro hh; exact absurd (Finset.mem_univ _) hh
  rw [e1] at e
  rw [← e, ← Equiv.sum_comp finProdFinEquiv, Fintype.sum_prod_type, Finset.sum_eq_single ⟨j, hj⟩]
  · rw [← Fin.sum_univ_eq_sum_range fun b => ds'.getD (r * j + b) 0]
    refine Finset.sum_congr rfl fun b _ => ?_
    rw [refined_at, Pi.single_eq_same, mul_one]
    congr 1
    show (b : ℕ) + r * j = r * j + b
    omega
  · intro a _ ha
    refine Finset.sum_eq_zero fun b _ => ?_
    rw [refined_at, Pi.single_eq_of_ne ha, mul_zero]
  · intro hh; exact absurd (Finset.mem_univ _) hh

/-- The distances of LEDs at the places `pos` with `n` layers. -/
def DistancesOf {m : ℕ} (cam : P3) (pos : Fin m → P3) (lo hi : ℝ) (n : ℕ) (A : Fin m → Fin n → ℝ) : Prop :=
  ∀ led, ∃ ds, distPerLayer cam (pos led) (layers lo hi n) = .dists ds ∧ A led = fun (k : Fin n) => ds.getD k 0

theorem DistancesOf.depth {m : ℕ} {cam : P3} {pos : Fin m → P3} {lo hi : ℝ} {n : ℕ} {A : Fin m → Fin n → ℝ}
    (hA : DistancesOf cam pos lo hi n A) (hn : 1 ≤ n) (h : lo < hi) (hray : ∀ led, RayInDomain cam (pos led) lo hi) (led : Fin m)
    (σ : Fin n → ℝ) : Ledsa.depth σ (A led) = lineDepth cam (pos led) lo hi σ := by
  obtain ⟨ds, h1, h2⟩ := hA led
  obtain ⟨ds', h1', _, _, h3⟩ := C95_distances cam (pos led) lo hi n hn h (hray led)
  rw [h1] at h1'
  cases h1'
  rw [← h3, h2]
  rfl

/-- **C192** (partial): with divided layers the measured light is fitted no worse, up to `lambda_reg` times the bending of the steps
that the found profile has on the divided layers. Without regularisation it is fitted no worse. Missing: see `C192_false`. -/
theorem C192_fit_partial {m : ℕ} (cam : P3) (pos : Fin m → P3) (lo hi : ℝ) (h : lo < hi) (n r : ℕ) (hn : 3 ≤ n) (hr : 1 ≤ r)
    (hray : ∀ led, RayInDomain cam (pos led) lo hi) (A : Fin m → Fin n → ℝ) (A' : Fin m → Fin (n * r) → ℝ)
    (hA : DistancesOf cam pos lo hi n A) (hA' : DistancesOf cam pos lo hi (n * r) A') (lam : ℝ) (hl : 0 ≤ lam) (rel : Fin m → ℝ)
    (x : Fin n → ℝ) (y : Fin (n * r) → ℝ) (hx : LinearSolution A lam rel x) (hy : LinearSolution A' lam rel y) :
    misfit A' rel y ≤ misfit A rel x + lam * bending (refined r x) := by
  have hnr : 3 ≤ n * r := le_trans hn (Nat.le_mul_of_pos_right n hr)
  have h1 := (C191_price hnr A' hl rel y hy (refined r x) (fun k => hx.nonneg _)).1
  have h2 : misfit A' rel (refined r x) = misfit A rel x := by
    unfold misfit
    refine Finset.sum_congr rfl fun led _ => ?_
    rw [hA'.depth (by omega) h hray, hA.depth (by omega) h hray, C192_depth r hr lo hi h.le]
  rw [h2] at h1
  exact h1

/-- **C192.** A uniform profile stays uniform. -/
theorem C192_uniform (n r : ℕ) (c : ℝ) : refined r (fun _ : Fin n => c) = fun _ => c := rfl

theorem distancesOf_lengths {m : ℕ} (cam : P3) (pos : Fin m → P3) (lo hi : ℝ) (n : ℕ) (hn : 1 ≤ n) (h : lo < hi)
    (hray : ∀ led, RayInDomain cam (pos led) lo hi) (hz : ∀ led, cam.2.2 ≠ (pos led).2.2) (A : Fin m → Fin n → ℝ)
    (hA : ∀ (led : Fin m) (k : Fin n), lengthInside cam (pos led) (border lo hi n k) (border lo hi n (k + 1)) = A led k) : DistancesOf cam pos lo hi n A := by
  intro led
  obtain ⟨ds, h1, _, _, h3⟩ := C95_distances cam (pos led) lo hi n hn h (hray led)
  refine ⟨ds, h1, ?_⟩
  ext k
  have e := h3 (Pi.single k 1)
  rw [lineDepth_slanted _ _ (hz led), Finset.sum_eq_single k, Finset.sum_eq_single k] at e
  · rw [Pi.single_eq_same, mul_one, mul_one] at e
    rw [e, hA]
  · intro b _ hb; rw [Pi.single_eq_of_ne hb, mul_zero]
  · intro hh; exact absurd (Finset.mem_univ _) hh
  · intro b _ hb; rw [Pi.single_eq_of_ne hb, mul_zero]
  · intro hh; exact absurd (Finset.mem_univ _) hh

/-- The full claim: with divided layers the measured light is fitted no worse. -/
def FinerFitsNoWorse : Prop :=
  ∀ (m : ℕ) (cam : P3) (pos : Fin m → P3) (lo hi : ℝ), lo < hi → ∀ n r : ℕ, 3 ≤ n → 1 ≤ r → (∀ led, RayInDomain cam (pos led) lo hi) →
    ∀ (A : Fin m → Fin n → ℝ) (A' : Fin m → Fin (n * r) → ℝ), DistancesOf cam pos lo hi n A → DistancesOf cam pos lo hi (n * r) A' →
    ∀ (lam : ℝ), 0 ≤ lam → ∀ (rel : Fin m → ℝ) (x : Fin n → ℝ) (y : Fin (n * r) → ℝ),
      LinearSolution A lam rel x → LinearSolution A' lam rel y → misfit A' rel y ≤ misfit A rel x

/-- **C192** (partial): without regularisation the full claim holds. -/
theorem C192_unregularised_partial {m : ℕ} (cam : P3) (pos : Fin m → P3) (lo hi : ℝ) (h : lo < hi) (n r : ℕ) (hn : 3 ≤ n) (hr : 1 ≤ r)
    (hray : ∀ led, RayInDomain cam (pos led) lo hi) (A : Fin m → Fin n → ℝ) (A' : Fin m → Fin (n * r) → ℝ)
    (hA : DistancesOf cam pos lo hi n A) (hA' : DistancesOf cam pos lo hi (n * r) A') (rel : Fin m → ℝ)
    (x : Fin n → ℝ) (y : Fin (n * r) → ℝ) (hx : LinearSolution A 0 rel x) (hy : LinearSolution A' 0 rel y) :
    misfit A' rel y ≤ misfit A rel x := by
  have := C192_fit_partial cam pos lo hi h n r hn hr hray A A' hA hA' 0 le_rfl rel x y hx hy
  linarith

/-- Six LEDs one above the other, one metre apart, straight above the camera. -/
def tower (i : Fin 6) : P3 := (0, 0, ((i : ℕ) : ℝ) + 1)

/-- Their distances with six layers. -/
def towerFine : Fin 6 → Fin (3 * 2) → ℝ := fun i l => if (l : ℕ) ≤ i then 1 else 0

/-- Their distances with three layers. -/
def towerCoarse : Fin 6 → Fin 3 → ℝ := fun i l => if 2 * (l : ℕ) + 1 ≤ i then 2 else if 2 * (l : ℕ) ≤ i then 1 else 0

theorem tower_ray (i : Fin 6) : RayInDomain (0, 0, 0) (tower i) 0 6 := by
  have h0 : (0 : ℝ) < (i : ℕ) + 1 := by positivity
  have h1 : ((i : ℕ) : ℝ) + 1 ≤ 6 := by exact_mod_cast i.2
  refine ⟨fun h => ?_, ⟨le_rfl, by norm_num⟩, ⟨h0.le, h1⟩, fun h => ?_⟩
  · have : (0 : ℝ) = (i : ℕ) + 1 := congrArg (fun p : P3 => p.2.2) h
    linarith
  · have : (0 : ℝ) = 6 := h.1
    norm_num at this

theorem tower_length (i : Fin 6) (b t : ℝ) (hb : 0 ≤ b) :
    lengthInside (0, 0, 0) (tower i) b t = max 0 (min (((i : ℕ) : ℝ) + 1) t - b) := by
  have h0 : (0 : ℝ) < (i : ℕ) + 1 := by positivity
  have he : euclid (0, 0, 0) (tower i) = (i : ℕ) + 1 := by
    unfold euclid tower
    simp only [sub_self, zero_sub]
    rw [show (0 : ℝ) ^ 2 + 0 ^ 2 + (-((i : ℕ) + 1 : ℝ)) ^ 2 = ((i : ℕ) + 1 : ℝ) ^ 2 by ring, Real.sqrt_sq h0.le]
  unfold lengthInside
  rw [volume_inside _ _ _ _ h0.ne, he, heightInLayer_eq]
  show max 0 (min (max 0 (((i : ℕ) : ℝ) + 1)) t - max (min 0 (((i : ℕ) : ℝ) + 1)) b) / |((i : ℕ) : ℝ) + 1 - 0| * _ = _
  rw [sub_zero, abs_of_pos h0, max_eq_right h0.le, min_eq_left h0.le, max_eq_right hb]
  field_simp

theorem tower_fine : DistancesOf (0, 0, 0) tower 0 6 (3 * 2) towerFine := by
  refine distancesOf_lengths _ _ _ _ _ (by norm_num) (by norm_num) tower_ray (fun led => ?_) _ fun i k => ?_
  · exact (show (0 : ℝ) < (led : ℕ) + 1 by positivity).ne
  · rw [tower_length i _ _ (by unfold border; norm_num)]
    unfold border towerFine
    norm_num
    split
    · rename_i h
      have : ((k : ℕ) : ℝ) ≤ (i : ℕ) := by exact_mod_cast h
      rw [min_eq_right (by linarith)]
      norm_num
    · rename_i h
      have : ((i : ℕ) : ℝ) + 1 ≤ (k : ℕ) := by exact_mod_cast Nat.lt_of_not_le h
      rw [min_eq_left (by linarith)]
      exact max_eq_left (by linarith)

theorem tower_coarse : DistancesOf (0, 0, 0) tower 0 6 3 towerCoarse := by
  refine distancesOf_lengths _ _ _ _ _ (by norm_num) (by norm_num) tower_ray (fun led => ?_) _ fun i k => ?_
  · exact (show (0 : ℝ) < (led : ℕ) + 1 by positivity).ne
  · rw [tower_length i _ _ (by unfold border; norm_num)]
    unfold border towerCoarse
    norm_num
    split
    · rename_i h
      have : 2 * ((k : ℕ) : ℝ) + 1 ≤ (i : ℕ) := by exact_mod_cast h
      rw [min_eq_right (by linarith), max_eq_right (by linarith)]
      ring
    · rename_i h
      have h' : ((i : ℕ) : ℝ) + 1 ≤ 2 * (k : ℕ) + 1 := by exact_mod_cast Nat.lt_of_not_le h
      rw [min_eq_left (by linarith)]
      split
      · rename_i h2
        have : 2 * ((k : ℕ) : ℝ) ≤ (i : ℕ) := by exact_mod_cast h2
        rw [max_eq_right (by linarith)]
        linarith
      · rename_i h2
        have : ((i : ℕ) : ℝ) + 1 ≤ 2 * (k : ℕ) := by exact_mod_cast Nat.lt_of_not_le h2
        exact max_eq_left (by linarith)

theorem towerFine_depth (σ : Fin (3 * 2) → ℝ) (i : Fin 6) :
    depth σ (towerFine i) = ∑ l : Fin 6, if (l : ℕ) ≤ i then σ l else 0 := by
  unfold depth towerFine
  exact Finset.sum_congr rfl fun l _ => by split <;> simp

/-- **C192** (refuted with regularisation): a tower of LEDs above the camera and smoke that increases by one from layer to layer of
three: with three layers its light is fitted exactly, with six it is not. -/
theorem C192_false : ¬ FinerFitsNoWorse := by
  intro hall
  have hl : (9 : ℝ) ≤ 10 * Real.log 10 := by
    have : (1 : ℝ) ≤ Real.log 10 := by
      rw [Real.le_log_iff_exp_le (by norm_num)]
      exact (Real.exp_one_lt_d9.le).trans (by norm_num)
    linarith
  set s : Fin 3 → ℝ := fun l => ((l : ℕ) : ℝ) with hs
  have hdc : ∀ i, depth s (towerCoarse i) = if (i : ℕ) ≤ 1 then 0 else if (i : ℕ) ≤ 3 then (i : ℕ) - 1 else 2 * (i : ℕ) - 4 := by
    intro i
    unfold depth towerCoarse
    rw [Fin.sum_univ_three, hs]
    fin_cases i <;> norm_num
  have haff : Affine s := ⟨0, 1, fun l => by simp [hs]⟩
  have hdet : DeterminesAffine towerCoarse := by
    rintro σ τ ⟨a, b, h1⟩ ⟨c, d, h2⟩ h
    have e1 := h 0
    have e2 := h 2
    simp only [depth, towerCoarse, Fin.sum_univ_three, h1, h2] at e1 e2
    norm_num at e1 e2
    have hb : b = d := by linarith
    ext l
    rw [h1, h2, e1, hb]
  have hnn : ∀ i l, 0 ≤ towerCoarse i l := fun i l => by
    unfold towerCoarse
    split
    · norm_num
    · split <;> norm_num
  have hthin : ∀ i, depth s (towerCoarse i) ≤ 10 * Real.log 10 := fun i => by
    refine le_trans ?_ hl
    rw [hdc]
    fin_cases i <;> norm_num
  have hx := (C43_linear_profile_partial le_rfl towerCoarse hnn hdet 1 one_pos s (fun l => by positivity) haff hthin s).2 rfl
  set rel := calcIntensities towerCoarse s with hrel
  have ho : ∀ i, opticalDepth (rel i) = depth s (towerCoarse i) := fun i => by
    have : rel i = Real.exp (-depth s (towerCoarse i)) := by
      rw [hrel, C42_beer_lambert]
      unfold depth
      simp only [mul_comm]
    rw [this]
    exact opticalDepth_exp (depth_nonneg (fun l => by positivity) (hnn i)) (hthin i)
  have hmx : misfit towerCoarse rel s = 0 := Finset.sum_eq_zero fun i _ => by rw [ho, sub_self]; norm_num
  obtain ⟨y, hy⟩ : ∃ y, LinearSolution towerFine 1 rel y := by
    refine nnls_exists _ _ 4 (by norm_num) fun x => ?_
    rw [Fintype.sum_sum_type]
    have h0 : 0 ≤ ∑ i : Fin (regRows (3 * 2)), (∑ l, augMatrix towerFine 1 (.inr i) l * x l) ^ 2 := Finset.sum_nonneg fun _ _ => sq_nonneg _
    have h1 : ∀ i : Fin 6, ∑ l, augMatrix towerFine 1 (.inl i) l * x l = ∑ l : Fin 6, if (l : ℕ) ≤ i then x l else 0 :=
      fun i => towerFine_depth x i
    have h2 : normSq x ≤ 4 * ∑ i : Fin 6, (∑ l, augMatrix towerFine 1 (.inl i) l * x l) ^ 2 := by
      have hx6 : normSq x = ∑ l : Fin 6, x l ^ 2 := rfl
      rw [hx6]
      simp only [h1, Fin.sum_univ_six]
      norm_num
      generalize x 0 = a
      generalize x 1 = b
      generalize x 2 = c
      generalize x 3 = d
      generalize x 4 = e
      generalize x 5 = f
      nlinarith [sq_nonneg (a + a + b), sq_nonneg (a + b + (a + b + c)), sq_nonneg (a + b + c + (a + b + c + d)),
        sq_nonneg (a + b + c + d + (a + b + c + d + e)), sq_nonneg (a + b + c + d + e + (a + b + c + d + e + f)),
        sq_nonneg (a + b + c + d + e + f), sq_nonneg a]
    linarith
  have hle := hall 6 (0, 0, 0) tower 0 6 (by norm_num) 3 2 le_rfl (by norm_num) tower_ray _ _ tower_coarse tower_fine 1 zero_le_one rel s y hx hy
  rw [hmx] at hle
  have hz : misfit towerFine rel y = 0 := le_antisymm hle (Finset.sum_nonneg fun _ _ => sq_nonneg _)
  have hd : ∀ i, depth y (towerFine i) = depth s (towerCoarse i) := by
    intro i
    have := (Finset.sum_eq_zero_iff_of_nonneg (fun _ _ => sq_nonneg _)).1 hz i (Finset.mem_univ _)
    have := pow_eq_zero_iff two_ne_zero |>.1 this
    rw [ho] at this
    linarith
  have hd' : ∀ i : Fin 6, (∑ l : Fin 6, if (l : ℕ) ≤ i then y l else 0) =
      if (i : ℕ) ≤ 1 then 0 else if (i : ℕ) ≤ 3 then (i : ℕ) - 1 else 2 * (i : ℕ) - 4 := fun i => by
    rw [← towerFine_depth, hd, hdc]
  have e0 := hd' 0
  have e1 := hd' 1
  have e2 := hd' 2
  have e3 := hd' 3
  have e4 := hd' 4
  have e5 := hd' 5
  simp only [Fin.sum_univ_six] at e0 e1 e2 e3 e4 e5
  norm_num at e0 e1 e2 e3 e4 e5
  have y1 : y 1 = 0 := by linarith
  have y2 : y 2 = 1 := by linarith
  have y3 : y 3 = 1 := by linarith
  have y4 : y 4 = 2 := by linarith
  have y5 : y 5 = 2 := by linarith
  have h1 := hy.minimal (fun l => 2 / 5 * ((l : ℕ) : ℝ)) (fun l => by positivity)
  rw [aug_residual_split _ zero_le_one, aug_residual_split _ zero_le_one, hz] at h1
  have hb : bending y = 4 := by
    unfold bending
    show ∑ i : Fin 4, _ = _
    rw [Fin.sum_univ_four]
    show (y 0 - 2 * y 1 + y 2) ^ 2 + (y 1 - 2 * y 2 + y 3) ^ 2 + (y 2 - 2 * y 3 + y 4) ^ 2 + (y 3 - 2 * y 4 + y 5) ^ 2 = 4
    rw [e0, y1, y2, y3, y4, y5]
    norm_num
  have hb' : bending (fun l : Fin (3 * 2) => 2 / 5 * ((l : ℕ) : ℝ)) = 0 := (bending_eq_zero _).2 ⟨0, 2 / 5, fun l => by simp⟩
  have hm : misfit towerFine rel (fun l : Fin (3 * 2) => 2 / 5 * ((l : ℕ) : ℝ)) = 9 / 25 := by
    unfold misfit
    simp only [ho, hdc, towerFine_depth, Fin.sum_univ_six]
    norm_num
  have h3 : (3 : ℕ) ≤ 3 * 2 := by norm_num
  simp only [roughness, h3, if_true, hb, hb', hm] at h1
  norm_num at h1

-- three layers in nine: the second layer holds the fourth to sixth
example : refined 3 (![1, 2, 3] : Fin 3 → ℝ) ⟨4, by norm_num⟩ = 2 := by simp [refined]

end Ledsa
