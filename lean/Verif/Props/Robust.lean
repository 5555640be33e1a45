import Verif.Props.Pipeline
import Verif.Props.Extraction
import Mathlib.Topology.Order.Compact
import Mathlib.Topology.MetricSpace.ProperSpace
import Mathlib.Topology.Algebra.Monoid

/-!
# How measurement errors reach the coefficients

The linear solver is stable: errors of the intensities and the smoothing change the optical depths along the lines of sight by no
more than their own size.
-/

namespace Ledsa

/-! ### The minimum -/

/-- A minimiser among the non-negative vectors is the projection: residuals add up. -/
theorem minimiser_pythagoras {ι : Type} [Fintype ι] {n : ℕ} (B : ι → Fin n → ℝ) (b : ι → ℝ) (x : Fin n → ℝ) (h : IsMinimiser B b x)
    (y : Fin n → ℝ) (hy : ∀ l, 0 ≤ y l) : residual B b x + ∑ i, (∑ l, B i l * (x l - y l)) ^ 2 ≤ residual B b y := by
  set u : ι → ℝ := fun i => ∑ l, B i l * x l - b i with hu
  set w : ι → ℝ := fun i => ∑ l, B i l * (x l - y l) with hw
  have hres : ∀ t : ℝ, residual B b (fun l => x l - t * (x l - y l)) = (∑ i, u i ^ 2) - 2 * t * (∑ i, u i * w i) + t ^ 2 * ∑ i, w i ^ 2 := by
    intro t
    unfold residual
    rw [Finset.mul_sum, Finset.mul_sum, ← Finset.sum_sub_distrib, ← Finset.sum_add_distrib]
    refine Finset.sum_congr rfl fun i _ => ?_
    have : ∑ l, B i l * (x l - t * (x l - y l)) = ∑ l, B i l * x l - t * w i := by
      rw [hw]
      simp only
      rw [Finset.mul_sum, ← Finset.sum_sub_distrib]
      exact Finset.sum_congr rfl fun l _ => by ring
    rw [this, hu]
    simp only
    ring
  have h0 : residual B b x = ∑ i, u i ^ 2 := rfl
  have h1 : residual B b y = (∑ i, u i ^ 2) - 2 * (∑ i, u i * w i) + ∑ i, w i ^ 2 := by
    have := hres 1
    simp only [one_mul, sub_sub_cancel, mul_one, one_pow] at this
    exact this
  have hW : 0 ≤ ∑ i, w i ^ 2 := Finset.sum_nonneg fun _ _ => sq_nonneg _
  have hmin : ∀ t : ℝ, 0 ≤ t → t ≤ 1 → 0 ≤ - 2 * t * (∑ i, u i * w i) + t ^ 2 * ∑ i, w i ^ 2 := by
    intro t t0 t1
    have := h.minimal (fun l => x l - t * (x l - y l)) (fun l => by
      have := mul_nonneg t0 (hy l)
      have := mul_nonneg (sub_nonneg.2 t1) (h.nonneg l)
      show 0 ≤ x l - t * (x l - y l)
      linarith)
    rw [hres, h0] at this
    linarith
  have hC : ∑ i, u i * w i ≤ 0 := by
    by_contra hc
    rw [not_le] at hc
    generalize ∑ i, u i * w i = C at *
    generalize ∑ i, w i ^ 2 = W at *
    have hp : 0 < W + C := by linarith
    have := hmin (C / (W + C)) (by positivity) (by rw [div_le_one hp]; linarith)
    have e : -2 * (C / (W + C)) * C + (C / (W + C)) ^ 2 * W = - (C / (W + C)) ^ 2 * (W + 2 * C) := by
      field_simp
      ring
    rw [e] at this
    have hq : 0 < C / (W + C) := by positivity
    nlinarith [mul_pos (pow_pos hq 2) (show 0 < W + 2 * C by linarith)]
  rw [h0, h1]
  linarith

/-- How much a profile bends: the sum of its squared second differences. -/
noncomputable def bending {n : ℕ} (σ : Fin n → ℝ) : ℝ :=
  ∑ i : Fin (n - 2), (σ ⟨i, by omega⟩ - 2 * σ ⟨i + 1, by omega⟩ + σ ⟨i + 2, by omega⟩) ^ 2

theorem bending_nonneg {n : ℕ} (σ : Fin n → ℝ) : 0 ≤ bending σ := Finset.sum_nonneg fun _ _ => sq_nonneg _

theorem bending_eq_zero {n : ℕ} (σ : Fin n → ℝ) : bending σ = 0 ↔ Affine σ := by
  rw [affine_iff_secondDiff]
  unfold bending
  rw [Finset.sum_eq_zero_iff_of_nonneg fun i _ => sq_nonneg _]
  simp only [Finset.mem_univ, true_implies, pow_eq_zero_iff two_ne_zero]
  rfl

theorem reg_sum {m n : ℕ} (A : Fin m → Fin n → ℝ) (hn : 3 ≤ n) {lam : ℝ} (hl : 0 ≤ lam) (σ : Fin n → ℝ) :
    ∑ i, (∑ l, augMatrix A lam (.inr i) l * σ l) ^ 2 = lam * bending σ := by
  have hr : regRows n = n - 2 := if_pos hn
  have h1 : ∀ i : Fin (regRows n), ∑ l, augMatrix A lam (.inr i) l * σ l =
      Real.sqrt lam * secondDiff σ ⟨i, by rw [← hr]; exact i.2⟩ := by
    intro i
    rw [← sum_regEntry hn σ i (by rw [← hr]; exact i.2), Finset.mul_sum]
    exact Finset.sum_congr rfl fun l _ => by simp [augMatrix, mul_assoc]
  unfold bending
  rw [Finset.mul_sum, ← Equiv.sum_comp (finCongr hr)]
  refine Finset.sum_congr rfl fun i _ => ?_
  rw [h1, mul_pow, Real.sq_sqrt hl]
  rfl

/-- The solver on intensities that are off: the errors of the optical depths and of the bending together are not larger than
those of the data and the bending of the true profile. -/
theorem linearSolution_stable {m n : ℕ} (A : Fin m → Fin n → ℝ) (hn : 3 ≤ n) {lam : ℝ} (hl : 0 ≤ lam) (rel : Fin m → ℝ) (σ x : Fin n → ℝ)
    (hσ : ∀ l, 0 ≤ σ l) (h : LinearSolution A lam rel x) :
    ∑ led, (depth x (A led) - depth σ (A led)) ^ 2 + lam * bending (fun l => x l - σ l) ≤
      ∑ led, (opticalDepth (rel led) - depth σ (A led)) ^ 2 + lam * bending σ := by
  have hp := minimiser_pythagoras _ _ x h.toIsMinimiser σ hσ
  have h0 := residual_nonneg (augMatrix A lam) (augRhs n rel) x
  rw [Fintype.sum_sum_type, reg_sum A hn hl] at hp
  have e1 : ∀ led, ∑ l, augMatrix A lam (.inl led) l * (x l - σ l) = depth x (A led) - depth σ (A led) := by
    intro led
    unfold depth
    rw [← Finset.sum_sub_distrib]
    exact Finset.sum_congr rfl fun l _ => by simp only [augMatrix]; ring
  have e2 : residual (augMatrix A lam) (augRhs n rel) σ =
      ∑ led, (opticalDepth (rel led) - depth σ (A led)) ^ 2 + lam * bending σ := by
    unfold residual
    rw [Fintype.sum_sum_type]
    congr 1
    · refine Finset.sum_congr rfl fun led _ => ?_
      have : ∑ l, augMatrix A lam (.inl led) l * σ l = depth σ (A led) := rfl
      rw [this]
      simp only [augRhs]
      ring
    · rw [← reg_sum A hn hl]
      exact Finset.sum_congr rfl fun i _ => by simp [augRhs]
  simp only [e1] at hp
  linarith

/-! ### Errors of the intensities -/

/-- `x` is `y` up to the factor `exp γ`. -/
def Within (γ x y : ℝ) : Prop := y * Real.exp (-γ) ≤ x ∧ x ≤ y * Real.exp γ

theorem Within.pos {γ x y : ℝ} (h : Within γ x y) (hy : 0 < y) : 0 < x := lt_of_lt_of_le (mul_pos hy (Real.exp_pos _)) h.1

theorem Within.trans {γ δ x y z : ℝ} (h : Within γ x y) (h' : Within δ z x) : Within (γ + δ) z y := by
  constructor
  · rw [neg_add, Real.exp_add, ← mul_assoc]
    exact (mul_le_mul_of_nonneg_right h.1 (Real.exp_pos _).le).trans h'.1
  · rw [Real.exp_add, ← mul_assoc]
    exact h'.2.trans (mul_le_mul_of_nonneg_right h.2 (Real.exp_pos _).le)

theorem Within.log {γ x y : ℝ} (h : Within γ x y) (hy : 0 < y) : |Real.log x - Real.log y| ≤ γ := by
  have hx := h.pos hy
  have h1 := Real.log_le_log (mul_pos hy (Real.exp_pos _)) h.1
  have h2 := Real.log_le_log hx h.2
  rw [Real.log_mul hy.ne' (Real.exp_pos _).ne', Real.log_exp] at h1 h2
  rw [abs_le]
  constructor <;> linarith

theorem within_mean {γ y : ℝ} (js : List ℕ) (v : ℕ → ℕ → ℝ) (l : ℕ) (hne : js ≠ []) (h : ∀ j ∈ js, Within γ (v j l) y) :
    Within γ (meanOver js v l) y := by
  have hlen : (0 : ℝ) < js.length := by exact_mod_cast List.length_pos_iff.2 hne
  have key : ∀ js' : List ℕ, (∀ j ∈ js', Within γ (v j l) y) → js'.length * (y * Real.exp (-γ)) ≤ (js'.map fun j => v j l).sum ∧
      (js'.map fun j => v j l).sum ≤ js'.length * (y * Real.exp γ) := by
    intro js'
    induction js' with
    | nil => intro _; simp
    | cons j js' ih =>
      intro hj
      obtain ⟨a, b⟩ := ih fun x hx => hj x (List.mem_cons_of_mem _ hx)
      obtain ⟨c, d⟩ := hj j (by simp)
      rw [List.map_cons, List.sum_cons, List.length_cons]
      push_cast
      constructor <;> linarith
  obtain ⟨a, b⟩ := key js h
  unfold meanOver
  constructor
  · rw [le_div_iff₀ hlen]; linarith
  · rw [div_le_iff₀ hlen]; linarith

theorem opticalDepth_clamp {x : ℝ} (hx : 0 < x) : opticalDepth x = min (max (-Real.log x) 0) (10 * Real.log 10) := by
  obtain ⟨c1, c2, c3, _⟩ := C44_clipping x
  have hlog : 0 < Real.log 10 := Real.log_pos (by norm_num)
  have hb : Real.log (1 / 10 ^ 10) = -(10 * Real.log 10) := by
    rw [one_div, Real.log_inv, Real.log_pow]; norm_num
  rcases le_total 1 x with h | h
  · rw [c1 h, max_eq_right (neg_nonpos.2 (Real.log_nonneg h)), min_eq_left (by positivity)]
  · have h0 : 0 ≤ -Real.log x := neg_nonneg.2 (Real.log_nonpos hx.le h)
    rw [max_eq_left h0]
    rcases le_total x (1 / 10 ^ 10) with h' | h'
    · rw [c2 h', min_eq_right]
      have := Real.log_le_log hx h'
      rw [hb] at this
      linarith
    · rw [c3 h' h, min_eq_left]
      have := Real.log_le_log (by positivity) h'
      rw [hb] at this
      linarith

/-- Clipping does not increase the error. -/
theorem opticalDepth_near {x t δ : ℝ} (hx : 0 < x) (h0 : 0 ≤ t) (h1 : t ≤ 10 * Real.log 10) (h : |Real.log x + t| ≤ δ) :
    |opticalDepth x - t| ≤ δ := by
  rw [opticalDepth_clamp hx]
  generalize Real.log x = y at *
  generalize 10 * Real.log 10 = M at *
  rw [abs_le] at *
  obtain ⟨a, b⟩ := h
  constructor
  · have : t - δ ≤ min (max (-y) 0) M := le_min (le_max_of_le_left (by linarith)) (by linarith)
    linarith
  · have : min (max (-y) 0) M ≤ t + δ := (min_le_left _ _).trans (max_le (by linarith) (by linarith))
    linarith

/-! ### A whole LED array -/

/-- An LED array between camera and smoke: LEDs `leds` in ascending order at `pos`, their rays inside the layered domain. -/
structure SeenArray (a : ArrayAnalysis) (leds : List ℕ) (pos : ℕ → P3) : Prop where
  ids : a.ids = leds.reverse
  ascending : leds.Pairwise (· < ·)
  nonempty : leds ≠ []
  positions : ∀ l ∈ leds, a.coordinates[l]? = some (pos l)
  layers : 3 ≤ a.layers
  domain : a.lo < a.hi
  rays : ∀ l ∈ leds, RayInDomain a.cam (pos l) a.lo a.hi

/-- Intensities `v` of `N` images of LEDs that send `emit`, seen through `smoke i` in image `i`, are right up to the factor
`exp γ`; the reference images are taken without smoke. -/
structure NoisyLight (a : ArrayAnalysis) (leds : List ℕ) (pos : ℕ → P3) (N : ℕ) (v : ℕ → ℕ → ℝ) (γ : ℝ)
    (emit : ℕ → ℝ) (smoke : ℕ → Fin a.layers → ℝ) : Prop where
  emits : ∀ l ∈ leds, 0 < emit l
  light : ∀ i, 1 ≤ i → i ≤ N → ∀ l ∈ leds, Within γ (v i l) (emit l * Real.exp (-lineDepth a.cam (pos l) a.lo a.hi (smoke i)))
  clear : ∀ i, 1 ≤ i → i ≤ N → a.ref.selects i = true → smoke i = fun _ => 0
  reference : ∃ i, 1 ≤ i ∧ i ≤ N ∧ a.ref.selects i = true
  nonneg : ∀ i, 1 ≤ i → i ≤ N → ∀ k, 0 ≤ smoke i k
  thin : ∀ i, 1 ≤ i → i ≤ N → ∀ l ∈ leds, lineDepth a.cam (pos l) a.lo a.hi (smoke i) ≤ 23

theorem seenArray_distances (a : ArrayAnalysis) (leds : List ℕ) (pos : ℕ → P3) (h : SeenArray a leds pos) :
    ∃ ds : ℕ → List ℝ, (∀ data : ImgData ℝ, a.inputOf (.ok data) =
        (if a.parallel then poolRel data (refIntensities a.ref data) else serialRel data (refIntensities a.ref data)).map
          fun rels => (leds.map fun l => some (ds l), rels)) ∧
      ∀ l ∈ leds, (∀ d ∈ ds l, 0 ≤ d) ∧
        ∀ σ : Fin a.layers → ℝ, ∑ k : Fin a.layers, (ds l).getD k 0 * σ k = lineDepth a.cam (pos l) a.lo a.hi σ := by
  have hex : ∀ l, ∃ ds : List ℝ, l ∈ leds → distPerLayer a.cam (pos l) (Ledsa.layers a.lo a.hi a.layers) = .dists ds ∧
      ds.length = a.layers ∧ (∀ d ∈ ds, 0 ≤ d) ∧
      ∀ σ : Fin a.layers → ℝ, ∑ k : Fin a.layers, ds.getD k 0 * σ k = lineDepth a.cam (pos l) a.lo a.hi σ := by
    intro l
    by_cases hl : l ∈ leds
    · obtain ⟨ds, hds⟩ := C95_distances a.cam (pos l) a.lo a.hi a.layers (by have := h.layers; omega) h.domain (h.rays l hl)
      exact ⟨ds, fun _ => hds⟩
    · exact ⟨[], fun h => absurd h hl⟩
  choose ds hds using hex
  refine ⟨ds, ?_, fun l hl => (hds l hl).2.2⟩
  intro data
  have hpos : ledPositions a.coordinates a.ids = .ok (leds.reverse.map pos) := by
    unfold ledPositions
    rw [h.ids]
    have : leds.reverse.mapM (fun i => a.coordinates[i]?) = some (leds.reverse.map pos) :=
      mapM_option_some _ _ _ fun i hi => h.positions i (List.mem_reverse.1 hi)
    rw [this]
  have hdist : distanceArray a.cam (Ledsa.layers a.lo a.hi a.layers) (leds.reverse.map pos) = leds.map fun l => some (ds l) := by
    unfold distanceArray distanceRows
    rw [← List.map_reverse, List.reverse_reverse, List.map_map]
    apply List.map_congr_left
    intro l hl
    simp only [Function.comp, (hds l hl).1]
  unfold ArrayAnalysis.inputOf
  rw [hpos]
  simp only [bind, Except.bind]
  rw [hdist]
  cases a.parallel with
  | false =>
    simp only [Bool.false_eq_true, if_false]
    cases serialRel data (refIntensities a.ref data) <;> rfl
  | true =>
    simp only [if_true]
    cases poolRel data (refIntensities a.ref data) <;> rfl

theorem lineDepth_nonneg (a : ArrayAnalysis) (leds : List ℕ) (pos : ℕ → P3) (h : SeenArray a leds pos) (σ : Fin a.layers → ℝ)
    (hσ : ∀ k, 0 ≤ σ k) (l : ℕ) (hl : l ∈ leds) : 0 ≤ lineDepth a.cam (pos l) a.lo a.hi σ := by
  obtain ⟨ds, _, hds⟩ := seenArray_distances a leds pos h
  rw [← (hds l hl).2 σ]
  refine Finset.sum_nonneg fun k _ => mul_nonneg ?_ (hσ k)
  simp only [List.getD_eq_getElem?_getD]
  cases hk : (ds l)[(k : ℕ)]? with
  | none => simp
  | some d => simpa using (hds l hl).1 d (List.mem_of_getElem? hk)

theorem twentythree_le : (23 : ℝ) ≤ 10 * Real.log 10 := by
  have : (23 : ℝ) / 10 ≤ Real.log 10 := by
    rw [Real.le_log_iff_exp_le (by norm_num)]
    have h1 := Real.exp_one_lt_d9
    have h2 : Real.exp (23 / 10) ^ 10 = Real.exp 1 ^ 23 := by
      rw [← Real.exp_nat_mul, ← Real.exp_nat_mul]; norm_num
    have h3 : Real.exp 1 ^ 23 ≤ 10 ^ 10 := by
      calc Real.exp 1 ^ 23 ≤ 2.7182818286 ^ 23 := by gcongr
        _ ≤ 10 ^ 10 := by norm_num
    have h4 : Real.exp (23 / 10) ^ 10 ≤ 10 ^ 10 := h2 ▸ h3
    exact le_of_pow_le_pow_left₀ (by norm_num) (by norm_num) h4
  linarith

/-- What one image gives. -/
theorem linearImage_stable {n : ℕ} (hn : 3 ≤ n) (leds : List ℕ) (ds : ℕ → List ℝ) {lam : ℝ} (hlam : 0 ≤ lam) (σ : Fin n → ℝ)
    (hσ : ∀ k, 0 ≤ σ k) (rel : ℕ → ℝ) (δ : ℝ)
    (hrel : ∀ l ∈ leds, |opticalDepth (rel l) - ∑ k : Fin n, (ds l).getD k 0 * σ k| ≤ δ) (r : Except PyErr (Fin n → ℝ))
    (h : LinearImage n (leds.map fun l => some (ds l)) lam (leds.map rel) r) :
    ∃ x, r = .ok x ∧ (∀ k, 0 ≤ x k) ∧
      (leds.map fun l => (∑ k : Fin n, (ds l).getD k 0 * x k - ∑ k : Fin n, (ds l).getD k 0 * σ k) ^ 2).sum +
        lam * bending (fun k => x k - σ k) ≤ leds.length * δ ^ 2 + lam * bending σ := by
  unfold LinearImage at h
  have hM : (leds.map fun l => some (ds l)).mapM id = some (leds.map ds) := by
    rw [← mapM_id_some (leds.map ds), List.map_map]; rfl
  rw [hM] at h
  simp only at h
  rw [if_pos (by simp)] at h
  obtain ⟨x, hr, hx⟩ := h
  refine ⟨x, hr, hx.nonneg, ?_⟩
  have key := linearSolution_stable _ hn hlam _ σ x hσ hx
  have hlt : ∀ i : Fin (leds.map ds).length, (i : ℕ) < leds.length := fun i => by have := i.2; simpa using this
  have hA : ∀ (i : Fin (leds.map ds).length) (τ : Fin n → ℝ), depth τ (distEntry (n := n) (leds.map ds) i) =
      ∑ k : Fin n, (ds (leds[(i : ℕ)]'(hlt i))).getD k 0 * τ k := by
    intro i τ
    unfold depth distEntry
    refine Finset.sum_congr rfl fun k _ => ?_
    congr 2
    simp
  have hsum : ∀ f : ℕ → ℝ, ∑ i : Fin (leds.map ds).length, f (leds[(i : ℕ)]'(hlt i)) = (leds.map f).sum := by
    intro f
    rw [← Fin.sum_univ_fun_getElem leds f, ← Equiv.sum_comp (finCongr (List.length_map (as := leds) ds))]
    rfl
  have e1 : ∑ i : Fin (leds.map ds).length, (depth x (distEntry (leds.map ds) i) - depth σ (distEntry (leds.map ds) i)) ^ 2 =
      (leds.map fun l => (∑ k : Fin n, (ds l).getD k 0 * x k - ∑ k : Fin n, (ds l).getD k 0 * σ k) ^ 2).sum := by
    rw [← hsum]
    exact Finset.sum_congr rfl fun i _ => by rw [hA, hA]
  have e2 : ∑ i : Fin (leds.map ds).length, (opticalDepth ((leds.map rel).getD i 0) - depth σ (distEntry (leds.map ds) i)) ^ 2 ≤
      leds.length * δ ^ 2 := by
    have : ∀ i : Fin (leds.map ds).length, (opticalDepth ((leds.map rel).getD i 0) - depth σ (distEntry (leds.map ds) i)) ^ 2 ≤ δ ^ 2 := by
      intro i
      rw [hA, List.getD_eq_getElem?_getD, List.getElem?_map, List.getElem?_eq_getElem (hlt i)]
      simp only [Option.map_some, Option.getD_some]
      have := hrel _ (List.getElem_mem (hlt i))
      exact sq_le_sq' (by linarith [(abs_le.1 this).1]) (abs_le.1 this).2
    refine (Finset.sum_le_sum fun i _ => this i).trans ?_
    simp
  rw [e1] at key
  linarith

/-- The coefficients of all images for intensities that are right up to a factor. -/
theorem noisy_result (a : ArrayAnalysis) (leds : List ℕ) (pos : ℕ → P3) (h : SeenArray a leds pos) (hlam : 0 ≤ a.lam) (N : ℕ)
    (v : ℕ → ℕ → ℝ) (γ : ℝ) (emit : ℕ → ℝ) (smoke : ℕ → Fin a.layers → ℝ) (hv : NoisyLight a leds pos N v γ emit smoke)
    (r : Except PyErr (List (Fin a.layers → ℝ))) (hr : a.ResultOf (a.inputOf (.ok (tableOf (firstImgs N) leds v))) r) :
    ∃ found : ℕ → Fin a.layers → ℝ, r = .ok ((firstImgs N).map found) ∧ ∀ i, 1 ≤ i → i ≤ N → (∀ k, 0 ≤ found i k) ∧
      (leds.map fun l => (lineDepth a.cam (pos l) a.lo a.hi (found i) - lineDepth a.cam (pos l) a.lo a.hi (smoke i)) ^ 2).sum +
        a.lam * bending (fun k => found i k - smoke i k) ≤ leds.length * (2 * γ) ^ 2 + a.lam * bending (smoke i) := by
  obtain ⟨i0, hi1, hi2, hi3⟩ := hv.reference
  have hN : 0 < N := by omega
  have hsel : ∃ i ∈ firstImgs N, a.ref.selects i = true := ⟨i0, (mem_firstImgs N i0).2 ⟨hi1, hi2⟩, hi3⟩
  have hne' : (firstImgs N).filter a.ref.selects ≠ [] := by
    obtain ⟨i, h1, h2⟩ := hsel
    exact List.ne_nil_of_mem (List.mem_filter.2 ⟨h1, h2⟩)
  have hrel := C46_value a.ref (firstImgs N) leds v (firstImgs_sorted N) h.ascending h.nonempty hsel
  obtain ⟨ds, hin, hds⟩ := seenArray_distances a leds pos h
  have hin' : a.inputOf (.ok (tableOf (firstImgs N) leds v)) = .ok (leds.map fun l => some (ds l), (firstImgs N).map fun i =>
      leds.map fun l => v i l / meanOver ((firstImgs N).filter a.ref.selects) v l) := by
    rw [hin]
    cases a.parallel with
    | false => simp only [Bool.false_eq_true, if_false]; rw [hrel]; rfl
    | true =>
      simp only [if_true]
      rw [C45_same_intensities N hN leds v h.ascending h.nonempty, hrel]; rfl
  unfold ArrayAnalysis.ResultOf at hr
  rw [hin'] at hr
  simp only at hr
  obtain ⟨rs, hf, rfl⟩ := hr
  have himg : ∀ i, 1 ≤ i → i ≤ N → ∀ r', LinearImage a.layers (leds.map fun l => some (ds l)) a.lam
      (leds.map fun l => v i l / meanOver ((firstImgs N).filter a.ref.selects) v l) r' → ∃ x, r' = .ok x ∧ (∀ k, 0 ≤ x k) ∧
      (leds.map fun l => (lineDepth a.cam (pos l) a.lo a.hi x - lineDepth a.cam (pos l) a.lo a.hi (smoke i)) ^ 2).sum +
        a.lam * bending (fun k => x k - smoke i k) ≤ leds.length * (2 * γ) ^ 2 + a.lam * bending (smoke i) := by
    intro i h1 h2 r' hr'
    have := linearImage_stable h.layers leds ds hlam (smoke i) (hv.nonneg i h1 h2) _ (2 * γ) (by
      intro l hl
      rw [(hds l hl).2]
      have hE := hv.emits l hl
      have hm : Within γ (meanOver ((firstImgs N).filter a.ref.selects) v l) (emit l) := by
        apply within_mean _ _ _ hne'
        intro j hj
        rw [List.mem_filter, mem_firstImgs] at hj
        have := hv.light j hj.1.1 hj.1.2 l hl
        rwa [hv.clear j hj.1.1 hj.1.2 hj.2, lineDepth_zero, neg_zero, Real.exp_zero, mul_one] at this
      have hx := hv.light i h1 h2 l hl
      have hE' : 0 < emit l * Real.exp (-lineDepth a.cam (pos l) a.lo a.hi (smoke i)) := mul_pos hE (Real.exp_pos _)
      have p1 := hx.pos hE'
      have p2 := hm.pos hE
      have l1 := hx.log hE'
      have l2 := hm.log hE
      rw [Real.log_mul hE.ne' (Real.exp_pos _).ne', Real.log_exp] at l1
      apply opticalDepth_near (div_pos p1 p2) (lineDepth_nonneg a leds pos h _ (hv.nonneg i h1 h2) l hl)
        ((hv.thin i h1 h2 l hl).trans twentythree_le)
      rw [Real.log_div p1.ne' p2.ne']
      rw [abs_le] at *
      constructor <;> linarith [l1.1, l1.2, l2.1, l2.2]) r' hr'
    obtain ⟨x, e, hx, hb⟩ := this
    refine ⟨x, e, hx, ?_⟩
    have : (leds.map fun l => (∑ k : Fin a.layers, (ds l).getD k 0 * x k - ∑ k : Fin a.layers, (ds l).getD k 0 * smoke i k) ^ 2) =
        leds.map fun l => (lineDepth a.cam (pos l) a.lo a.hi x - lineDepth a.cam (pos l) a.lo a.hi (smoke i)) ^ 2 := by
      apply List.map_congr_left
      intro l hl
      rw [(hds l hl).2, (hds l hl).2]
    rwa [this] at hb
  have key : ∀ (imgs : List ℕ), imgs.Nodup → (∀ i ∈ imgs, 1 ≤ i ∧ i ≤ N) → ∀ rs,
      List.Forall₂ (LinearImage a.layers (leds.map fun l => some (ds l)) a.lam)
        (imgs.map fun i => leds.map fun l => v i l / meanOver ((firstImgs N).filter a.ref.selects) v l) rs →
      ∃ found : ℕ → Fin a.layers → ℝ, rs = (imgs.map found).map Except.ok ∧ ∀ i ∈ imgs, (∀ k, 0 ≤ found i k) ∧
        (leds.map fun l => (lineDepth a.cam (pos l) a.lo a.hi (found i) - lineDepth a.cam (pos l) a.lo a.hi (smoke i)) ^ 2).sum +
          a.lam * bending (fun k => found i k - smoke i k) ≤ leds.length * (2 * γ) ^ 2 + a.lam * bending (smoke i) := by
    intro imgs
    induction imgs with
    | nil =>
      intro _ _ rs hf
      cases hf
      exact ⟨fun _ _ => 0, rfl, fun i hi => by cases hi⟩
    | cons i imgs ih =>
      intro hnd him rs hf
      rw [List.map_cons] at hf
      cases hf with
      | cons h1 h2 =>
        rw [List.nodup_cons] at hnd
        obtain ⟨x, rfl, hx⟩ := himg i (him i (by simp)).1 (him i (by simp)).2 _ h1
        obtain ⟨found, rfl, hfound⟩ := ih hnd.2 (fun j hj => him j (by simp [hj])) _ h2
        refine ⟨fun j => if j = i then x else found j, ?_, ?_⟩
        · rw [List.map_cons, List.map_cons, if_pos rfl]
          congr 2
          apply List.map_congr_left
          intro j hj
          rw [if_neg]
          rintro rfl
          exact hnd.1 hj
        · intro j hj
          by_cases hji : j = i
          · subst hji; simpa using hx
          · simp only [if_neg hji]
            exact hfound j ((List.mem_cons.1 hj).resolve_left hji)
  obtain ⟨found, rfl, hfound⟩ := key (firstImgs N) ((firstImgs_sorted N).imp fun h => h.ne) (fun i hi => (mem_firstImgs N i).1 hi) rs hf
  exact ⟨found, mapM_id_ok _, fun i h1 h2 => hfound i ((mem_firstImgs N i).2 ⟨h1, h2⟩)⟩

/-! ### C111 -/

/-- **C111.** If the intensities are right up to the factor `exp γ`, the coefficients found give optical depths along the lines of
sight whose errors are bounded: their squares add up to at most that of `2 γ` for every LED, plus what the smoothing may contribute
for a profile that is not linear in height. -/
theorem C111_depths (a : ArrayAnalysis) (leds : List ℕ) (pos : ℕ → P3) (h : SeenArray a leds pos) (hlam : 0 ≤ a.lam) (N : ℕ)
    (v : ℕ → ℕ → ℝ) (γ : ℝ) (emit : ℕ → ℝ) (smoke : ℕ → Fin a.layers → ℝ) (hv : NoisyLight a leds pos N v γ emit smoke)
    (files : ℕ → List (ℕ × ℕ × ℝ)) (hnd : ∀ i, 1 ≤ i → i ≤ N → ((files i).map (·.1)).Nodup)
    (hm : ∀ i, 1 ≤ i → i ≤ N → ∀ l x, (l, a.arr, x) ∈ files i ↔ l ∈ leds ∧ x = v i l)
    (r : Except PyErr (List (Fin a.layers → ℝ))) (hr : a.Result files N r) :
    ∃ found : ℕ → Fin a.layers → ℝ, r = .ok ((firstImgs N).map found) ∧ ∀ i, 1 ≤ i → i ≤ N → (∀ k, 0 ≤ found i k) ∧
      (leds.map fun l => (lineDepth a.cam (pos l) a.lo a.hi (found i) - lineDepth a.cam (pos l) a.lo a.hi (smoke i)) ^ 2).sum +
        a.lam * bending (fun k => found i k - smoke i k) ≤ leds.length * (2 * γ) ^ 2 + a.lam * bending (smoke i) := by
  obtain ⟨i0, hi1, hi2, _⟩ := hv.reference
  unfold ArrayAnalysis.Result ArrayAnalysis.solverInput at hr
  rw [arrayData_ok files N a.arr (by omega) leds v h.ascending h.nonempty hnd hm] at hr
  exact noisy_result a leds pos h hlam N v γ emit smoke hv r hr

/-- The sum of the squares of a profile. -/
noncomputable def normSq {n : ℕ} (σ : Fin n → ℝ) : ℝ := ∑ k, σ k ^ 2

/-- If the rays determine linear profiles, optical depths and bending together control the profile. -/
theorem observable (a : ArrayAnalysis) (leds : List ℕ) (pos : ℕ → P3) (h : SeenArray a leds pos) (hlam : 0 < a.lam)
    (hdet : ∀ σ τ : Fin a.layers → ℝ, Affine σ → Affine τ →
      (∀ l ∈ leds, lineDepth a.cam (pos l) a.lo a.hi σ = lineDepth a.cam (pos l) a.lo a.hi τ) → σ = τ) :
    ∃ K : ℝ, 0 < K ∧ ∀ σ τ : Fin a.layers → ℝ, normSq (fun k => σ k - τ k) ≤ K *
      ((leds.map fun l => (lineDepth a.cam (pos l) a.lo a.hi σ - lineDepth a.cam (pos l) a.lo a.hi τ) ^ 2).sum +
        a.lam * bending (fun k => σ k - τ k)) := by
  obtain ⟨ds, _, hds⟩ := seenArray_distances a leds pos h
  set Q : (Fin a.layers → ℝ) → ℝ := fun τ =>
    (leds.map fun l => (∑ k : Fin a.layers, (ds l).getD k 0 * τ k) ^ 2).sum + a.lam * bending τ with hQ
  have hn := h.layers
  have hcont : Continuous Q := by
    have h1 : Continuous fun τ : Fin a.layers → ℝ => (leds.map fun l => (∑ k : Fin a.layers, (ds l).getD k 0 * τ k) ^ 2).sum := by
      apply continuous_list_sum
      intro l _
      fun_prop
    have h2 : Continuous fun τ : Fin a.layers → ℝ => bending τ := by
      unfold bending
      fun_prop
    exact h1.add (continuous_const.mul h2)
  have hhom : ∀ (c : ℝ) (τ : Fin a.layers → ℝ), Q (fun k => c * τ k) = c ^ 2 * Q τ := by
    intro c τ
    rw [hQ]
    simp only
    have e1 : bending (fun k => c * τ k) = c ^ 2 * bending τ := by
      unfold bending
      rw [Finset.mul_sum]
      exact Finset.sum_congr rfl fun i _ => by ring
    have e2 : (leds.map fun l => (∑ k : Fin a.layers, (ds l).getD k 0 * (c * τ k)) ^ 2) =
        leds.map fun l => c ^ 2 * (∑ k : Fin a.layers, (ds l).getD k 0 * τ k) ^ 2 := by
      apply List.map_congr_left
      intro l _
      rw [← mul_pow, Finset.mul_sum]
      congr 1
      exact Finset.sum_congr rfl fun k _ => by ring
    rw [e1, e2, List.sum_map_mul_left]
    ring
  have hQ0 : ∀ τ, 0 ≤ Q τ := fun τ => add_nonneg (List.sum_nonneg (by
    intro x hx
    obtain ⟨l, _, rfl⟩ := List.mem_map.1 hx
    exact sq_nonneg _)) (mul_nonneg hlam.le (bending_nonneg _))
  have hpos : ∀ τ, normSq τ = 1 → 0 < Q τ := by
    intro τ hτ
    rcases (hQ0 τ).lt_or_eq with h' | h'
    · exact h'
    · exfalso
      have hb : a.lam * bending τ = 0 ∧ (leds.map fun l => (∑ k : Fin a.layers, (ds l).getD k 0 * τ k) ^ 2).sum = 0 := by
        have h1 : 0 ≤ (leds.map fun l => (∑ k : Fin a.layers, (ds l).getD k 0 * τ k) ^ 2).sum := List.sum_nonneg (by
          intro x hx
          obtain ⟨l, _, rfl⟩ := List.mem_map.1 hx
          exact sq_nonneg _)
        have h2 := mul_nonneg hlam.le (bending_nonneg τ)
        rw [hQ] at h'
        simp only at h'
        constructor <;> linarith
      have haff : Affine τ := (bending_eq_zero τ).1 ((mul_eq_zero.1 hb.1).resolve_left hlam.ne')
      have hz : ∀ l ∈ leds, ∑ k : Fin a.layers, (ds l).getD k 0 * τ k = 0 := by
        intro l hl
        have hle : (∑ k : Fin a.layers, (ds l).getD k 0 * τ k) ^ 2 ≤ 0 := by
          refine le_trans ?_ hb.2.le
          exact List.single_le_sum (by
            intro x hx
            obtain ⟨l, _, rfl⟩ := List.mem_map.1 hx
            exact sq_nonneg _) _ (List.mem_map.2 ⟨l, hl, rfl⟩)
        exact pow_eq_zero_iff two_ne_zero |>.1 (le_antisymm hle (sq_nonneg _))
      have := hdet τ (fun _ => 0) haff ⟨0, 0, fun _ => by simp⟩ (by
        intro l hl
        rw [← (hds l hl).2 τ, hz l hl, lineDepth_zero])
      rw [this] at hτ
      simp [normSq] at hτ
  have hcn : Continuous fun τ : Fin a.layers → ℝ => normSq τ := by unfold normSq; fun_prop
  have hcomp : IsCompact {τ : Fin a.layers → ℝ | normSq τ = 1} := by
    apply Metric.isCompact_of_isClosed_isBounded
    · exact isClosed_eq hcn continuous_const
    · refine (Metric.isBounded_closedBall (x := (0 : Fin a.layers → ℝ)) (r := 1)).subset ?_
      intro τ hτ
      rw [mem_closedBall_zero_iff, pi_norm_le_iff_of_nonneg zero_le_one]
      intro k
      have h1 : τ k ^ 2 ≤ 1 := by
        rw [← (show normSq τ = 1 from hτ)]
        exact Finset.single_le_sum (f := fun k => τ k ^ 2) (fun k _ => sq_nonneg _) (Finset.mem_univ k)
      rw [Real.norm_eq_abs]
      exact abs_le_one_iff_mul_self_le_one.2 (by nlinarith)
  have hne : {τ : Fin a.layers → ℝ | normSq τ = 1}.Nonempty := by
    refine ⟨fun k => if k = ⟨0, by omega⟩ then 1 else 0, ?_⟩
    show normSq _ = 1
    unfold normSq
    simp
  obtain ⟨τ0, h0, hmin⟩ := hcomp.exists_isMinOn hne hcont.continuousOn
  have hκ := hpos τ0 h0
  have hmain : ∀ τ, normSq τ ≤ (Q τ0)⁻¹ * Q τ := by
    intro τ
    have hnn : 0 ≤ normSq τ := Finset.sum_nonneg fun _ _ => sq_nonneg _
    rcases hnn.lt_or_eq with h' | h'
    · have hs : 0 < Real.sqrt (normSq τ) := Real.sqrt_pos.2 h'
      have hone : normSq (fun k => (Real.sqrt (normSq τ))⁻¹ * τ k) = 1 := by
        have : normSq (fun k => (Real.sqrt (normSq τ))⁻¹ * τ k) = (Real.sqrt (normSq τ))⁻¹ ^ 2 * normSq τ := by
          conv_lhs => unfold normSq
          simp only [mul_pow]
          rw [← Finset.mul_sum]
          rfl
        rw [this, inv_pow, Real.sq_sqrt hnn, inv_mul_cancel₀ h'.ne']
      have := hmin (show (fun k => (Real.sqrt (normSq τ))⁻¹ * τ k) ∈ {τ : Fin a.layers → ℝ | normSq τ = 1} from hone)
      have : Q τ0 ≤ Q (fun k => (Real.sqrt (normSq τ))⁻¹ * τ k) := this
      rw [hhom, inv_pow, Real.sq_sqrt hnn] at this
      rw [inv_mul_eq_div, le_div_iff₀ hκ]
      rw [inv_mul_eq_div, le_div_iff₀ h'] at this
      linarith
    · rw [← h']
      exact mul_nonneg (inv_pos.2 hκ).le (hQ0 τ)
  refine ⟨(Q τ0)⁻¹, inv_pos.2 hκ, fun σ τ => ?_⟩
  have := hmain fun k => σ k - τ k
  have e : Q (fun k => σ k - τ k) = (leds.map fun l => (lineDepth a.cam (pos l) a.lo a.hi σ - lineDepth a.cam (pos l) a.lo a.hi τ) ^ 2).sum +
        a.lam * bending (fun k => σ k - τ k) := by
    rw [hQ]
    simp only
    congr 2
    apply List.map_congr_left
    intro l hl
    rw [← (hds l hl).2 σ, ← (hds l hl).2 τ, ← Finset.sum_sub_distrib]
    congr 1
    exact Finset.sum_congr rfl fun k _ => by ring
  rwa [e] at this

/-- **C111.** The coefficients depend stably on the measurement: a constant of the geometry and the regularisation bounds the error of the
coefficients of every image by the errors of the intensities and the bending of the true profile. -/
theorem C111_coefficients (a : ArrayAnalysis) (leds : List ℕ) (pos : ℕ → P3) (h : SeenArray a leds pos) (hlam : 0 < a.lam)
    (hdet : ∀ σ τ : Fin a.layers → ℝ, Affine σ → Affine τ →
      (∀ l ∈ leds, lineDepth a.cam (pos l) a.lo a.hi σ = lineDepth a.cam (pos l) a.lo a.hi τ) → σ = τ) :
    ∃ K : ℝ, 0 < K ∧ ∀ (N : ℕ) (v : ℕ → ℕ → ℝ) (γ : ℝ) (emit : ℕ → ℝ) (smoke : ℕ → Fin a.layers → ℝ),
      NoisyLight a leds pos N v γ emit smoke → ∀ files : ℕ → List (ℕ × ℕ × ℝ),
      (∀ i, 1 ≤ i → i ≤ N → ((files i).map (·.1)).Nodup) →
      (∀ i, 1 ≤ i → i ≤ N → ∀ l x, (l, a.arr, x) ∈ files i ↔ l ∈ leds ∧ x = v i l) →
      ∀ r, a.Result files N r → ∃ found : ℕ → Fin a.layers → ℝ, r = .ok ((firstImgs N).map found) ∧
        ∀ i, 1 ≤ i → i ≤ N → ∑ k, (found i k - smoke i k) ^ 2 ≤ K * (leds.length * (2 * γ) ^ 2 + a.lam * bending (smoke i)) := by
  obtain ⟨K, hK, hobs⟩ := observable a leds pos h hlam hdet
  refine ⟨K, hK, ?_⟩
  intro N v γ emit smoke hv files hnd hm r hr
  obtain ⟨found, e, hf⟩ := C111_depths a leds pos h hlam.le N v γ emit smoke hv files hnd hm r hr
  refine ⟨found, e, fun i h1 h2 => ?_⟩
  exact (hobs (found i) (smoke i)).trans (mul_le_mul_of_nonneg_left (hf i h1 h2).2 hK.le)

/-- A non-negative minimiser exists if the residual controls the vector. -/
theorem nnls_exists {ι : Type} [Fintype ι] {n : ℕ} (B : ι → Fin n → ℝ) (b : ι → ℝ) (K : ℝ) (hK : 0 ≤ K)
    (hB : ∀ x : Fin n → ℝ, normSq x ≤ K * ∑ i, (∑ l, B i l * x l) ^ 2) : ∃ x, IsNnls B b x := by
  by_cases h0 : ∀ l, ∑ i, B i l * b i ≤ 0
  · refine ⟨0, ⟨fun _ => le_refl _, ?_⟩, fun _ => rfl⟩
    intro y hy
    have h1 : ∑ i, (∑ l, B i l * y l) * b i ≤ 0 := by
      have : ∑ i, (∑ l, B i l * y l) * b i = ∑ l, y l * ∑ i, B i l * b i := by
        simp only [Finset.sum_mul, Finset.mul_sum]
        rw [Finset.sum_comm]
        exact Finset.sum_congr rfl fun l _ => Finset.sum_congr rfl fun i _ => by ring
      rw [this]
      exact Finset.sum_nonpos fun l _ => mul_nonpos_of_nonneg_of_nonpos (hy l) (h0 l)
    unfold residual
    have h2 : ∑ i, (∑ l, B i l * y l - b i) ^ 2 =
        ∑ i, (∑ l, B i l * y l) ^ 2 - 2 * ∑ i, (∑ l, B i l * y l) * b i + ∑ i, b i ^ 2 := by
      rw [Finset.mul_sum, ← Finset.sum_sub_distrib, ← Finset.sum_add_distrib]
      exact Finset.sum_congr rfl fun i _ => by ring
    rw [h2]
    have h3 : 0 ≤ ∑ i, (∑ l, B i l * y l) ^ 2 := Finset.sum_nonneg fun _ _ => sq_nonneg _
    have h4 : ∑ i, (∑ l, B i l * (0 : Fin n → ℝ) l - b i) ^ 2 = ∑ i, b i ^ 2 := by simp
    rw [h4]
    linarith
  · set S : Set (Fin n → ℝ) := {x | (∀ l, 0 ≤ x l) ∧ residual B b x ≤ residual B b 0} with hS
    have hres : Continuous fun x : Fin n → ℝ => residual B b x := by
      unfold residual
      fun_prop
    have hcl : IsClosed S := by
      apply IsClosed.and
      · have : {x : Fin n → ℝ | ∀ l, 0 ≤ x l} = ⋂ l, {x | 0 ≤ x l} := by ext x; simp
        rw [this]
        exact isClosed_iInter fun l => isClosed_le continuous_const (continuous_apply l)
      · exact isClosed_le hres continuous_const
    have hbd : Bornology.IsBounded S := by
      set M := K * (4 * residual B b 0) with hM
      refine (Metric.isBounded_closedBall (x := (0 : Fin n → ℝ)) (r := Real.sqrt M)).subset ?_
      rintro x ⟨_, hx⟩
      rw [mem_closedBall_zero_iff, pi_norm_le_iff_of_nonneg (Real.sqrt_nonneg _)]
      intro k
      rw [Real.norm_eq_abs]
      apply Real.abs_le_sqrt
      have h1 : x k ^ 2 ≤ normSq x := Finset.single_le_sum (f := fun k => x k ^ 2) (fun k _ => sq_nonneg _) (Finset.mem_univ k)
      have h2 : ∑ i, (∑ l, B i l * x l) ^ 2 ≤ 2 * residual B b x + 2 * residual B b 0 := by
        unfold residual
        rw [Finset.mul_sum, Finset.mul_sum, ← Finset.sum_add_distrib]
        refine Finset.sum_le_sum fun i _ => ?_
        simp only [Pi.zero_apply, mul_zero, Finset.sum_const_zero, zero_sub]
        nlinarith [sq_nonneg (∑ l, B i l * x l - b i - b i)]
      have h3 := mul_le_mul_of_nonneg_left (h2.trans (show _ ≤ 4 * residual B b 0 by linarith)) hK
      linarith [hB x]
    obtain ⟨x, hx, hmin⟩ := (Metric.isCompact_of_isClosed_isBounded hcl hbd).exists_isMinOn ⟨0, fun _ => le_refl _, le_refl _⟩
      hres.continuousOn
    refine ⟨x, ⟨hx.1, ?_⟩, fun h => absurd h h0⟩
    intro y hy
    by_cases hy' : residual B b y ≤ residual B b 0
    · exact hmin (show y ∈ S from ⟨hy, hy'⟩)
    · exact hx.2.trans (not_le.1 hy').le

/-- **C111.** Such an analysis has a result. -/
theorem C111_exists (a : ArrayAnalysis) (leds : List ℕ) (pos : ℕ → P3) (h : SeenArray a leds pos) (hlam : 0 < a.lam)
    (hdet : ∀ σ τ : Fin a.layers → ℝ, Affine σ → Affine τ →
      (∀ l ∈ leds, lineDepth a.cam (pos l) a.lo a.hi σ = lineDepth a.cam (pos l) a.lo a.hi τ) → σ = τ)
    (N : ℕ) (v : ℕ → ℕ → ℝ) (href : ∃ i, 1 ≤ i ∧ i ≤ N ∧ a.ref.selects i = true) :
    ∃ r, a.ResultOf (a.inputOf (.ok (tableOf (firstImgs N) leds v))) r := by
  obtain ⟨i0, hi1, hi2, hi3⟩ := href
  have hN : 0 < N := by omega
  have hsel : ∃ i ∈ firstImgs N, a.ref.selects i = true := ⟨i0, (mem_firstImgs N i0).2 ⟨hi1, hi2⟩, hi3⟩
  have hrel := C46_value a.ref (firstImgs N) leds v (firstImgs_sorted N) h.ascending h.nonempty hsel
  obtain ⟨ds, hin, hds⟩ := seenArray_distances a leds pos h
  obtain ⟨K, hK, hobs⟩ := observable a leds pos h hlam hdet
  have hin' : a.inputOf (.ok (tableOf (firstImgs N) leds v)) = .ok (leds.map fun l => some (ds l), (firstImgs N).map fun i =>
      leds.map fun l => v i l / meanOver ((firstImgs N).filter a.ref.selects) v l) := by
    rw [hin]
    cases a.parallel with
    | false => simp only [Bool.false_eq_true, if_false]; rw [hrel]; rfl
    | true =>
      simp only [if_true]
      rw [C45_same_intensities N hN leds v h.ascending h.nonempty, hrel]; rfl
  unfold ArrayAnalysis.ResultOf
  rw [hin']
  simp only
  have himg : ∀ rel : ℕ → ℝ, ∃ r, LinearImage a.layers (leds.map fun l => some (ds l)) a.lam (leds.map rel) r := by
    intro rel
    unfold LinearImage
    have hM : (leds.map fun l => some (ds l)).mapM id = some (leds.map ds) := by
      rw [← mapM_id_some (leds.map ds), List.map_map]; rfl
    rw [hM]
    simp only
    simp only [show (leds.map rel).length = (leds.map ds).length by simp, if_true]
    have hB : ∀ x : Fin a.layers → ℝ, normSq x ≤ K * ∑ i, (∑ l, augMatrix (distEntry (leds.map ds)) a.lam i l * x l) ^ 2 := by
      intro x
      have := hobs x fun _ => 0
      simp only [sub_zero, lineDepth_zero] at this
      refine this.trans (le_of_eq ?_)
      rw [Fintype.sum_sum_type, reg_sum _ h.layers hlam.le]
      congr 2
      have hlt : ∀ i : Fin (leds.map ds).length, (i : ℕ) < leds.length := fun i => by have := i.2; simpa using this
      rw [← Fin.sum_univ_fun_getElem leds, ← Equiv.sum_comp (finCongr (List.length_map (as := leds) ds))]
      refine Finset.sum_congr rfl fun i _ => ?_
      congr 1
      have hi := hlt i
      rw [← (hds _ (List.getElem_mem _)).2 x]
      refine Finset.sum_congr rfl fun k _ => ?_
      simp [augMatrix, distEntry]
    obtain ⟨x, hx⟩ := nnls_exists (augMatrix (distEntry (leds.map ds)) a.lam)
      (augRhs a.layers fun (i : Fin (leds.map ds).length) => (leds.map rel).getD i 0) K hK.le hB
    exact ⟨.ok x, x, rfl, hx⟩
  choose res hres using himg
  refine ⟨_, (firstImgs N).map fun i => res fun l => v i l / meanOver ((firstImgs N).filter a.ref.selects) v l, ?_, rfl⟩
  rw [List.forall₂_map_left_iff, List.forall₂_map_right_iff, List.forall₂_same]
  intro i _
  exact hres _

/-! ### C112 -/

/-- Rounding to five digits in terms of a factor. -/
theorem rounded_within {s S : ℝ} (h : |s - S| ≤ S / 20000) : Within (1 / 19999) s S := by
  have hS : 0 ≤ S := by
    have := abs_nonneg (s - S)
    linarith
  obtain ⟨h1, h2⟩ := abs_le.1 h
  have e1 : (20000 : ℝ) / 19999 ≤ Real.exp (1 / 19999) := by
    have := Real.add_one_le_exp (1 / 19999 : ℝ)
    linarith
  have e2 : Real.exp (-(1 / 19999)) ≤ 19999 / 20000 := by
    rw [Real.exp_neg]
    have : (19999 : ℝ) / 20000 = (20000 / 19999)⁻¹ := by norm_num
    rw [this]
    exact inv_anti₀ (by norm_num) e1
  constructor
  · have := mul_le_mul_of_nonneg_left e2 hS
    linarith
  · have := mul_le_mul_of_nonneg_left e1 hS
    linarith

theorem sortRows_self {V : Type} (l : List (ℕ × V)) (h : (l.map (·.1)).Pairwise (· < ·)) : sortRows l = l := by
  rw [List.pairwise_map] at h
  have hnd : (l.map (·.1)).Nodup := by
    rw [List.nodup_iff_pairwise_ne, List.pairwise_map]
    exact h.imp fun h => h.ne
  have hs := sortRows_sorted l hnd
  refine List.Perm.eq_of_pairwise (le := fun x y => x.1 < y.1) (fun x y _ _ h3 h4 => absurd (h3.trans h4) (lt_irrefl _)) hs h ?_
  rw [List.perm_ext_iff_of_nodup (hs.imp fun h he => by rw [he] at h; exact lt_irrefl _ h)
    (h.imp fun h he => by rw [he] at h; exact lt_irrefl _ h)]
  exact sortRows_mem l

theorem index_unique {arrays : List (List ℕ)} (h : arrays.flatten.Nodup) {i j : ℕ} {a b : List ℕ} (hi : arrays[i]? = some a)
    (hj : arrays[j]? = some b) {x : ℕ} (ha : x ∈ a) (hb : x ∈ b) : i = j := by
  rw [List.nodup_flatten] at h
  obtain ⟨hi', rfl⟩ := List.getElem?_eq_some_iff.1 hi
  obtain ⟨hj', rfl⟩ := List.getElem?_eq_some_iff.1 hj
  have hp := List.pairwise_iff_getElem.1 h.2
  rcases lt_trichotomy i j with hlt | he | hlt
  · exact absurd hb (hp i j hi' hj' hlt ha)
  · exact he
  · exact absurd ha (hp j i hj' hi' hlt hb)

/-- The light of LED `led` in a photo: the sum of the pixel values around its position. -/
def lightOf (img : Image ℚ) (areas : List (ℤ × ℤ)) (R : ℕ) (led : ℕ) : ℚ :=
  match areas[led]? with
  | some (r, c) => ∑ p ∈ area img r c R, img.px p.1 p.2
  | none => 0

/-- The values of an LED array in the table made of the result files of step 3: those of the photos up to the rounding in the files,
which depends on nothing but the value. -/
theorem photos_table_exact (w : HdfWorld) (ch n : ℕ) (hcount : w.count w.cwd = .ok (n : ℤ)) (hn : 0 < n) (hw : w.cache = none)
    (infos : List InfoRow) (hi : GoodInfos infos) (hlen : n ≤ infos.length) (root : Str) (hroot : '\n' ∉ root)
    (areas : List (ℤ × ℤ)) (R : ℕ) (arrays : List (List ℕ)) (hnodup : arrays.flatten.Nodup)
    (htwo : 2 ≤ arrays.flatten.length) (img : ℕ → Image ℚ) (hp : ∀ i, GoodPhoto (img i) areas R 0 arrays)
    (files : ℕ → Option Str)
    (hf : ∀ i, 1 ≤ i → i ≤ n →
      files i = (step3Text (infoFile infos) root ch areas R 0 arrays (img i) none (natStr i)).toOption)
    (c : Option (List (ℕ × List ℚ × ℚ × ℚ))) (hc : w.coord w.cwd = c.map asCoord)
    (hc2 : ∀ c', c = some c' → 2 ≤ c'.length ∧ ∃ m, ∀ r ∈ c', r.2.1.length = m)
    (hgc : ∀ c', c = some c' → (c'.map (·.1)).Pairwise (· < ·) ∧ ∀ i ∈ arrays.flatten, i ∈ c'.map (·.1))
    (k : ℕ) (leds : List ℕ) (hasc : leds.Pairwise (· < ·)) (hne : leds ≠ [])
    (ids : List ℕ) (harr : arrays[k]? = some ids) (hids : ∀ l, l ∈ leds ↔ l ∈ ids) :
    ∃ f v, textFrame w ch files = .ok f ∧ frameData f "sum_col_val" k = .ok (tableOf (firstImgs n) leds v) ∧
      ∀ i, 1 ≤ i → i ≤ n → ∀ l ∈ leds, v i l = sciVal (lightOf (img i) areas R l) ∧ Within (1 / 19999) (v i l) (lightOf (img i) areas R l : ℝ) := by
  have hleds : ledsOf 0 arrays = arrays.flatten := by
    unfold ledsOf
    rw [List.filter_eq_self]
    intro x _
    simp
  obtain ⟨f, rows, f1, f2, f3, f4⟩ := C101_values w ch n hcount hn hw infos hi hlen root hroot areas R 0 arrays (by rwa [hleds])
    (by rwa [hleds]) img hp files hf c hc hc2 (by rwa [hleds])
  choose! l g1 g2 g3 g4 using f4
  -- the values of the rows
  have hrec : ∀ i, 1 ≤ i → i ≤ n → ∀ x ∈ l i, ∃ (arr : ℕ) (s μ m : ℚ), x.2.1 = [(arr : ℚ), s, μ, m] ∧
      (∃ ids, arrays[arr]? = some ids ∧ x.1 ∈ ids) ∧ s = sciVal (lightOf (img i) areas R x.1) ∧
      Within (1 / 19999) (s : ℝ) (lightOf (img i) areas R x.1 : ℝ) := by
    rintro i h1 h2 ⟨led, v, x, y⟩ hx
    obtain ⟨⟨arr, ids, r, c, s, μ, m, rfl, e1, e2, e3, e4, _, _, _, e5⟩, _⟩ := g4 i h1 h2 led v x y hx
    refine ⟨arr, s, μ, m, rfl, ⟨ids, e1, e2⟩, by unfold lightOf; rw [e3]; exact e5, rounded_within ?_⟩
    unfold lightOf
    rw [e3]
    exact_mod_cast e4
  set sums : ℕ → List (ℕ × ℕ × ℝ) := fun i => (l i).map fun x => (x.1, ⌊(x.2.1.head?).getD 0⌋.toNat, (((x.2.1[1]?).getD 0 : ℚ) : ℝ)) with hsums
  have hframe : frameRows f "sum_col_val" = loadedTable sums n := by
    unfold frameRows loadedTable
    rw [f3, List.map_flatten, List.map_map, ← List.flatMap_def]
    apply List.flatMap_congr
    intro k hk
    rw [List.mem_range] at hk
    have hsorted : sortRows (sums (k + 1)) = sums (k + 1) := by
      apply sortRows_self
      rw [hsums]
      simp only
      rw [List.map_map]
      exact g2 (k + 1) (by omega) (by omega)
    rw [hsorted]
    simp only [Function.comp]
    rw [g1 (k + 1) (by omega) (by omega), hsums]
    simp only
    rw [List.map_map, List.map_map]
    apply List.map_congr_left
    intro x hx
    obtain ⟨arr, s, μ, m, e, _⟩ := hrec (k + 1) (by omega) (by omega) x hx
    have hix : ∀ name, f.cols.idxOf name =
        ["img_id", "led_id", "led_array_id", "sum_col_val", "mean_col_val", "max_col_val", "width", "height"].idxOf name := by
      intro name; rw [f2]
    simp only [Function.comp, DataTable.cell, hix, e]
    have j0 : ["img_id", "led_id", "led_array_id", "sum_col_val", "mean_col_val", "max_col_val", "width", "height"].idxOf "img_id" = 0 := by
      decide
    have j1 : ["img_id", "led_id", "led_array_id", "sum_col_val", "mean_col_val", "max_col_val", "width", "height"].idxOf "led_id" = 1 := by
      decide
    have j2 : ["img_id", "led_id", "led_array_id", "sum_col_val", "mean_col_val", "max_col_val", "width", "height"].idxOf "led_array_id" = 2 := by
      decide
    have j3 : ["img_id", "led_id", "led_array_id", "sum_col_val", "mean_col_val", "max_col_val", "width", "height"].idxOf "sum_col_val" = 3 := by
      decide
    rw [j0, j1, j2, j3]
    simp
  have hmem : ∀ i, 1 ≤ i → i ≤ n → ∀ led arr x, (led, arr, x) ∈ sums i →
      (x = sciVal (lightOf (img i) areas R led) ∧ Within (1 / 19999) x (lightOf (img i) areas R led : ℝ)) ∧
      ∃ ids, arrays[arr]? = some ids ∧ led ∈ ids := by
    intro i h1 h2 led arr x hx
    rw [hsums] at hx
    obtain ⟨y, hy, he⟩ := List.mem_map.1 hx
    obtain ⟨arr', s, μ, m, e, e2, e4, e3⟩ := hrec i h1 h2 y hy
    rw [e] at he
    simp only [List.head?_cons, Option.getD_some, Int.floor_natCast, Int.toNat_natCast, List.getElem?_cons_succ,
      List.getElem?_cons_zero, Prod.mk.injEq] at he
    obtain ⟨rfl, rfl, rfl⟩ := he
    exact ⟨⟨by exact_mod_cast e4, e3⟩, e2⟩
  have hfst : ∀ i, (sums i).map (·.1) = (l i).map (·.1) := by
    intro i
    rw [hsums]
    simp only
    rw [List.map_map]
    rfl
  have hnd : ∀ i, 1 ≤ i → i ≤ n → ((sums i).map (·.1)).Nodup := by
    intro i h1 h2
    rw [hfst]
    exact (g2 i h1 h2).imp fun h => h.ne
  have hex : ∀ i, 1 ≤ i → i ≤ n → ∀ led ∈ leds, ∃ x, (led, k, x) ∈ sums i := by
    intro i h1 h2 led hled
    have : led ∈ (sums i).map (·.1) := by
      rw [hfst, g3 i h1 h2, hleds, List.mem_flatten]
      exact ⟨ids, List.mem_of_getElem? harr, (hids led).1 hled⟩
    obtain ⟨⟨led', arr, x⟩, hx, rfl⟩ := List.mem_map.1 this
    obtain ⟨_, ids', e1, e2⟩ := hmem i h1 h2 _ _ _ hx
    obtain rfl := index_unique hnodup e1 harr e2 ((hids _).1 hled)
    exact ⟨x, hx⟩
  choose! v hvmem using hex
  have hm : ∀ i, 1 ≤ i → i ≤ n → ∀ led x, (led, k, x) ∈ sums i ↔ led ∈ leds ∧ x = v i led := by
    intro i h1 h2 led x
    constructor
    · intro hx
      obtain ⟨_, ids', e1, e2⟩ := hmem i h1 h2 _ _ _ hx
      rw [harr] at e1
      obtain rfl := Option.some.inj e1
      have hled := (hids led).2 e2
      refine ⟨hled, ?_⟩
      have := List.inj_on_of_nodup_map (hnd i h1 h2) hx (hvmem i h1 h2 led hled) rfl
      simpa using this
    · rintro ⟨hled, rfl⟩
      exact hvmem i h1 h2 led hled
  refine ⟨f, v, f1, ?_, fun i h1 h2 led hled => (hmem i h1 h2 _ _ _ (hvmem i h1 h2 led hled)).1⟩
  unfold frameData
  rw [if_pos (by rw [f2]; decide), hframe]
  exact arrayData_ok sums n k hn leds v hasc hne hnd hm

/-- The same without the rounded value. -/
theorem photos_table (w : HdfWorld) (ch n : ℕ) (hcount : w.count w.cwd = .ok (n : ℤ)) (hn : 0 < n) (hw : w.cache = none)
    (infos : List InfoRow) (hi : GoodInfos infos) (hlen : n ≤ infos.length) (root : Str) (hroot : '\n' ∉ root)
    (areas : List (ℤ × ℤ)) (R : ℕ) (arrays : List (List ℕ)) (hnodup : arrays.flatten.Nodup)
    (htwo : 2 ≤ arrays.flatten.length) (img : ℕ → Image ℚ) (hp : ∀ i, GoodPhoto (img i) areas R 0 arrays)
    (files : ℕ → Option Str)
    (hf : ∀ i, 1 ≤ i → i ≤ n →
      files i = (step3Text (infoFile infos) root ch areas R 0 arrays (img i) none (natStr i)).toOption)
    (c : Option (List (ℕ × List ℚ × ℚ × ℚ))) (hc : w.coord w.cwd = c.map asCoord)
    (hc2 : ∀ c', c = some c' → 2 ≤ c'.length ∧ ∃ m, ∀ r ∈ c', r.2.1.length = m)
    (hgc : ∀ c', c = some c' → (c'.map (·.1)).Pairwise (· < ·) ∧ ∀ i ∈ arrays.flatten, i ∈ c'.map (·.1))
    (k : ℕ) (leds : List ℕ) (hasc : leds.Pairwise (· < ·)) (hne : leds ≠ [])
    (ids : List ℕ) (harr : arrays[k]? = some ids) (hids : ∀ l, l ∈ leds ↔ l ∈ ids) :
    ∃ f v, textFrame w ch files = .ok f ∧ frameData f "sum_col_val" k = .ok (tableOf (firstImgs n) leds v) ∧
      ∀ i, 1 ≤ i → i ≤ n → ∀ l ∈ leds, Within (1 / 19999) (v i l) (lightOf (img i) areas R l : ℝ) := by
  obtain ⟨f, v, h1, h2, h3⟩ := photos_table_exact w ch n hcount hn hw infos hi hlen root hroot areas R arrays hnodup htwo img hp files hf c hc hc2
    hgc k leds hasc hne ids harr hids
  exact ⟨f, v, h1, h2, fun i h4 h5 l hl => (h3 i h4 h5 l hl).2⟩

/-- **C112.** From the photos to the coefficients: step 3 writes the result files, the table is made from them, and the coefficients of the
analysis of an LED array reproduce the optical depths of the true smoke along the lines of sight, with errors bounded by those of
the light in the photos (a factor `exp γ`), the rounding in the text files, and the smoothing. -/
theorem C112_photos_to_coefficients (w : HdfWorld) (ch n : ℕ) (hcount : w.count w.cwd = .ok (n : ℤ)) (hn : 0 < n) (hw : w.cache = none)
    (infos : List InfoRow) (hi : GoodInfos infos) (hlen : n ≤ infos.length) (root : Str) (hroot : '\n' ∉ root)
    (areas : List (ℤ × ℤ)) (R : ℕ) (arrays : List (List ℕ)) (hnodup : arrays.flatten.Nodup)
    (htwo : 2 ≤ arrays.flatten.length) (img : ℕ → Image ℚ) (hp : ∀ i, GoodPhoto (img i) areas R 0 arrays)
    (files : ℕ → Option Str)
    (hf : ∀ i, 1 ≤ i → i ≤ n →
      files i = (step3Text (infoFile infos) root ch areas R 0 arrays (img i) none (natStr i)).toOption)
    (c : Option (List (ℕ × List ℚ × ℚ × ℚ))) (hc : w.coord w.cwd = c.map asCoord)
    (hc2 : ∀ c', c = some c' → 2 ≤ c'.length ∧ ∃ m, ∀ r ∈ c', r.2.1.length = m)
    (hgc : ∀ c', c = some c' → (c'.map (·.1)).Pairwise (· < ·) ∧ ∀ i ∈ arrays.flatten, i ∈ c'.map (·.1))
    (a : ArrayAnalysis) (leds : List ℕ) (pos : ℕ → P3) (h : SeenArray a leds pos) (hlam : 0 ≤ a.lam)
    (ids : List ℕ) (harr : arrays[a.arr]? = some ids) (hids : ∀ l, l ∈ leds ↔ l ∈ ids)
    (γ : ℝ) (emit : ℕ → ℝ) (smoke : ℕ → Fin a.layers → ℝ)
    (hv : NoisyLight a leds pos n (fun i l => (lightOf (img i) areas R l : ℝ)) γ emit smoke) :
    ∃ f, textFrame w ch files = .ok f ∧ ∀ r, a.ResultOf (a.inputOf (frameData f "sum_col_val" a.arr)) r →
      ∃ found : ℕ → Fin a.layers → ℝ, r = .ok ((firstImgs n).map found) ∧ ∀ i, 1 ≤ i → i ≤ n → (∀ k, 0 ≤ found i k) ∧
        (leds.map fun l => (lineDepth a.cam (pos l) a.lo a.hi (found i) - lineDepth a.cam (pos l) a.lo a.hi (smoke i)) ^ 2).sum +
          a.lam * bending (fun k => found i k - smoke i k) ≤
          leds.length * (2 * γ + 2 / 19999) ^ 2 + a.lam * bending (smoke i) := by
  obtain ⟨f, v, f1, f2, f3⟩ := photos_table w ch n hcount hn hw infos hi hlen root hroot areas R arrays hnodup htwo img hp files hf c hc hc2
    hgc a.arr leds h.ascending h.nonempty ids harr hids
  refine ⟨f, f1, ?_⟩
  intro r hr
  have hnoisy : NoisyLight a leds pos n v (γ + 1 / 19999) emit smoke := by
    refine ⟨hv.emits, ?_, hv.clear, hv.reference, hv.nonneg, hv.thin⟩
    intro i h1 h2 led hled
    exact (hv.light i h1 h2 led hled).trans (f3 i h1 h2 led hled)
  rw [f2] at hr
  have := noisy_result a leds pos h hlam n v _ emit smoke hnoisy r hr
  have e : 2 * (γ + 1 / 19999) = 2 * γ + 2 / 19999 := by ring
  rwa [e] at this

/-! ### A case of C111 and C112: two LEDs, three layers, uniform smoke in the second photo -/

theorem exampleSeen : SeenArray exampleAnalysis [0, 1] examplePos where
  ids := rfl
  ascending := by simp
  nonempty := by simp
  positions := by
    intro l hl
    simp only [List.mem_cons, List.not_mem_nil, or_false] at hl
    rcases hl with rfl | rfl <;> simp [exampleAnalysis, examplePos]
  layers := le_refl _
  domain := by simp [exampleAnalysis]
  rays := by
    intro l hl
    simp only [List.mem_cons, List.not_mem_nil, or_false] at hl
    rcases hl with rfl | rfl
    · exact ⟨by simp [exampleAnalysis, examplePos], by simp [exampleAnalysis], by simp [exampleAnalysis, examplePos],
        by simp [exampleAnalysis]⟩
    · exact ⟨by simp [exampleAnalysis, examplePos], by simp [exampleAnalysis], by simp [exampleAnalysis, examplePos],
        by simp [exampleAnalysis]⟩

/-- Smoke that takes half of the light per metre, in the second photo. -/
noncomputable def halfSmoke (i : ℕ) : Fin 3 → ℝ := if i = 2 then fun _ => Real.log 2 else fun _ => 0

/-- Photos of two LEDs at (1, 1) and (1, 3). -/
def twoLedPhoto (i : ℕ) : Image ℚ := ⟨2, 4, fun r c =>
  if r = 1 ∧ c = 1 then (if i = 2 then 500 else 1000) else if r = 1 ∧ c = 3 then (if i = 2 then 125 else 1000) else 0⟩

theorem twoLed_light (i : ℕ) (l : ℕ) (hl : l ∈ [0, 1]) : lightOf (twoLedPhoto i) [(1, 1), (1, 3)] 1 l =
    if i = 2 then (if l = 0 then 500 else 125) else 1000 := by
  simp only [List.mem_cons, List.not_mem_nil, or_false] at hl
  by_cases hi : i = 2
  · subst hi
    rcases hl with rfl | rfl <;> decide +kernel
  · have : twoLedPhoto i = twoLedPhoto 1 := by simp [twoLedPhoto, hi]
    rw [this, if_neg hi]
    rcases hl with rfl | rfl <;> decide +kernel

theorem twoLed_noisy (γ : ℝ) (hγ : 0 ≤ γ) : NoisyLight exampleAnalysis [0, 1] examplePos 2
    (fun i l => (lightOf (twoLedPhoto i) [(1, 1), (1, 3)] 1 l : ℝ)) γ (fun _ => 1000) halfSmoke where
  emits := by intro l _; norm_num
  light := by
    intro i h1 h2 l hl
    have he : ((lightOf (twoLedPhoto i) [(1, 1), (1, 3)] 1 l : ℚ) : ℝ) =
        1000 * Real.exp (-lineDepth (0, 0, 0) (examplePos l) 0 3 (halfSmoke i)) := by
      rw [twoLed_light i l hl]
      have hlog : Real.exp (-Real.log 2) = 1 / 2 := by rw [Real.exp_neg, Real.exp_log (by norm_num)]; norm_num
      simp only [List.mem_cons, List.not_mem_nil, or_false] at hl
      by_cases hi : i = 2
      · subst hi
        rcases hl with rfl | rfl
        · rw [example_depth0]
          simp only [halfSmoke, if_true, hlog]
          norm_num
        · rw [example_depth1]
          simp only [halfSmoke, if_true]
          rw [show -(Real.log 2 + Real.log 2 + Real.log 2) = -Real.log 2 + -Real.log 2 + -Real.log 2 by ring, Real.exp_add, Real.exp_add, hlog]
          norm_num
      · rw [if_neg hi]
        have : halfSmoke i = fun _ => 0 := by simp [halfSmoke, hi]
        rw [this, lineDepth_zero]
        norm_num
    show Within γ _ (1000 * Real.exp (-lineDepth (0, 0, 0) (examplePos l) 0 3 (halfSmoke i)))
    rw [← he]
    have h0 : (0 : ℝ) ≤ (lightOf (twoLedPhoto i) [(1, 1), (1, 3)] 1 l : ℚ) := by
      rw [twoLed_light i l hl]
      split
      · split <;> norm_num
      · norm_num
    constructor
    · exact mul_le_of_le_one_right h0 (Real.exp_le_one_iff.2 (by linarith))
    · exact le_mul_of_one_le_right h0 (Real.one_le_exp hγ)
  clear := by
    intro i h1 h2 hs
    simp only [exampleAnalysis, RefChoice.selects, decide_eq_true_eq] at hs
    have : i = 1 := by omega
    subst this
    rfl
  reference := ⟨1, le_refl _, by norm_num, by simp [exampleAnalysis, RefChoice.selects]⟩
  nonneg := by
    intro i _ _ k
    unfold halfSmoke
    split
    · exact (Real.log_pos (by norm_num)).le
    · exact le_refl _
  thin := by
    intro i _ _ l hl
    have h2 : Real.log 2 ≤ 1 := by
      rw [Real.log_le_iff_le_exp (by norm_num)]
      linarith [Real.add_one_le_exp (1 : ℝ)]
    have hk : ∀ k, halfSmoke i k ≤ 1 := by
      intro k
      unfold halfSmoke
      split
      · exact h2
      · norm_num
    simp only [List.mem_cons, List.not_mem_nil, or_false] at hl
    rcases hl with rfl | rfl
    · show lineDepth (0, 0, 0) (examplePos 0) 0 3 (halfSmoke i) ≤ 23
      rw [example_depth0]
      linarith [hk 0]
    · show lineDepth (0, 0, 0) (examplePos 1) 0 3 (halfSmoke i) ≤ 23
      rw [example_depth1]
      linarith [hk 0, hk 1, hk 2]

/-- The coefficients of the two photos, written to text files and read again: the optical depths are right up to the rounding. -/
example : ∃ f, textFrame stripDir 0 (fun i => (step3Text (infoFile stripInfos) "exp".toList 0 [(1, 1), (1, 3)] 1 0 [[1, 0]] (twoLedPhoto i)
      none (natStr i)).toOption) = .ok f ∧
    ∀ r, exampleAnalysis.ResultOf (exampleAnalysis.inputOf (frameData f "sum_col_val" 0)) r →
      ∃ found : ℕ → Fin 3 → ℝ, r = .ok [found 1, found 2] ∧
        (found 2 0 - Real.log 2) ^ 2 + (found 2 0 + found 2 1 + found 2 2 - 3 * Real.log 2) ^ 2 ≤ 2 * (2 / 19999) ^ 2 := by
  have hgi : GoodInfos stripInfos := by
    refine ⟨?_, by unfold CsvSafe; decide, by decide⟩
    intro k hk
    match k, hk with
    | 0, _ => rfl
    | 1, _ => rfl
  have hgp : ∀ i, GoodPhoto (twoLedPhoto i) [(1, 1), (1, 3)] 1 0 [[1, 0]] := by
    intro i
    refine ⟨by decide, ?_, ?_⟩
    · intro l hl
      have : l = 1 ∨ l = 0 := by simpa [ledsOf] using hl
      rcases this with rfl | rfl
      · exact ⟨1, 3, by decide, by decide, by decide, by simp [twoLedPhoto], by simp [twoLedPhoto]⟩
      · exact ⟨1, 1, by decide, by decide, by decide, by simp [twoLedPhoto], by simp [twoLedPhoto]⟩
    · intro r c _ _
      simp only [twoLedPhoto]
      split
      · split
        · exact ⟨500, by norm_num⟩
        · exact ⟨1000, by norm_num⟩
      · split
        · split
          · exact ⟨125, by norm_num⟩
          · exact ⟨1000, by norm_num⟩
        · exact ⟨0, by norm_num⟩
  obtain ⟨f, hf, h⟩ := C112_photos_to_coefficients stripDir 0 2 rfl (by norm_num) rfl stripInfos hgi (by decide) "exp".toList (by decide +kernel)
    [(1, 1), (1, 3)] 1 [[1, 0]] (by decide) (by decide) twoLedPhoto hgp _ (fun i _ _ => rfl) none rfl (by simp) (by simp)
    exampleAnalysis [0, 1] examplePos exampleSeen (by simp [exampleAnalysis]) [1, 0] rfl (by intro l; simp [or_comm]) 0
    (fun _ => 1000) halfSmoke (twoLed_noisy 0 (le_refl _))
  refine ⟨f, hf, ?_⟩
  intro r hr
  obtain ⟨found, e, hb⟩ : ∃ found : ℕ → Fin 3 → ℝ, r = .ok ((firstImgs 2).map found) ∧
      ([0, 1].map fun l => (lineDepth (0, 0, 0) (examplePos l) 0 3 (found 2) - lineDepth (0, 0, 0) (examplePos l) 0 3 (halfSmoke 2)) ^ 2).sum +
        1 / 1000 * bending (n := 3) (fun k => found 2 k - halfSmoke 2 k) ≤
        ((2 : ℕ) : ℝ) * (2 * 0 + 2 / 19999) ^ 2 + 1 / 1000 * bending (halfSmoke 2) := by
    obtain ⟨found, e, hb⟩ := h r hr
    exact ⟨found, e, (hb 2 (by norm_num) (le_refl _)).2⟩
  refine ⟨found, by rw [e]; rfl, ?_⟩
  have hsm : halfSmoke 2 = fun _ => Real.log 2 := by simp [halfSmoke]
  have hbend : bending (n := 3) (fun _ => Real.log 2) = 0 := (bending_eq_zero _).2 ⟨Real.log 2, 0, fun _ => by simp⟩
  have hnn := bending_nonneg fun k => found 2 k - halfSmoke 2 k
  simp only [List.map_cons, List.map_nil, List.sum_cons, List.sum_nil, example_depth0, example_depth1] at hb
  rw [hsm] at hb hnn
  rw [hbend] at hb
  rw [show 3 * Real.log 2 = Real.log 2 + Real.log 2 + Real.log 2 by ring]
  norm_num at hb hnn ⊢
  linarith

/-- Such an analysis has a result. -/
example : ∃ r, exampleAnalysis.ResultOf (exampleAnalysis.inputOf (.ok (tableOf (firstImgs 2) [0, 1]
    fun i l => (lightOf (twoLedPhoto i) [(1, 1), (1, 3)] 1 l : ℝ)))) r :=
  C111_exists exampleAnalysis [0, 1] examplePos exampleSeen (by simp [exampleAnalysis])
    (fun σ τ hσ hτ h => example_determined σ τ hσ hτ (h 0 (by simp)) (h 1 (by simp))) 2 _
    ⟨1, le_refl _, by norm_num, by simp [exampleAnalysis, RefChoice.selects]⟩

end Ledsa
