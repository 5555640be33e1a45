import Verif.Props.Haze
import Verif.Props.DenserSmoke
import Verif.Props.AveragedSmoke
/-
C181: brightness that changes during the experiment (exposure of the camera, voltage of the LEDs, dirt on the lens). Each LED is compared with its own
mean in the reference images, /repo/ledsa/analysis/ExtinctionCoefficients.py 176-191, and nothing else is corrected.
-/
namespace Ledsa
open scoped BigOperators

/-! ### Changes that are the same in all images -/

/-- **C181 (same factor in all images).** Another brightness of each LED, the same in all images, changes no coefficient, whatever the images show. -/
theorem C181_constant (a : ArrayAnalysis) (files files' : ℕ → List (ℕ × ℕ × ℝ)) (N : ℕ) (leds : List ℕ) (v : ℕ → ℕ → ℝ) (s : ℕ → ℝ)
    (hs : ∀ l ∈ leds, s l ≠ 0) (hc : CompleteSeries a.ref a.arr files N leds v) (hc' : CompleteSeries a.ref a.arr files' N leds fun i l => s l * v i l)
    (r : Except PyErr (List (Fin a.layers → ℝ))) : a.Result files' N r ↔ a.Result files N r := by
  have hrel : relOf a.ref N leds (fun i l => s l * v i l) = relOf a.ref N leds v := by
    funext i
    unfold relOf
    refine List.map_congr_left fun l hl => ?_
    have hm : ∀ js : List ℕ, meanOver js (fun i l => s l * v i l) l = s l * meanOver js v l := by
      intro js
      unfold meanOver
      rw [List.sum_map_mul_left, mul_div_assoc]
    rw [hm, mul_div_mul_left _ _ (hs l hl)]
  unfold ArrayAnalysis.Result
  cases hp : ledPositions a.coordinates a.ids with
  | error e => rw [positions_missing a files N e hp, positions_missing a files' N e hp]
  | ok pos => rw [hc.input pos hp, hc'.input pos hp, hrel]

/-! ### Changes from image to image -/

/-- A series of images through smoke. In image `i` all LEDs are brighter by the factor `gain i` than in the reference images, which are taken
without smoke. -/
structure DriftExperiment (a : ArrayAnalysis) (leds : List ℕ) (pos : ℕ → P3) (files : ℕ → List (ℕ × ℕ × ℝ)) (N : ℕ)
    (emit : ℕ → ℝ) (smoke : ℕ → Fin a.layers → ℝ) (gain : ℕ → ℝ) : Prop where
  seen : SeenArray a leds pos
  emits : ∀ l ∈ leds, 0 < emit l
  nodup : ∀ i, 1 ≤ i → i ≤ N → ((files i).map (·.1)).Nodup
  measured : ∀ i, 1 ≤ i → i ≤ N → ∀ l x, (l, a.arr, x) ∈ files i ↔
    l ∈ leds ∧ x = gain i * (emit l * Real.exp (-lineDepth a.cam (pos l) a.lo a.hi (smoke i)))
  clear : ∀ i, 1 ≤ i → i ≤ N → a.ref.selects i = true → smoke i = (fun _ => 0) ∧ gain i = 1
  reference : ∃ i, 1 ≤ i ∧ i ≤ N ∧ a.ref.selects i = true
  positive : ∀ i, 1 ≤ i → i ≤ N → 0 < gain i

/-- **C181 (exactly).** If a profile `τ` weakens all LEDs by the same depth 1, a darker image cannot be told from more smoke with this profile,
nor a brighter one from less: the linear analysis finds the smoke less `log gain` times `τ`, no smoke if that is nowhere positive. -/
theorem C181_exact (a : ArrayAnalysis) (leds : List ℕ) (pos : ℕ → P3) (files : ℕ → List (ℕ × ℕ × ℝ)) (N : ℕ)
    (emit : ℕ → ℝ) (smoke : ℕ → Fin a.layers → ℝ) (gain : ℕ → ℝ) (h : DriftExperiment a leds pos files N emit smoke gain) (hlam : 0 < a.lam)
    (hdet : ∀ σ τ : Fin a.layers → ℝ, Affine σ → Affine τ →
      (∀ l ∈ leds, lineDepth a.cam (pos l) a.lo a.hi σ = lineDepth a.cam (pos l) a.lo a.hi τ) → σ = τ)
    (τ : Fin a.layers → ℝ) (hτ : ∀ l ∈ leds, lineDepth a.cam (pos l) a.lo a.hi τ = 1)
    (himg : ∀ i, 1 ≤ i → i ≤ N → (∀ k, smoke i k ≤ Real.log (gain i) * τ k) ∨
      ((∀ k, Real.log (gain i) * τ k ≤ smoke i k) ∧ (Affine fun k => smoke i k - Real.log (gain i) * τ k) ∧
        ∀ l ∈ leds, lineDepth a.cam (pos l) a.lo a.hi (smoke i) ≤ Real.log (gain i) + 23))
    (r : Except PyErr (List (Fin a.layers → ℝ))) :
    a.Result files N r ↔ r = .ok ((firstImgs N).map fun i k => max (smoke i k - Real.log (gain i) * τ k) 0) := by
  have hD : ∀ i, ∀ l ∈ leds, lineDepth a.cam (pos l) a.lo a.hi (fun k => smoke i k - Real.log (gain i) * τ k) =
      lineDepth a.cam (pos l) a.lo a.hi (smoke i) - Real.log (gain i) := by
    intro i l hl
    rw [lineDepth_sub, lineDepth_mul, hτ l hl, mul_one]
  have hz : ∀ l, lineDepth a.cam (pos l) a.lo a.hi (fun _ : Fin a.layers => (0 : ℝ)) = 0 := fun l => lineDepth_zero ..
  have hh : HazyExperiment a leds pos files N emit (fun i k => smoke i k - Real.log (gain i) * τ k) (fun _ => 0) :=
    { ids := h.seen.ids
      ascending := h.seen.ascending
      nonempty := h.seen.nonempty
      positions := h.seen.positions
      layers := le_trans (by norm_num) h.seen.layers
      domain := h.seen.domain
      rays := h.seen.rays
      emits := h.emits
      nodup := h.nodup
      measured := by
        intro i h1 h2 l x
        rw [h.measured i h1 h2]
        refine and_congr_right fun hl => ?_
        rw [hD i l hl, neg_sub, Real.exp_sub, Real.exp_log (h.positive i h1 h2), Real.exp_neg]
        have e : gain i * (emit l * (Real.exp (lineDepth a.cam (pos l) a.lo a.hi (smoke i)))⁻¹) =
            emit l * (gain i / Real.exp (lineDepth a.cam (pos l) a.lo a.hi (smoke i))) := by ring
        rw [e]
      hazy := by
        intro i h1 h2 hr
        obtain ⟨e1, e2⟩ := h.clear i h1 h2 hr
        funext k
        rw [e1, e2]
        simp
      reference := h.reference }
  have := C175_excess a leds pos files N emit _ _ hh h.seen.layers hlam ?_ hdet r
  · simpa only [sub_zero] using this
  · intro i h1 h2
    rcases himg i h1 h2 with h | ⟨h3, h4, h5⟩
    · exact Or.inl fun k => by linarith [h k]
    · refine Or.inr ⟨fun k => by linarith [h3 k], by simpa only [sub_zero] using h4, ?_⟩
      intro l hl
      rw [hD i l hl, hz]
      linarith [h5 l hl]

/-- **C181 (bound).** However the brightness changes from image to image and from LED to LED: if it stays between `exp (-γ)` and `exp γ` times the true one,
the coefficients are at most a constant of the array times `γ` away. -/
theorem C181_bound (a : ArrayAnalysis) (leds : List ℕ) (pos : ℕ → P3) (h : SeenArray a leds pos) (hlam : 0 < a.lam)
    (hdet : ∀ σ τ : Fin a.layers → ℝ, Affine σ → Affine τ →
      (∀ l ∈ leds, lineDepth a.cam (pos l) a.lo a.hi σ = lineDepth a.cam (pos l) a.lo a.hi τ) → σ = τ) :
    ∃ K : ℝ, 0 < K ∧ ∀ (N : ℕ) (emit : ℕ → ℝ) (smoke : ℕ → Fin a.layers → ℝ) (gain : ℕ → ℕ → ℝ) (γ : ℝ),
      NoisyLight a leds pos N (fun i l => emit l * Real.exp (-lineDepth a.cam (pos l) a.lo a.hi (smoke i))) 0 emit smoke →
      (∀ i, 1 ≤ i → i ≤ N → ∀ l ∈ leds, Real.exp (-γ) ≤ gain i l ∧ gain i l ≤ Real.exp γ) →
      ∀ files : ℕ → List (ℕ × ℕ × ℝ), (∀ i, 1 ≤ i → i ≤ N → ((files i).map (·.1)).Nodup) →
      (∀ i, 1 ≤ i → i ≤ N → ∀ l x, (l, a.arr, x) ∈ files i ↔ l ∈ leds ∧
        x = gain i l * (emit l * Real.exp (-lineDepth a.cam (pos l) a.lo a.hi (smoke i)))) →
      ∀ r, a.Result files N r → ∃ found : ℕ → Fin a.layers → ℝ, r = .ok ((firstImgs N).map found) ∧
        ∀ i, 1 ≤ i → i ≤ N → ∑ k, (found i k - smoke i k) ^ 2 ≤ K * (leds.length * (2 * γ) ^ 2 + a.lam * bending (smoke i)) := by
  obtain ⟨K, hK, hall⟩ := C111_coefficients a leds pos h hlam hdet
  refine ⟨K, hK, ?_⟩
  intro N emit smoke gain γ hq hg files hnd hm r hr
  refine hall N (fun i l => gain i l * (emit l * Real.exp (-lineDepth a.cam (pos l) a.lo a.hi (smoke i)))) γ emit smoke ?_ files hnd hm r hr
  exact
    { emits := hq.emits
      light := by
        intro i h1 h2 l hl
        obtain ⟨g1, g2⟩ := hg i h1 h2 l hl
        have hp0 : 0 < emit l * Real.exp (-lineDepth a.cam (pos l) a.lo a.hi (smoke i)) := mul_pos (hq.emits l hl) (Real.exp_pos _)
        unfold Within
        rw [mul_comm _ (Real.exp (-γ)), mul_comm _ (Real.exp γ)]
        exact ⟨mul_le_mul_of_nonneg_right g1 hp0.le, mul_le_mul_of_nonneg_right g2 hp0.le⟩
      clear := hq.clear
      reference := hq.reference
      nonneg := hq.nonneg
      thin := hq.thin }

theorem opticalDepth_pos {x : ℝ} (h : x < 1) : 0 < opticalDepth x := by
  have h0 : 0 < opticalDepth (max x (1 / 2)) := by
    rw [opticalDepth_clamp (by positivity)]
    have : max x (1 / 2) < 1 := max_lt h (by norm_num)
    have hl : Real.log (max x (1 / 2)) < 0 := Real.log_neg (by positivity) this
    have h10 : 0 < Real.log 10 := Real.log_pos (by norm_num)
    rw [lt_min_iff, lt_max_iff]
    exact ⟨Or.inl (by linarith), by linarith⟩
  exact lt_of_lt_of_le h0 (opticalDepth_anti (le_max_left _ _))

/-- **C181 (darker images show smoke).** If one LED is darker than in the reference images, the linear analysis reports smoke, also in clear air and
whatever the other LEDs show. -/
theorem C181_darker {m n : ℕ} (A : Fin m → Fin n → ℝ) (hA : ∀ i l, 0 ≤ A i l) (lam : ℝ) (rel : Fin m → ℝ)
    (hray : ∃ i l, 0 < A i l ∧ rel i < 1) (x : Fin n → ℝ) (h : LinearSolution A lam rel x) : ∃ l, 0 < x l := by
  by_contra hno
  push Not at hno
  have hm := (minimiser_iff _ _ _).1 h.toIsMinimiser
  have hx : x = fun _ => 0 := funext fun l => le_antisymm (hno l) (hm l).1
  obtain ⟨i0, l0, hpos, hrel⟩ := hray
  have hs := (hm l0).2.1
  unfold slope at hs
  rw [hx, Fintype.sum_sum_type] at hs
  simp only [mul_zero, Finset.sum_const_zero, zero_sub, augMatrix, augRhs, neg_zero, add_zero, mul_neg, Finset.sum_neg_distrib] at hs
  have : 0 < ∑ i, A i l0 * opticalDepth (rel i) :=
    Finset.sum_pos' (fun i _ => mul_nonneg (hA i l0) (opticalDepth_nonneg _)) ⟨i0, Finset.mem_univ _, mul_pos hpos (opticalDepth_pos hrel)⟩
  linarith

/-! ### Refutation and example -/

/-- A change of the brightness of all LEDs does not change the coefficients. -/
def BrightnessDriftIsHarmless : Prop := ∀ (m n : ℕ) (A : Fin m → Fin n → ℝ) (lam : ℝ), 3 ≤ n → (∀ i l, 0 ≤ A i l) → DeterminesAffine A → 0 < lam →
  ∀ (g : ℝ) (rel : Fin m → ℝ) (σ τ : Fin n → ℝ), 0 < g → (∀ i, 0 < rel i ∧ rel i ≤ 1) → LinearSolution A lam rel σ →
    LinearSolution A lam (fun i => g * rel i) τ → τ = σ

/-- **C181 refuted**: clear air and images darker by the factor `exp (-1)` show smoke of 1 per metre. -/
theorem C181_false : ¬ BrightnessDriftIsHarmless := by
  intro h
  have := h 3 3 (threeRays 1) 1 le_rfl (fun i l => by unfold threeRays; split <;> norm_num) (threeRays_determines one_ne_zero) one_pos (Real.exp (-1))
    (fun _ => Real.exp (-0)) (fun _ => 0) (fun _ => 1) (Real.exp_pos _) (fun _ => ⟨Real.exp_pos _, Real.exp_le_one_iff.2 (by norm_num)⟩)
    ((threeRays_uniform 0 le_rfl (by norm_num) _).2 rfl)
    (by
      have e : (fun _ : Fin 3 => Real.exp (-1) * Real.exp (-0)) = fun _ => Real.exp (-1) := by funext _; simp
      rw [e]
      exact (threeRays_uniform 1 (by norm_num) (by norm_num) _).2 rfl)
  have := congrFun this 0
  norm_num at this

/-- Profile of the example that weakens both LEDs by the depth 1. -/
noncomputable def equalDepth : Fin 3 → ℝ := fun k => 1 + (-2 / 3) * ((k : ℕ) : ℝ)

theorem equalDepth_one : ∀ l ∈ [0, 1], lineDepth (0, 0, 0) (examplePos l) 0 3 equalDepth = 1 := by
  intro l hl
  simp only [List.mem_cons, List.not_mem_nil, or_false] at hl
  rcases hl with rfl | rfl
  · rw [example_depth0]
    simp [equalDepth]
  · rw [example_depth1]
    simp only [equalDepth, Fin.isValue, Fin.val_zero, Fin.val_one, Fin.val_two]
    norm_num

/-- Brightness of the images of the example: the second image is darker by the factor `exp (-1)`. -/
noncomputable def exampleGain (i : ℕ) : ℝ := if i = 1 then 1 else Real.exp (-1)

/-- Smoke of the example: none in the first image, then 0, 5/3 and 10/3 per metre. -/
noncomputable def driftSmoke (i : ℕ) : Fin 3 → ℝ := fun k => exampleSmoke i k + Real.log (exampleGain i) * equalDepth k

theorem exampleGain_pos (i : ℕ) : 0 < exampleGain i := by
  unfold exampleGain
  split <;> positivity

theorem drift_light (i l : ℕ) (hl : l ∈ [0, 1]) : exampleGain i * Real.exp (-lineDepth (0, 0, 0) (examplePos l) 0 3 (driftSmoke i)) =
    Real.exp (-lineDepth (0, 0, 0) (examplePos l) 0 3 (exampleSmoke i)) := by
  have e : driftSmoke i = fun k => exampleSmoke i k - (-Real.log (exampleGain i)) * equalDepth k := by
    funext k
    unfold driftSmoke
    ring
  rw [e, lineDepth_sub, lineDepth_mul, equalDepth_one l hl]
  have : -(lineDepth (0, 0, 0) (examplePos l) 0 3 (exampleSmoke i) - -Real.log (exampleGain i) * 1) =
      -lineDepth (0, 0, 0) (examplePos l) 0 3 (exampleSmoke i) - Real.log (exampleGain i) := by ring
  rw [this, Real.exp_sub, Real.exp_log (exampleGain_pos i)]
  have := (exampleGain_pos i).ne'
  field_simp

theorem drift_example : DriftExperiment exampleAnalysis [0, 1] examplePos exampleFiles 2 (fun l => if l = 0 then 50 else 70) driftSmoke exampleGain where
  seen := exampleSeen
  emits := by
    intro l _
    split <;> norm_num
  nodup := by
    intro i _ _
    simp [exampleFiles]
  measured := by
    intro i _ _ l x
    show (l, 0, x) ∈ exampleFiles i ↔ l ∈ [0, 1] ∧ x = exampleGain i * ((if l = 0 then 50 else 70) *
      Real.exp (-lineDepth (0, 0, 0) (examplePos l) 0 3 (driftSmoke i)))
    have h0 := drift_light i 0 (by simp)
    have h1 := drift_light i 1 (by simp)
    unfold exampleFiles
    rw [← h0, ← h1]
    simp only [List.mem_cons, Prod.mk.injEq, List.not_mem_nil, or_false]
    constructor
    · rintro (⟨rfl, _, rfl⟩ | ⟨_, h, _⟩ | ⟨rfl, _, rfl⟩)
      · exact ⟨.inr rfl, by norm_num; ring⟩
      · cases h
      · exact ⟨.inl rfl, by norm_num; ring⟩
    · rintro ⟨rfl | rfl, rfl⟩
      · exact .inr (.inr ⟨rfl, trivial, by norm_num; ring⟩)
      · exact .inl ⟨rfl, trivial, by norm_num; ring⟩
  clear := by
    intro i h1 _ h2
    simp only [exampleAnalysis, RefChoice.selects, decide_eq_true_eq] at h2
    have : i = 1 := by omega
    subst this
    refine ⟨?_, by simp [exampleGain]⟩
    funext j
    show exampleSmoke 1 j + Real.log (exampleGain 1) * equalDepth j = 0
    simp [exampleSmoke, exampleGain]
  reference := ⟨1, le_refl _, by norm_num, by simp [exampleAnalysis, RefChoice.selects]⟩
  positive := fun i _ _ => exampleGain_pos i

theorem driftSmoke_two : driftSmoke 2 = fun k : Fin 3 => 5 / 3 * ((k : ℕ) : ℝ) := by
  funext k
  unfold driftSmoke exampleSmoke exampleGain equalDepth
  norm_num
  ring

/-- A case: smoke of 0, 5/3 and 10/3 per metre in an image darker by the factor `exp (-1)` is found as 1, 2 and 3 per metre. The error is not the
same in all layers: 1, 1/3 and -1/3 per metre. -/
example : exampleAnalysis.Result exampleFiles 2 (.ok [fun _ => 0, fun k : Fin 3 => 1 + 1 * ((k : ℕ) : ℝ)]) ∧
    driftSmoke 2 = fun k : Fin 3 => 5 / 3 * ((k : ℕ) : ℝ) := by
  refine ⟨?_, driftSmoke_two⟩
  have hd : ∀ i, (fun k : Fin 3 => driftSmoke i k - Real.log (exampleGain i) * equalDepth k) = exampleSmoke i := by
    intro i
    funext k
    unfold driftSmoke
    ring
  have h0 : ∀ i k, 0 ≤ exampleSmoke i k := by
    intro i k
    unfold exampleSmoke
    split
    · norm_num
    · positivity
  refine (C181_exact exampleAnalysis [0, 1] examplePos exampleFiles 2 _ driftSmoke exampleGain drift_example (by simp [exampleAnalysis])
    (fun σ τ hσ hτ h => example_determined σ τ hσ hτ (h 0 (by simp)) (h 1 (by simp))) equalDepth equalDepth_one ?_ _).2 ?_
  · intro i h1 h2
    right
    refine ⟨?_, ?_, ?_⟩
    · intro k
      have := congrFun (hd i) k
      have h3 := h0 i k
      show Real.log (exampleGain i) * equalDepth k ≤ driftSmoke i k
      linarith
    · have := exampleSmoke_affine i
      rw [← hd i] at this
      exact this
    · intro l hl
      show lineDepth (0, 0, 0) (examplePos l) 0 3 (driftSmoke i) ≤ Real.log (exampleGain i) + 23
      have : i = 1 ∨ i = 2 := by omega
      simp only [List.mem_cons, List.not_mem_nil, or_false] at hl
      rcases this with rfl | rfl <;> rcases hl with rfl | rfl
      · rw [example_depth0]
        simp [driftSmoke, exampleSmoke, exampleGain]
      · rw [example_depth1]
        simp [driftSmoke, exampleSmoke, exampleGain]
      · rw [example_depth0, driftSmoke_two]
        simp [exampleGain]
      · rw [example_depth1, driftSmoke_two]
        simp [exampleGain]
        norm_num
  · congr 1
    have : firstImgs 2 = [1, 2] := rfl
    rw [this]
    have hm : ∀ i, (fun k : Fin 3 => max (driftSmoke i k - Real.log (exampleGain i) * equalDepth k) 0) = exampleSmoke i := by
      intro i
      funext k
      have := congrFun (hd i) k
      rw [this, max_eq_left (h0 i k)]
    simp only [List.map_cons, List.map_nil]
    refine congrArg₂ List.cons ?_ (congrArg₂ List.cons ?_ rfl)
    · refine Eq.trans ?_ (hm 1).symm
      simp only [exampleSmoke, if_true]
      rfl
    · refine Eq.trans ?_ (hm 2).symm
      simp only [exampleSmoke, OfNat.ofNat_ne_one, if_false]
      rfl

end Ledsa
