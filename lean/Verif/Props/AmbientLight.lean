import Verif.Props.AveragedSmoke

/-!
# Light in the search areas that does not come from the LED (C178)

The sum over a search area, /repo/ledsa/data_extraction/step_3_functions.py 158-160, counts every light; nothing is subtracted before the
logarithm is taken. The specification is a series of images in which light is added to that of the LEDs.
-/

namespace Ledsa
open scoped BigOperators

/-- The depth that an LED of light 1 shows if the light `β` is added in reference image and image. -/
noncomputable def shownDepth (β D : ℝ) : ℝ := -Real.log ((Real.exp (-D) + β) / (1 + β))

theorem shownDepth_eq {β : ℝ} (hβ : 0 < β) (D : ℝ) : shownDepth β D = Real.log (1 + β) - Real.log (Real.exp (-D) + β) := by
  unfold shownDepth
  rw [Real.log_div (add_pos (Real.exp_pos _) hβ).ne' (by linarith)]
  ring

/-- **C178.** Added light makes smoke look thinner, never denser; only clear air shows the right depth; the depth that is shown grows with the
depth, but stays below a bound that depends on the added light alone; it is at most `β (exp D - 1) / (1 + β)` too small. -/
theorem C178_depth {β : ℝ} (hβ : 0 < β) :
    (∀ D, 0 ≤ D → 0 ≤ shownDepth β D ∧ shownDepth β D ≤ D) ∧ (∀ D, 0 ≤ D → (shownDepth β D = D ↔ D = 0)) ∧
    (∀ D D', D < D' → shownDepth β D < shownDepth β D') ∧ (∀ D, shownDepth β D < Real.log (1 + 1 / β)) ∧
    ∀ D, 0 ≤ D → D - β * (Real.exp D - 1) / (1 + β) ≤ shownDepth β D := by
  have h1 : 0 < 1 + β := by linarith
  have hp : ∀ D, 0 < Real.exp (-D) + β := fun D => add_pos (Real.exp_pos _) hβ
  have hm : ∀ D D', D < D' → shownDepth β D < shownDepth β D' := by
    intro D D' h
    rw [shownDepth_eq hβ, shownDepth_eq hβ]
    have : Real.exp (-D') + β < Real.exp (-D) + β := by
      have := Real.exp_lt_exp.2 (neg_lt_neg h)
      linarith
    linarith [Real.log_lt_log (hp D') this]
  have h0 : shownDepth β 0 = 0 := by
    unfold shownDepth
    rw [neg_zero, Real.exp_zero, div_self h1.ne', Real.log_one, neg_zero]
  -- the shown depth and the true one
  have hex : ∀ D, shownDepth β D = D - Real.log ((1 + β * Real.exp D) / (1 + β)) := by
    intro D
    have hq : 0 < 1 + β * Real.exp D := by positivity
    have e : Real.exp (-D) + β = Real.exp (-D) * (1 + β * Real.exp D) := by
      rw [mul_add, mul_one, mul_left_comm, ← Real.exp_add, neg_add_cancel, Real.exp_zero, mul_one]
    rw [shownDepth_eq hβ, e, Real.log_mul (Real.exp_pos _).ne' hq.ne', Real.log_exp, Real.log_div hq.ne' h1.ne']
    ring
  have hgt : ∀ D, 0 < D → shownDepth β D < D := by
    intro D hD
    rw [hex]
    have : 1 < (1 + β * Real.exp D) / (1 + β) := by
      rw [one_lt_div h1]
      have := Real.one_lt_exp_iff.2 hD
      nlinarith
    linarith [Real.log_pos this]
  refine ⟨?_, ?_, hm, ?_, ?_⟩
  · intro D hD
    rcases hD.eq_or_lt with rfl | hD
    · rw [h0]; exact ⟨le_rfl, le_rfl⟩
    · exact ⟨by have := hm 0 D hD; rw [h0] at this; exact this.le, (hgt D hD).le⟩
  · intro D hD
    constructor
    · intro e
      by_contra hne
      exact (hgt D (lt_of_le_of_ne hD (Ne.symm hne))).ne e
    · rintro rfl; exact h0
  · intro D
    have e : 1 + 1 / β = (1 + β) / β := by field_simp; ring
    rw [shownDepth_eq hβ, e, Real.log_div h1.ne' hβ.ne']
    have := Real.log_lt_log hβ (show β < Real.exp (-D) + β by linarith [Real.exp_pos (-D)])
    linarith
  · intro D _
    rw [hex]
    have hq : 0 < (1 + β * Real.exp D) / (1 + β) := by positivity
    have := Real.log_le_sub_one_of_pos hq
    have e : (1 + β * Real.exp D) / (1 + β) - 1 = β * (Real.exp D - 1) / (1 + β) := by field_simp; ring
    linarith

/-- **C178.** Who knows the added light can compute the depth. -/
theorem C178_recover {β : ℝ} (hβ : 0 < β) (D : ℝ) : D = -Real.log ((1 + β) * Real.exp (-shownDepth β D) - β) := by
  have h1 : 0 < 1 + β := by linarith
  have hq : 0 < (Real.exp (-D) + β) / (1 + β) := div_pos (add_pos (Real.exp_pos _) hβ) h1
  unfold shownDepth
  rw [neg_neg, Real.exp_log hq, mul_div_cancel₀ _ h1.ne', add_sub_cancel_right, Real.log_exp, neg_neg]

-- added light as strong as the LED: no smoke shows a depth of 1
example (D : ℝ) : shownDepth 1 D < 1 := by
  have := (C178_depth (β := 1) one_pos).2.2.2.1 D
  have h2 : Real.log (1 + 1 / 1) < 1 := by
    have := Real.log_two_lt_d9
    norm_num
    linarith
  linarith

/-! ### The coefficients -/

/-- Light `extra` added to the light of the LEDs. -/
noncomputable def ambientLight (a : ArrayAnalysis) (pos : ℕ → P3) (emit : ℕ → ℝ) (smoke : ℕ → Fin a.layers → ℝ) (extra : ℕ → ℕ → ℝ) (i l : ℕ) : ℝ :=
  emit l * Real.exp (-lineDepth a.cam (pos l) a.lo a.hi (smoke i)) + extra i l

/-- Added light that is at most the share `q` of the light that the LED still has. -/
theorem C178_noisy (a : ArrayAnalysis) (leds : List ℕ) (pos : ℕ → P3) (N : ℕ) (emit : ℕ → ℝ) (smoke : ℕ → Fin a.layers → ℝ)
    (extra : ℕ → ℕ → ℝ) (q : ℝ) (hlight : NoisyLight a leds pos N
      (fun i l => emit l * Real.exp (-lineDepth a.cam (pos l) a.lo a.hi (smoke i))) 0 emit smoke)
    (hx : ∀ i, 1 ≤ i → i ≤ N → ∀ l ∈ leds, 0 ≤ extra i l ∧
      extra i l ≤ q * (emit l * Real.exp (-lineDepth a.cam (pos l) a.lo a.hi (smoke i)))) :
    NoisyLight a leds pos N (ambientLight a pos emit smoke extra) q emit smoke where
  emits := hlight.emits
  light := by
    intro i h1 h2 l hl
    obtain ⟨hx0, hx1⟩ := hx i h1 h2 l hl
    have hp : 0 < emit l * Real.exp (-lineDepth a.cam (pos l) a.lo a.hi (smoke i)) := mul_pos (hlight.emits l hl) (Real.exp_pos _)
    unfold ambientLight
    set y := emit l * Real.exp (-lineDepth a.cam (pos l) a.lo a.hi (smoke i))
    have hq : 0 ≤ q := by
      by_contra hneg
      nlinarith
    have he := Real.add_one_le_exp q
    have he' : Real.exp (-q) ≤ 1 := Real.exp_le_one_iff.2 (by linarith)
    constructor
    · nlinarith
    · nlinarith
  clear := hlight.clear
  reference := hlight.reference
  nonneg := hlight.nonneg
  thin := hlight.thin

/-- With light of at least the share `β` of every LED, the same in all images, the images are those of clear air up to the factor
`1 + 1 / β`. -/
theorem C178_saturation (a : ArrayAnalysis) (leds : List ℕ) (pos : ℕ → P3) (h : SeenArray a leds pos) (N : ℕ) (emit : ℕ → ℝ)
    (smoke : ℕ → Fin a.layers → ℝ) (extra : ℕ → ℝ) (β : ℝ) (hβ : 0 < β) (hemit : ∀ l ∈ leds, 0 < emit l)
    (hextra : ∀ l ∈ leds, β * emit l ≤ extra l) (href : ∃ i, 1 ≤ i ∧ i ≤ N ∧ a.ref.selects i = true)
    (hnn : ∀ i, 1 ≤ i → i ≤ N → ∀ k, 0 ≤ smoke i k) :
    NoisyLight a leds pos N (ambientLight a pos emit smoke fun _ => extra) (Real.log (1 + 1 / β)) (fun l => emit l + extra l)
      (fun _ _ => 0) where
  emits := by
    intro l hl
    have := hemit l hl
    have := hextra l hl
    have : 0 < β * emit l := by positivity
    linarith
  light := by
    intro i h1 h2 l hl
    have he := hemit l hl
    have hx := hextra l hl
    have hD := lineDepth_nonneg a leds pos h (smoke i) (hnn i h1 h2) l hl
    have hb : 0 < 1 + 1 / β := by positivity
    rw [lineDepth_zero, neg_zero, Real.exp_zero, mul_one]
    unfold Within ambientLight
    rw [Real.exp_neg, Real.exp_log hb]
    have hy : 0 < Real.exp (-lineDepth a.cam (pos l) a.lo a.hi (smoke i)) := Real.exp_pos _
    have hy1 : Real.exp (-lineDepth a.cam (pos l) a.lo a.hi (smoke i)) ≤ 1 := Real.exp_le_one_iff.2 (by linarith)
    set y := Real.exp (-lineDepth a.cam (pos l) a.lo a.hi (smoke i))
    have hx0 : 0 < extra l := lt_of_lt_of_le (by positivity) hx
    have hi : 1 ≤ 1 + 1 / β := by
      have : 0 < 1 / β := by positivity
      linarith
    constructor
    · rw [← div_eq_mul_inv, div_le_iff₀ hb]
      have h3 : emit l ≤ extra l * (1 / β) := by
        rw [mul_one_div, le_div_iff₀ hβ]
        linarith
      have h4 : 0 < emit l * y := mul_pos he hy
      nlinarith
    · have h5 : emit l * y ≤ emit l := by nlinarith
      nlinarith
  clear := fun _ _ _ _ => rfl
  reference := href
  nonneg := fun _ _ _ _ => le_rfl
  thin := by
    intro i _ _ l _
    rw [lineDepth_zero]
    norm_num

/-- **C178.** The coefficients of a series with added light. Light of at most the share `q` of what the LEDs still show changes them by at most
a constant of the array times `q`; light of the share `β` of the LEDs bounds them: however dense the smoke is, the coefficients stay below
a bound of the array and `β`. -/
theorem C178_coefficients (a : ArrayAnalysis) (leds : List ℕ) (pos : ℕ → P3) (h : SeenArray a leds pos) (hlam : 0 < a.lam)
    (hdet : ∀ σ τ : Fin a.layers → ℝ, Affine σ → Affine τ →
      (∀ l ∈ leds, lineDepth a.cam (pos l) a.lo a.hi σ = lineDepth a.cam (pos l) a.lo a.hi τ) → σ = τ) :
    ∃ K : ℝ, 0 < K ∧ ∀ (N : ℕ) (emit : ℕ → ℝ) (smoke : ℕ → Fin a.layers → ℝ) (extra : ℕ → ℕ → ℝ) (files : ℕ → List (ℕ × ℕ × ℝ)),
      (∀ i, 1 ≤ i → i ≤ N → ((files i).map (·.1)).Nodup) →
      (∀ i, 1 ≤ i → i ≤ N → ∀ l x, (l, a.arr, x) ∈ files i ↔ l ∈ leds ∧ x = ambientLight a pos emit smoke extra i l) →
      ∀ r, a.Result files N r →
      (∀ q, NoisyLight a leds pos N (fun i l => emit l * Real.exp (-lineDepth a.cam (pos l) a.lo a.hi (smoke i))) 0 emit smoke →
        (∀ i, 1 ≤ i → i ≤ N → ∀ l ∈ leds, 0 ≤ extra i l ∧
          extra i l ≤ q * (emit l * Real.exp (-lineDepth a.cam (pos l) a.lo a.hi (smoke i)))) →
        ∃ found : ℕ → Fin a.layers → ℝ, r = .ok ((firstImgs N).map found) ∧
          ∀ i, 1 ≤ i → i ≤ N → ∑ k, (found i k - smoke i k) ^ 2 ≤ K * (leds.length * (2 * q) ^ 2 + a.lam * bending (smoke i))) ∧
      (∀ β, 0 < β → (∀ l ∈ leds, 0 < emit l) → (∀ i j, extra i = extra j) → (∀ i, ∀ l ∈ leds, β * emit l ≤ extra i l) →
        (∃ i, 1 ≤ i ∧ i ≤ N ∧ a.ref.selects i = true) → (∀ i, 1 ≤ i → i ≤ N → ∀ k, 0 ≤ smoke i k) →
        ∃ found : ℕ → Fin a.layers → ℝ, r = .ok ((firstImgs N).map found) ∧
          ∀ i, 1 ≤ i → i ≤ N → ∑ k, found i k ^ 2 ≤ K * (leds.length * (2 * Real.log (1 + 1 / β)) ^ 2)) := by
  obtain ⟨K, hK, hall⟩ := C111_coefficients a leds pos h hlam hdet
  refine ⟨K, hK, ?_⟩
  intro N emit smoke extra files hnd hm r hr
  constructor
  · intro q hq hx
    exact hall N _ _ _ _ (C178_noisy a leds pos N emit smoke extra q hq hx) files hnd hm r hr
  · intro β hβ he hsame hx href hnn
    have hs := C178_saturation a leds pos h N emit smoke (extra 0) β hβ he (hx 0) href hnn
    have e : (fun _ => extra 0) = extra := by funext i; exact hsame 0 i
    rw [e] at hs
    obtain ⟨found, e1, e2⟩ := hall N _ _ _ _ hs files hnd hm r hr
    refine ⟨found, e1, fun i h1 h2 => ?_⟩
    have := e2 i h1 h2
    have hb : bending (fun _ : Fin a.layers => (0 : ℝ)) = 0 := (bending_eq_zero _).2 ⟨0, 0, fun _ => by simp⟩
    simpa [hb] using this

/-- The example of C95 with light of a third of the LEDs added. -/
example : NoisyLight exampleAnalysis [0, 1] examplePos 2
    (ambientLight exampleAnalysis examplePos (fun _ => 3) exampleSmoke fun _ _ => 1) (Real.log (1 + 1 / (1 / 3))) (fun _ => 3 + 1) (fun _ _ => 0) := by
  refine C178_saturation _ _ _ exampleSeen 2 (fun _ => 3) exampleSmoke (fun _ => 1) (1 / 3) (by norm_num) (fun _ _ => by norm_num)
    (fun _ _ => by norm_num) ⟨1, le_refl _, by norm_num, by simp [exampleAnalysis, RefChoice.selects]⟩ ?_
  intro i _ _ k
  unfold exampleSmoke
  split
  · exact le_rfl
  · have : (0 : ℝ) ≤ ((k : ℕ) : ℝ) := Nat.cast_nonneg _
    linarith

/-! ### Refutation -/

/-- Light that is in the search areas in all images, references included, does not change the coefficients. -/
def AmbientLightIsHarmless : Prop := ∀ (m n : ℕ) (A : Fin m → Fin n → ℝ) (lam : ℝ), 3 ≤ n → (∀ i l, 0 ≤ A i l) → DeterminesAffine A → 0 < lam →
  ∀ (β : ℝ) (rel : Fin m → ℝ) (σ τ : Fin n → ℝ), 0 < β → (∀ i, 0 < rel i ∧ rel i ≤ 1) → LinearSolution A lam rel σ →
    LinearSolution A lam (fun i => (rel i + β) / (1 + β)) τ → τ = σ

/-- **C178 refuted**: smoke of 2 per metre and light as strong as the LEDs. -/
theorem C178_false : ¬ AmbientLightIsHarmless := by
  intro h
  obtain ⟨h1, h2, _⟩ := C178_depth (β := 1) one_pos
  obtain ⟨hd0, hd1⟩ := h1 2 (by norm_num)
  have hne : shownDepth 1 2 ≠ 2 := fun e => by
    have := (h2 2 (by norm_num)).1 e
    norm_num at this
  have hrel : (fun _ : Fin 3 => (Real.exp (-2) + 1) / (1 + 1)) = fun _ => Real.exp (-shownDepth 1 2) := by
    funext _
    unfold shownDepth
    rw [neg_neg, Real.exp_log (by positivity)]
  have := h 3 3 (threeRays 1) 1 le_rfl (fun i l => by unfold threeRays; split <;> norm_num) (threeRays_determines one_ne_zero) one_pos 1
    (fun _ => Real.exp (-2)) (fun _ => 2) (fun _ => shownDepth 1 2) one_pos
    (fun _ => ⟨Real.exp_pos _, Real.exp_le_one_iff.2 (by norm_num)⟩)
    ((threeRays_uniform 2 (by norm_num) (by norm_num) _).2 rfl)
    (by rw [hrel]; exact (threeRays_uniform _ hd0 (by linarith) _).2 rfl)
  exact hne (congrFun this 0)

end Ledsa
