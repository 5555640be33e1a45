import Verif.Props.NonlinearRun
import Verif.Props.WholePixels
import Verif.Props.CrossTalk
import Verif.Props.CameraPosition
import Verif.Props.AmbientLight
import Verif.Props.BrightnessDrift

/-!
# Errors of the light with the nonlinear solver (C178, C181, C184, C185, C187)

The bounds of C178, C181, C184, C185 and C187 for the linear solver, here for the nonlinear one. `s` and `c` are the constants of C146: at least
`2 s` of the light arrives, and the array determines the smoke with the constant `c`.
-/

namespace Ledsa

/-- What C146 needs of the array, the options and the smoke for light that is right up to `exp γ`. -/
structure NonlinearFit (a : ArrayAnalysis) (o : NonlinearOptions) (leds : List ℕ) (pos : ℕ → P3) (N : ℕ) (smoke : ℕ → Fin a.layers → ℝ)
    (s c γ : ℝ) : Prop where
  seen : SeenArray a leds pos
  curv : 0 < o.curv
  part : 0 < s
  conditioned : CurveConditioned leds a.cam pos a.lo a.hi a.layers o.curv s c
  pref : 2 * |o.pref| ≤ c * a.layers
  bounded : ∀ i, 1 ≤ i → i ≤ N → ∀ k, smoke i k ≤ 10
  bright : ∀ i, 1 ≤ i → i ≤ N → ∀ l ∈ leds, 2 * s ≤ Real.exp (-lineDepth a.cam (pos l) a.lo a.hi (smoke i))
  faint : ∀ i, 1 ≤ i → i ≤ N → Faint leds.length o s γ (smoke i)

/-- All results are near the smoke. -/
def NearSmoke (a : ArrayAnalysis) (o : NonlinearOptions) (leds : List ℕ) (N : ℕ) (smoke : ℕ → Fin a.layers → ℝ) (c γ : ℝ)
    (r : Except PyErr (List (Fin a.layers → ℝ))) : Prop :=
  ∃ found : ℕ → Fin a.layers → ℝ, r = .ok ((firstImgs N).map found) ∧ ∀ i, 1 ≤ i → i ≤ N → (∀ k, 0 ≤ found i k ∧ found i k ≤ 10) ∧
    ∑ k, |found i k - smoke i k| ≤
      4 / c * ((Real.exp (2 * γ) - 1) / Real.sqrt leds.length + curvature leds.length o.curv (smoke i)) + 2 / c * o.tol

theorem NonlinearFit.near {a : ArrayAnalysis} {o : NonlinearOptions} {leds : List ℕ} {pos : ℕ → P3} {N : ℕ} {smoke : ℕ → Fin a.layers → ℝ}
    {s c γ : ℝ} (h : NonlinearFit a o leds pos N smoke s c γ) {v : ℕ → ℕ → ℝ} {emit : ℕ → ℝ} (hv : NoisyLight a leds pos N v γ emit smoke)
    (r : Except PyErr (List (Fin a.layers → ℝ))) (hr : a.NonlinearResultOf o (a.inputOf (.ok (tableOf (firstImgs N) leds v))) r) :
    NearSmoke a o leds N smoke c γ r :=
  C146_array a o leds pos h.seen h.curv s c h.part h.conditioned h.pref N v γ emit smoke hv h.bounded h.bright h.faint r hr

/-- **C184, nonlinear solver**: light of neighbouring LEDs with the share `q`, whose depths differ by at most `δ`. -/
theorem C184_nonlinear {a : ArrayAnalysis} {o : NonlinearOptions} {leds : List ℕ} {pos : ℕ → P3} {N : ℕ} {emit : ℕ → ℝ}
    {smoke : ℕ → Fin a.layers → ℝ} {share : ℕ → ℕ → ℝ} {q δ s c : ℝ} (hc : CrossTalk a leds pos N emit smoke share q δ)
    (h : NonlinearFit a o leds pos N smoke s c (q * (Real.exp δ - 1))) (r : Except PyErr (List (Fin a.layers → ℝ)))
    (hr : a.NonlinearResultOf o (a.inputOf (.ok (tableOf (firstImgs N) leds (areaLight a leds pos emit smoke share)))) r) :
    NearSmoke a o leds N smoke c (q * (Real.exp δ - 1)) r :=
  h.near (C184_noisy hc) r hr

/-- **C185, nonlinear solver** (partial as C185_coefficients_partial): a camera position that is off within the layer of the camera. -/
theorem C185_nonlinear_partial {camera : P3} {a : ArrayAnalysis} {o : NonlinearOptions} {leds : List ℕ} {pos : ℕ → P3} {N : ℕ}
    {v : ℕ → ℕ → ℝ} {emit : ℕ → ℝ} {smoke : ℕ → Fin a.layers → ℝ} {S L δ s c : ℝ} (hc : SeenFrom camera a leds pos N v emit smoke)
    (hδ : 0 < δ) (hcam : CameraClear a.lo a.hi a.layers δ a.cam.2.2) (hnear : |camera.2.2 - a.cam.2.2| < δ)
    (hS : ∀ i, 1 ≤ i → i ≤ N → ∀ k, smoke i k ≤ S) (hL : ∀ l ∈ leds, euclid a.cam (pos l) ≤ L)
    (h : NonlinearFit a o leds pos N smoke s c (S * euclid a.cam camera * (1 + L / δ))) (r : Except PyErr (List (Fin a.layers → ℝ)))
    (hr : a.NonlinearResultOf o (a.inputOf (.ok (tableOf (firstImgs N) leds v))) r) :
    NearSmoke a o leds N smoke c (S * euclid a.cam camera * (1 + L / δ)) r :=
  h.near (C185_noisy hc h.seen.domain hδ hcam hnear hS hL) r hr

/-- **C187, nonlinear solver** (partial as C187_coefficients_partial): pixels that are rounded or cut off to whole numbers. -/
theorem C187_nonlinear_partial {a : ArrayAnalysis} {o : NonlinearOptions} {leds : List ℕ} {pos : ℕ → P3} {N : ℕ} {conv : ℝ → ℝ} {e : ℝ}
    {pix : ℕ → Finset (ℕ × ℕ)} {spot : ℕ → ℕ × ℕ → ℝ} {smoke : ℕ → Fin a.layers → ℝ} {T ρ s c : ℝ}
    (hc : ConvertedPhotos a leds pos N conv e pix spot smoke T ρ) (h : NonlinearFit a o leds pos N smoke s c (-Real.log (1 - ρ)))
    (r : Except PyErr (List (Fin a.layers → ℝ)))
    (hr : a.NonlinearResultOf o (a.inputOf (.ok (tableOf (firstImgs N) leds (convertedSum a pos conv pix spot smoke)))) r) :
    NearSmoke a o leds N smoke c (-Real.log (1 - ρ)) r :=
  h.near (C187_noisy hc) r hr

/-- **C178, nonlinear solver**: light from elsewhere that is at most the share `q` of the light that the LEDs still have. -/
theorem C178_nonlinear {a : ArrayAnalysis} {o : NonlinearOptions} {leds : List ℕ} {pos : ℕ → P3} {N : ℕ} {emit : ℕ → ℝ}
    {smoke : ℕ → Fin a.layers → ℝ} {extra : ℕ → ℕ → ℝ} {q s c : ℝ}
    (hlight : NoisyLight a leds pos N (fun i l => emit l * Real.exp (-lineDepth a.cam (pos l) a.lo a.hi (smoke i))) 0 emit smoke)
    (hx : ∀ i, 1 ≤ i → i ≤ N → ∀ l ∈ leds, 0 ≤ extra i l ∧
      extra i l ≤ q * (emit l * Real.exp (-lineDepth a.cam (pos l) a.lo a.hi (smoke i))))
    (h : NonlinearFit a o leds pos N smoke s c q) (r : Except PyErr (List (Fin a.layers → ℝ)))
    (hr : a.NonlinearResultOf o (a.inputOf (.ok (tableOf (firstImgs N) leds (ambientLight a pos emit smoke extra)))) r) :
    NearSmoke a o leds N smoke c q r :=
  h.near (C178_noisy a leds pos N emit smoke extra q hlight hx) r hr

/-- **C181, nonlinear solver**: brightness that changes from image to image and from LED to LED between `exp (-γ)` and `exp γ` times the
true one. -/
theorem C181_nonlinear {a : ArrayAnalysis} {o : NonlinearOptions} {leds : List ℕ} {pos : ℕ → P3} {N : ℕ} {emit : ℕ → ℝ}
    {smoke : ℕ → Fin a.layers → ℝ} {gain : ℕ → ℕ → ℝ} {γ s c : ℝ}
    (hlight : NoisyLight a leds pos N (fun i l => emit l * Real.exp (-lineDepth a.cam (pos l) a.lo a.hi (smoke i))) 0 emit smoke)
    (hg : ∀ i, 1 ≤ i → i ≤ N → ∀ l ∈ leds, Real.exp (-γ) ≤ gain i l ∧ gain i l ≤ Real.exp γ)
    (h : NonlinearFit a o leds pos N smoke s c γ) (r : Except PyErr (List (Fin a.layers → ℝ)))
    (hr : a.NonlinearResultOf o (a.inputOf (.ok (tableOf (firstImgs N) leds
      fun i l => gain i l * (emit l * Real.exp (-lineDepth a.cam (pos l) a.lo a.hi (smoke i)))))) r) :
    NearSmoke a o leds N smoke c γ r := by
  refine h.near (emit := emit) ?_ r hr
  exact
    { emits := hlight.emits
      light := by
        intro i h1 h2 l hl
        obtain ⟨g1, g2⟩ := hg i h1 h2 l hl
        have hp0 : 0 < emit l * Real.exp (-lineDepth a.cam (pos l) a.lo a.hi (smoke i)) := mul_pos (hlight.emits l hl) (Real.exp_pos _)
        unfold Within
        rw [mul_comm _ (Real.exp (-γ)), mul_comm _ (Real.exp γ)]
        exact ⟨mul_le_mul_of_nonneg_right g1 hp0.le, mul_le_mul_of_nonneg_right g2 hp0.le⟩
      clear := hlight.clear
      reference := hlight.reference
      nonneg := hlight.nonneg
      thin := hlight.thin }

/-- The constant `c` exists exactly for arrays that determine the smoke; then only the sizes of error and weights are restricted. -/
example (a : ArrayAnalysis) (o : NonlinearOptions) (leds : List ℕ) (pos : ℕ → P3) (hne : leds ≠ []) (hw : 0 < o.curv) (s : ℝ) (hs : 0 < s)
    (hdet : RaysDetermine leds a.cam pos a.lo a.hi a.layers) : ∃ c, CurveConditioned leds a.cam pos a.lo a.hi a.layers o.curv s c :=
  (C146_conditioned_iff leds hne a.cam pos hw hs).2 hdet

/-- The column of C146 in smoke that takes half of the light on 5 m meets the conditions for light that is right up to a thousandth. -/
theorem column_fit : NonlinearFit columnWithLeds ⟨1 / 10 ^ 6, -1 / 1000, 1 / 1000⟩ [0, 1, 2, 3, 4] (fun (x : ℕ) => ((0, 0, 4 - (x : ℝ)) : P3)) 2
    columnSmoke (1 / 5) (1 / 40) (1 / 1000) := by
  have hlog : Real.log 2 ≤ 7 / 10 := by have := Real.log_two_lt_d9; linarith
  have hlog0 : 0 < Real.log 2 := Real.log_pos (by norm_num)
  have haff : ∀ i, Affine (columnSmoke i) := by
    intro i
    unfold columnSmoke
    split
    · exact ⟨Real.log 2 / 5, 0, fun _ => by simp⟩
    · exact ⟨0, 0, fun _ => by simp⟩
  have hcurv : ∀ i, curvature [0, 1, 2, 3, 4].length (1 / 10 ^ 6) (columnSmoke i) = 0 := fun i =>
    (C73_curvature (by decide) _ (by norm_num) _).2.2 (haff i)
  refine ⟨columnWithLeds_seen, by norm_num, by norm_num, column_curve _ (by norm_num), by unfold columnWithLeds; norm_num [abs_of_neg],
    fun i _ _ k => (columnSmoke_le i k).trans (by norm_num), ?_, ?_⟩
  · intro i _ _ x hx
    show 2 * (1 / 5) ≤ Real.exp (-lineDepth (5, 0, 2) (0, 0, 4 - (x : ℝ)) (-1) 5 (columnSmoke i))
    have hd : lineDepth (5, 0, 2) (0, 0, 4 - (x : ℝ)) (-1) 5 (columnSmoke i) ≤ 4 / 5 := by
      obtain ⟨d1, d2⟩ := column_distance x (column_le x hx)
      unfold columnSmoke
      split
      · rw [column_depth _ _ (column_le x hx)]
        nlinarith
      · rw [column_depth _ _ (column_le x hx)]
        norm_num
    refine le_trans ?_ (Real.exp_le_exp.2 (neg_le_neg hd))
    rw [Real.exp_neg, le_inv_comm₀ (by norm_num) (Real.exp_pos _)]
    have h2 : Real.exp (4 / 5) ^ 5 = Real.exp 1 ^ 4 := by
      rw [← Real.exp_nat_mul, ← Real.exp_nat_mul]; norm_num
    have h3 : Real.exp 1 ^ 4 ≤ 2.7182818286 ^ 4 := by
      have := Real.exp_one_lt_d9
      gcongr
    have h4 : Real.exp (4 / 5) ^ 5 ≤ (5 / 2) ^ 5 := by rw [h2]; refine h3.trans ?_; norm_num
    refine (le_of_pow_le_pow_left₀ (by norm_num) (by norm_num) h4).trans ?_
    norm_num
  · intro i _ _
    have h2 : Real.exp (2 * (1 / 1000)) - 1 ≤ 1 / 400 := by
      have := Real.exp_bound_div_one_sub_of_interval (x := 2 * (1 / 1000)) (by norm_num) (by norm_num)
      norm_num at this ⊢
      linarith
    have h0 : 0 ≤ Real.exp (2 * (1 / 1000)) - 1 := by
      have := Real.add_one_le_exp (2 * (1 / 1000) : ℝ)
      norm_num at this ⊢
    have h3 : Real.sqrt ((([0, 1, 2, 3, 4] : List ℕ).length : ℕ) : ℝ) ≤ 3 := by
      rw [Real.sqrt_le_left (by norm_num)]
      norm_num
    have h4 := mul_le_mul h3 h2 h0 (by norm_num)
    unfold Faint
    show 2 * (Real.sqrt _ * (Real.exp (2 * (1 / 1000)) - 1)) + _ * (curvature [0, 1, 2, 3, 4].length (1 / 10 ^ 6) (columnSmoke i) + _ + _) ≤ _
    rw [hcurv i]
    refine le_trans (add_le_add (mul_le_mul_of_nonneg_left h4 (by norm_num)) le_rfl) ?_
    norm_num [abs_of_neg]

/-- C178_nonlinear: a thousandth of the light of each LED is added in every image, all hypotheses are met. -/
example (r : Except PyErr (List (Fin 3 → ℝ))) (hr : columnWithLeds.NonlinearResultOf ⟨1 / 10 ^ 6, -1 / 1000, 1 / 1000⟩ (columnWithLeds.inputOf
      (.ok (tableOf (firstImgs 2) [0, 1, 2, 3, 4] (ambientLight columnWithLeds (fun (x : ℕ) => ((0, 0, 4 - (x : ℝ)) : P3)) (fun _ => 1000) columnSmoke
        fun i (x : ℕ) => 1 / 1000 * (1000 * Real.exp (-lineDepth (5, 0, 2) (0, 0, 4 - (x : ℝ)) (-1) 5 (columnSmoke i))))))) r) :
    NearSmoke columnWithLeds ⟨1 / 10 ^ 6, -1 / 1000, 1 / 1000⟩ [0, 1, 2, 3, 4] 2 columnSmoke (1 / 40) (1 / 1000) r := by
  have hn := column_noisy
  refine C178_nonlinear (a := columnWithLeds) ⟨hn.emits, fun i _ _ l _ => ⟨by simp [columnWithLeds], by simp [columnWithLeds]⟩, hn.clear, hn.reference, hn.nonneg, hn.thin⟩
    (fun i _ _ l _ => ⟨by positivity, le_rfl⟩) column_fit r hr

end Ledsa
