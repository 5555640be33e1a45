import Verif.Model.NonlinearRun
import Verif.Props.Nonlinear
import Verif.Props.RayRuns

/-!
# The nonlinear analysis in the whole program (C146)
-/

namespace Ledsa

/-! ### One image -/

theorem abs_le_vecLength {m : ℕ} (v : Fin m → ℝ) (i : Fin m) : |v i| ≤ vecLength v := by
  unfold vecLength
  rw [← Real.sqrt_sq_eq_abs]
  exact Real.sqrt_le_sqrt (Finset.single_le_sum (f := fun i => v i ^ 2) (fun _ _ => sq_nonneg _) (Finset.mem_univ i))

theorem preference_bounds {n : ℕ} (w : ℝ) (σ τ : Fin n → ℝ) (hσ : InBounds σ) (hτ : InBounds τ) :
    preference w σ - preference w τ ≤ 10 * |w| := by
  refine (le_abs_self _).trans ((preference_sub w σ τ).trans ?_)
  have h : absSum (fun k => σ k - τ k) ≤ n * 10 := by
    unfold absSum
    refine (Finset.sum_le_sum fun k _ => (abs_le.2 ⟨?_, ?_⟩ : |σ k - τ k| ≤ 10)).trans (by simp)
    · linarith [(hσ k).1, (hτ k).2]
    · linarith [(hσ k).2, (hτ k).1]
  rcases Nat.eq_zero_or_pos n with hn | hn
  · subst hn
    simp [absSum]
  · have hn' : (0 : ℝ) < n := by exact_mod_cast hn
    rw [div_mul_eq_mul_div, div_le_iff₀ hn']
    nlinarith [mul_le_mul_of_nonneg_left h (abs_nonneg w)]

/-- The result for one image is near the smoke: `2 s` is a lower bound of the part of the light that arrives. -/
theorem nearBest_error {m n : ℕ} (hm : 0 < m) (hn : 0 < n) (A : Fin m → Fin n → ℝ) (o : NonlinearOptions) (hw : 0 < o.curv) {s c : ℝ} (hs : 0 < s)
    (hc : 0 < c) (hsee : ∀ z : Fin n → ℝ, c * absSum z ≤ s / m * vecLength (fun led => depth z (A led)) + curvature m o.curv z)
    (hwp : 2 * |o.pref| ≤ c * n) (σ : Fin n → ℝ) (hσ : InBounds σ) (target : Fin m → ℝ)
    (hdepth : ∀ led, 2 * s ≤ Real.exp (-depth σ (A led)))
    (hsmall : 2 * vecLength (fun led => target led - Real.exp (-depth σ (A led))) + m * (curvature m o.curv σ + 10 * |o.pref| + o.tol) ≤ s)
    (x : Fin n → ℝ) (hx : NearBest A o target x) :
    absSum (fun k => x k - σ k) ≤
      4 / c * (vecLength (fun led => target led - Real.exp (-depth σ (A led))) / m + curvature m o.curv σ) + 2 / c * o.tol := by
  obtain ⟨hxb, hmin⟩ := hx
  have hm' : (0 : ℝ) < m := by exact_mod_cast hm
  have hn' : (0 : ℝ) < n := by exact_mod_cast hn
  have hcost := hmin σ hσ
  unfold costFunction at hcost
  rw [rmse_eq, rmse_eq] at hcost
  have hcσ := (C73_curvature hm o.curv hw σ).1
  have hcx := (C73_curvature hm o.curv hw x).1
  have h3 : vecLength (fun led => Real.exp (-depth σ (A led)) - target led) =
      vecLength (fun led => target led - Real.exp (-depth σ (A led))) := by
    unfold vecLength
    congr 1
    exact Finset.sum_congr rfl fun led _ => by ring
  rw [h3] at hcost
  set E := vecLength (fun led => target led - Real.exp (-depth σ (A led))) with hE
  set X := vecLength (fun led => Real.exp (-depth x (A led)) - target led) with hX
  have hpb := preference_bounds o.pref σ x hσ hxb
  have hXb : X ≤ E + m * (curvature m o.curv σ + 10 * |o.pref| + o.tol) := by
    have h : X / m ≤ E / m + (curvature m o.curv σ + 10 * |o.pref| + o.tol) := by linarith
    have h' := mul_le_mul_of_nonneg_left h hm'.le
    rw [mul_add, mul_div_cancel₀ _ hm'.ne', mul_div_cancel₀ _ hm'.ne'] at h'
    exact h'
  -- no line of sight of the fit is much darker
  have hlow : ∀ led, s ≤ Real.exp (-depth x (A led)) := by
    intro led
    have e1 := abs_le_vecLength (fun led => Real.exp (-depth x (A led)) - target led) led
    have e2 := abs_le_vecLength (fun led => target led - Real.exp (-depth σ (A led))) led
    rw [← hX] at e1
    rw [← hE] at e2
    have e3 := hdepth led
    have e4 := (abs_le.1 e1).1
    have e5 := (abs_le.1 e2).1
    linarith
  have h1 : vecLength (fun led => Real.exp (-depth x (A led)) - Real.exp (-depth σ (A led))) ≤ X + E := by
    refine le_of_eq_of_le ?_ (vecLength_add _ _)
    congr 1
    funext led
    ring
  have h2 : vecLength (fun led => s * depth (fun k => x k - σ k) (A led)) ≤
      vecLength (fun led => Real.exp (-depth x (A led)) - Real.exp (-depth σ (A led))) := by
    apply vecLength_mono
    intro led
    rw [abs_mul, abs_of_pos hs, depth_sub]
    have hl : ∀ d, s ≤ Real.exp (-d) → d ≤ -Real.log s := by
      intro d hd
      have := (Real.log_le_iff_le_exp hs).2 hd
      linarith
    have := exp_gap (hl _ (hlow led)) (hl _ (by have := hdepth led; linarith : s ≤ Real.exp (-depth σ (A led))))
    rwa [neg_neg, Real.exp_log hs] at this
  rw [vecLength_smul, abs_of_pos hs] at h2
  have h4 := hsee (fun k => x k - σ k)
  have h5 := curvature_sub m o.curv hw.le x σ
  have h6 := preference_sub o.pref σ x
  have h6' : absSum (fun k => σ k - x k) = absSum (fun k => x k - σ k) := by
    unfold absSum
    exact Finset.sum_congr rfl fun k _ => abs_sub_comm _ _
  rw [h6'] at h6
  have h7 : |o.pref| / n * absSum (fun k => x k - σ k) ≤ c / 2 * absSum (fun k => x k - σ k) := by
    apply mul_le_mul_of_nonneg_right _ (absSum_nonneg _)
    rw [div_le_iff₀ hn']
    linarith
  have h8 := (le_abs_self _).trans h6
  have h9 : s / m * vecLength (fun led => depth (fun k => x k - σ k) (A led)) ≤ X / m + E / m := by
    rw [div_mul_eq_mul_div, ← add_div]
    exact div_le_div_of_nonneg_right (h2.trans h1) hm'.le
  have key : c / 2 * absSum (fun k => x k - σ k) ≤ 2 * (E / m) + 2 * curvature m o.curv σ + o.tol := by linarith
  have e : absSum (fun k => x k - σ k) ≤ (4 * (E / m + curvature m o.curv σ) + 2 * o.tol) / c := by
    rw [le_div_iff₀ hc]
    linarith
  refine e.trans (le_of_eq ?_)
  ring

theorem nearBest_error_le {m n : ℕ} (hm : 0 < m) (hn : 0 < n) (A : Fin m → Fin n → ℝ) (o : NonlinearOptions) (hw : 0 < o.curv) {s c : ℝ} (hs : 0 < s)
    (hc : 0 < c) (hsee : ∀ z : Fin n → ℝ, c * absSum z ≤ s / m * vecLength (fun led => depth z (A led)) + curvature m o.curv z)
    (hwp : 2 * |o.pref| ≤ c * n) (σ : Fin n → ℝ) (hσ : InBounds σ) (target : Fin m → ℝ)
    (hdepth : ∀ led, 2 * s ≤ Real.exp (-depth σ (A led))) (E : ℝ)
    (hE : vecLength (fun led => target led - Real.exp (-depth σ (A led))) ≤ E)
    (hsmall : 2 * E + m * (curvature m o.curv σ + 10 * |o.pref| + o.tol) ≤ s)
    (x : Fin n → ℝ) (hx : NearBest A o target x) :
    absSum (fun k => x k - σ k) ≤ 4 / c * (E / m + curvature m o.curv σ) + 2 / c * o.tol := by
  refine (nearBest_error hm hn A o hw hs hc hsee hwp σ hσ target hdepth (by linarith) x hx).trans ?_
  gcongr

/-! ### Lines of sight -/

/-- The length of the vector of the optical depths of all lines of sight. -/
noncomputable def depthsLength {ι : Type} (leds : List ι) (cam : P3) (pos : ι → P3) (lo hi : ℝ) {n : ℕ} (x : Fin n → ℝ) : ℝ :=
  Real.sqrt (leds.map fun l => lineDepth cam (pos l) lo hi x ^ 2).sum

theorem depthsLength_eq {ι : Type} (leds : List ι) (cam : P3) (pos : ι → P3) (lo hi : ℝ) {n : ℕ} (x : Fin n → ℝ) :
    depthsLength leds cam pos lo hi x = vecLength fun i : Fin leds.length => lineDepth cam (pos leds[i]) lo hi x := by
  unfold depthsLength vecLength
  rw [← sum_map_eq leds fun l => lineDepth cam (pos l) lo hi x ^ 2]

/-- Optical depths and curvature together control a profile, with constant `c`; `s` is the weight of the depths. -/
def CurveConditioned {ι : Type} (leds : List ι) (cam : P3) (pos : ι → P3) (lo hi : ℝ) (n : ℕ) (w s c : ℝ) : Prop :=
  0 < c ∧ ∀ x : Fin n → ℝ, c * ∑ k, |x k| ≤ s / leds.length * depthsLength leds cam pos lo hi x + curvature leds.length w x

/-- **C146.** There is such a constant exactly for arrays that determine linear profiles. -/
theorem C146_conditioned_iff {ι : Type} (leds : List ι) (hne : leds ≠ []) (cam : P3) (pos : ι → P3) {lo hi : ℝ} {n : ℕ} {w s : ℝ}
    (hw : 0 < w) (hs : 0 < s) : (∃ c, CurveConditioned leds cam pos lo hi n w s c) ↔ RaysDetermine leds cam pos lo hi n := by
  have hm : 0 < leds.length := List.length_pos_iff.2 hne
  have hm' : (0 : ℝ) < leds.length := by exact_mod_cast hm
  constructor
  · rintro ⟨c, hc, h⟩ σ τ hσ hτ he
    have h1 := h fun k => σ k - τ k
    have e1 : depthsLength leds cam pos lo hi (fun k => σ k - τ k) = 0 := by
      unfold depthsLength
      rw [Real.sqrt_eq_zero']
      apply le_of_eq
      apply List.sum_eq_zero
      intro y hy
      obtain ⟨l, hl, rfl⟩ := List.mem_map.1 hy
      rw [lineDepth_sub, he l hl, sub_self]
      norm_num
    have e2 : curvature leds.length w (fun k => σ k - τ k) = 0 := by
      rw [(C73_curvature hm w hw _).2]
      obtain ⟨a, b, hab⟩ := hσ
      obtain ⟨a', b', hab'⟩ := hτ
      exact ⟨a - a', b - b', fun l => by simp only [hab, hab']; ring⟩
    rw [e1, e2, mul_zero, add_zero] at h1
    have h0 : ∑ k, |σ k - τ k| = 0 := le_antisymm (by by_contra hcon; push Not at hcon; nlinarith [mul_pos hc hcon])
      (Finset.sum_nonneg fun _ _ => abs_nonneg _)
    funext k
    have := (Finset.sum_eq_zero_iff_of_nonneg fun k _ => abs_nonneg (σ k - τ k)).1 h0 k (Finset.mem_univ k)
    linarith [abs_eq_zero.1 this]
  · intro hdet
    set D : Fin leds.length → Fin n → ℝ := fun i k => lineDepth cam (pos leds[i]) lo hi (onlyLayer k) with hD
    have hdep : ∀ i x, depth x (D i) = lineDepth cam (pos leds[i]) lo hi x := by
      intro i x
      unfold depth
      rw [lineDepth_rayIn, hD]
      exact Finset.sum_congr rfl fun k _ => by simp only; rw [lineDepth_only]
    have hd : DeterminesAffine D := by
      intro σ τ hσ hτ he
      refine hdet σ τ hσ hτ fun l hl => ?_
      obtain ⟨i, hi', rfl⟩ := List.getElem_of_mem hl
      have := he ⟨i, hi'⟩
      rw [hdep, hdep] at this
      exact this
    obtain ⟨c, hc, h⟩ := sees_profile hm D hd w (s / leds.length) hw (by positivity)
    refine ⟨c, hc, fun x => ?_⟩
    have := h x
    simp only [hdep] at this
    rw [depthsLength_eq]
    exact this

/-- The constant for positions nearby. -/
theorem CurveConditioned.nearby {ι : Type} {leds : List ι} (hne : leds ≠ []) {cam : P3} {place : ι → P3} {lo hi : ℝ} (h : lo < hi) {n : ℕ}
    {w s c : ℝ} (hcon : CurveConditioned leds cam place lo hi n w s c) (hs : 0 < s) {δ L ε : ℝ} (hδ : 0 < δ)
    (hcam : CameraClear lo hi n δ cam.2.2) (hL0 : 0 ≤ L) (hL : ∀ l ∈ leds, euclid cam (place l) ≤ L) (hε : 0 ≤ ε)
    (hp : 2 * s * (ε * (1 + L / δ)) ≤ c * Real.sqrt leds.length)
    {pos : ι → P3} (hpos : ∀ l ∈ leds, euclid (place l) (pos l) ≤ ε) : CurveConditioned leds cam pos lo hi n w s (c / 2) := by
  obtain ⟨hc, hobs⟩ := hcon
  refine ⟨by positivity, fun x => ?_⟩
  have hm : 0 < leds.length := List.length_pos_iff.2 hne
  have hm' : (0 : ℝ) < leds.length := by exact_mod_cast hm
  have h0 : 0 ≤ ∑ k, |x k| := Finset.sum_nonneg fun _ _ => abs_nonneg _
  set q := ε * (1 + L / δ) * ∑ k, |x k| with hq
  have hq0 : 0 ≤ q := by positivity
  have hterm : ∀ i : Fin leds.length, |lineDepth cam (place leds[i]) lo hi x - lineDepth cam (pos leds[i]) lo hi x| ≤ q := by
    intro i
    have hl : leds[i] ∈ leds := List.getElem_mem i.2
    have h1 := depth_displaced cam (place leds[i]) (pos leds[i]) h hδ hcam x
    refine h1.trans (mul_le_mul_of_nonneg_right ?_ h0)
    refine mul_le_mul (hpos _ hl) ?_ (by have := euclid_nonneg cam (place leds[i]); positivity) hε
    have := hL _ hl
    gcongr
  have hV : depthsLength leds cam place lo hi x ≤ depthsLength leds cam pos lo hi x + Real.sqrt leds.length * q := by
    rw [depthsLength_eq, depthsLength_eq]
    have e : (fun i : Fin leds.length => lineDepth cam (place leds[i]) lo hi x) = fun i : Fin leds.length =>
        lineDepth cam (pos leds[i]) lo hi x + (lineDepth cam (place leds[i]) lo hi x - lineDepth cam (pos leds[i]) lo hi x) := by
      funext i
      ring
    rw [e]
    refine (vecLength_add _ _).trans (add_le_add le_rfl ?_)
    refine (vecLength_mono _ (fun _ => q) fun i => by rw [abs_of_nonneg hq0]; exact hterm i).trans (le_of_eq ?_)
    unfold vecLength
    rw [Finset.sum_const, Finset.card_univ, Fintype.card_fin, nsmul_eq_mul, Real.sqrt_mul hm'.le, Real.sqrt_sq hq0]
  have hx := hobs x
  have hr : Real.sqrt leds.length * Real.sqrt leds.length = leds.length := Real.mul_self_sqrt hm'.le
  have hr0 : 0 < Real.sqrt leds.length := Real.sqrt_pos.2 hm'
  have h1 : s / leds.length * depthsLength leds cam place lo hi x ≤
      s / leds.length * depthsLength leds cam pos lo hi x + c / 2 * ∑ k, |x k| := by
    refine (mul_le_mul_of_nonneg_left hV (by positivity)).trans ?_
    rw [mul_add]
    refine add_le_add le_rfl ?_
    have e : s / leds.length * (Real.sqrt leds.length * q) = s * q / Real.sqrt leds.length := by
      rw [div_mul_eq_mul_div, div_eq_div_iff hm'.ne' hr0.ne']
      linear_combination s * q * hr
    rw [e, div_le_iff₀ hr0, hq]
    have := mul_le_mul_of_nonneg_right hp h0
    linarith
  linarith

/-! ### All images of an array -/

/-- The relative intensities of an array that is seen. -/
theorem seen_input (a : ArrayAnalysis) (leds : List ℕ) (pos : ℕ → P3) (h : SeenArray a leds pos) (N : ℕ) (v : ℕ → ℕ → ℝ)
    (href : ∃ i, 1 ≤ i ∧ i ≤ N ∧ a.ref.selects i = true) :
    ∃ ds : ℕ → List ℝ, a.inputOf (.ok (tableOf (firstImgs N) leds v)) = .ok (leds.map fun l => some (ds l), (firstImgs N).map fun i =>
        leds.map fun l => v i l / meanOver ((firstImgs N).filter a.ref.selects) v l) ∧
      ∀ l ∈ leds, ∀ σ : Fin a.layers → ℝ, ∑ k : Fin a.layers, (ds l).getD k 0 * σ k = lineDepth a.cam (pos l) a.lo a.hi σ := by
  obtain ⟨i0, hi1, hi2, hi3⟩ := href
  have hN : 0 < N := by omega
  have hrel := C46_value a.ref (firstImgs N) leds v (firstImgs_sorted N) h.ascending h.nonempty ⟨i0, (mem_firstImgs N i0).2 ⟨hi1, hi2⟩, hi3⟩
  obtain ⟨ds, hin, hds⟩ := seenArray_distances a leds pos h
  refine ⟨ds, ?_, fun l hl => (hds l hl).2⟩
  rw [hin]
  cases a.parallel with
  | false => simp only [Bool.false_eq_true, if_false]; rw [hrel]; rfl
  | true =>
    simp only [if_true]
    rw [C45_same_intensities N hN leds v h.ascending h.nonempty, hrel]; rfl

/-- The relative intensities are those of the smoke up to the error of the light. -/
theorem relative_within (a : ArrayAnalysis) (leds : List ℕ) (pos : ℕ → P3) (N : ℕ) (v : ℕ → ℕ → ℝ) (γ : ℝ) (emit : ℕ → ℝ)
    (smoke : ℕ → Fin a.layers → ℝ) (hv : NoisyLight a leds pos N v γ emit smoke) (i : ℕ) (h1 : 1 ≤ i) (h2 : i ≤ N) (l : ℕ) (hl : l ∈ leds) :
    Within (2 * γ) (v i l / meanOver ((firstImgs N).filter a.ref.selects) v l) (Real.exp (-lineDepth a.cam (pos l) a.lo a.hi (smoke i))) := by
  have hE := hv.emits l hl
  have hne' : (firstImgs N).filter a.ref.selects ≠ [] := by
    obtain ⟨i0, hi1, hi2, hi3⟩ := hv.reference
    exact List.ne_nil_of_mem (List.mem_filter.2 ⟨(mem_firstImgs N i0).2 ⟨hi1, hi2⟩, hi3⟩)
  have hm : Within γ (meanOver ((firstImgs N).filter a.ref.selects) v l) (emit l) := by
    apply within_mean _ _ _ hne'
    intro j hj
    rw [List.mem_filter, mem_firstImgs] at hj
    have := hv.light j hj.1.1 hj.1.2 l hl
    rwa [hv.clear j hj.1.1 hj.1.2 hj.2, lineDepth_zero, neg_zero, Real.exp_zero, mul_one] at this
  have hx := hv.light i h1 h2 l hl
  have p2 := hm.pos hE
  set e := Real.exp (-lineDepth a.cam (pos l) a.lo a.hi (smoke i)) with he
  have he0 : 0 < e := Real.exp_pos _
  have hg : Real.exp (2 * γ) = Real.exp γ * Real.exp γ := by rw [← Real.exp_add]; ring_nf
  have hg' : Real.exp (-(2 * γ)) = Real.exp (-γ) * Real.exp (-γ) := by rw [← Real.exp_add]; ring_nf
  have hone : Real.exp γ * Real.exp (-γ) = 1 := by rw [← Real.exp_add, add_neg_cancel, Real.exp_zero]
  have g1 := Real.exp_pos γ
  have g2 := Real.exp_pos (-γ)
  constructor
  · rw [le_div_iff₀ p2, hg']
    calc e * (Real.exp (-γ) * Real.exp (-γ)) * meanOver ((firstImgs N).filter a.ref.selects) v l
        ≤ e * (Real.exp (-γ) * Real.exp (-γ)) * (emit l * Real.exp γ) := mul_le_mul_of_nonneg_left hm.2 (by positivity)
      _ = emit l * e * Real.exp (-γ) := by linear_combination (e * Real.exp (-γ) * emit l) * hone
      _ ≤ v i l := hx.1
  · rw [div_le_iff₀ p2, hg]
    calc v i l ≤ emit l * e * Real.exp γ := hx.2
      _ = e * (Real.exp γ * Real.exp γ) * (emit l * Real.exp (-γ)) := by linear_combination (-(e * Real.exp γ * emit l)) * hone
      _ ≤ _ := mul_le_mul_of_nonneg_left hm.1 (by positivity)

theorem within_sub {γ x y : ℝ} (h : Within γ x y) (h0 : 0 ≤ y) (h1 : y ≤ 1) (hγ : 0 ≤ γ) : |x - y| ≤ Real.exp γ - 1 := by
  obtain ⟨a, b⟩ := h
  have g1 := Real.exp_pos γ
  have g2 := Real.exp_pos (-γ)
  have hone : Real.exp γ * Real.exp (-γ) = 1 := by rw [← Real.exp_add, add_neg_cancel, Real.exp_zero]
  have hg : 1 ≤ Real.exp γ := Real.one_le_exp hγ
  rw [abs_le]
  constructor
  · nlinarith [mul_nonneg h0 (sub_nonneg.2 hg)]
  · nlinarith [mul_nonneg h0 (sub_nonneg.2 hg)]

/-- Results for all images, one by one. -/
theorem collect_images {ρ σ : Type} (R : ρ → Except PyErr σ → Prop) (g : ℕ → ρ) (Q : ℕ → σ → Prop) [Inhabited σ] :
    ∀ (imgs : List ℕ), imgs.Nodup → (∀ i ∈ imgs, ∀ r, R (g i) r → ∃ x, r = .ok x ∧ Q i x) →
      ∀ rs, List.Forall₂ R (imgs.map g) rs → ∃ found : ℕ → σ, rs = (imgs.map found).map Except.ok ∧ ∀ i ∈ imgs, Q i (found i) := by
  intro imgs
  induction imgs with
  | nil =>
    intro _ _ rs hf
    cases hf
    exact ⟨fun _ => default, rfl, fun i hi => by cases hi⟩
  | cons i imgs ih =>
    intro hnd him rs hf
    rw [List.map_cons] at hf
    cases hf with
    | cons h1 h2 =>
      rw [List.nodup_cons] at hnd
      obtain ⟨x, rfl, hx⟩ := him i (by simp) _ h1
      obtain ⟨found, rfl, hfound⟩ := ih hnd.2 (fun j hj => him j (by simp [hj])) _ h2
      refine ⟨fun j => if j = i then x else found j, ?_, ?_⟩
      · rw [List.map_cons, List.map_cons, if_pos rfl]
        congr 2
        apply List.map_congr_left
        intro j hj
        rw [if_neg]
        rintro rfl
        exact hnd.1 hj
      · intro j hj
        by_cases hji : j = i
        · subst hji; simpa using hx
        · simp only [if_neg hji]
          exact hfound j ((List.mem_cons.1 hj).resolve_left hji)

/-- The error of the light and the weights of the cost function are small compared to the light that arrives: `2 s` of it or more. -/
def Faint (m : ℕ) (o : NonlinearOptions) {n : ℕ} (s γ : ℝ) (σ : Fin n → ℝ) : Prop :=
  2 * (Real.sqrt m * (Real.exp (2 * γ) - 1)) + m * (curvature m o.curv σ + 10 * |o.pref| + o.tol) ≤ s

/-- **C146.** The nonlinear analysis of an LED array that is seen through smoke: if the light is right up to the factor `exp γ`, the
coefficients of every image are near those of the smoke. -/
theorem C146_array (a : ArrayAnalysis) (o : NonlinearOptions) (leds : List ℕ) (pos : ℕ → P3) (h : SeenArray a leds pos) (hw : 0 < o.curv)
    (s c : ℝ) (hs : 0 < s) (hcon : CurveConditioned leds a.cam pos a.lo a.hi a.layers o.curv s c) (hwp : 2 * |o.pref| ≤ c * a.layers) (N : ℕ)
    (v : ℕ → ℕ → ℝ) (γ : ℝ) (emit : ℕ → ℝ) (smoke : ℕ → Fin a.layers → ℝ) (hv : NoisyLight a leds pos N v γ emit smoke)
    (h10 : ∀ i, 1 ≤ i → i ≤ N → ∀ k, smoke i k ≤ 10)
    (hbright : ∀ i, 1 ≤ i → i ≤ N → ∀ l ∈ leds, 2 * s ≤ Real.exp (-lineDepth a.cam (pos l) a.lo a.hi (smoke i)))
    (hfaint : ∀ i, 1 ≤ i → i ≤ N → Faint leds.length o s γ (smoke i))
    (r : Except PyErr (List (Fin a.layers → ℝ))) (hr : a.NonlinearResultOf o (a.inputOf (.ok (tableOf (firstImgs N) leds v))) r) :
    ∃ found : ℕ → Fin a.layers → ℝ, r = .ok ((firstImgs N).map found) ∧ ∀ i, 1 ≤ i → i ≤ N → (∀ k, 0 ≤ found i k ∧ found i k ≤ 10) ∧
      ∑ k, |found i k - smoke i k| ≤
        4 / c * ((Real.exp (2 * γ) - 1) / Real.sqrt leds.length + curvature leds.length o.curv (smoke i)) + 2 / c * o.tol := by
  obtain ⟨ds, hin, hds⟩ := seen_input a leds pos h N v hv.reference
  unfold ArrayAnalysis.NonlinearResultOf at hr
  rw [hin] at hr
  simp only at hr
  obtain ⟨rs, hf, rfl⟩ := hr
  have hm : 0 < leds.length := List.length_pos_iff.2 h.nonempty
  have hm' : (0 : ℝ) < leds.length := by exact_mod_cast hm
  have hr0 : 0 < Real.sqrt leds.length := Real.sqrt_pos.2 hm'
  obtain ⟨hc, hsee⟩ := hcon
  have himg : ∀ i ∈ firstImgs N, ∀ r', NonlinearImage a.layers (leds.map fun l => some (ds l)) o
      (leds.map fun l => v i l / meanOver ((firstImgs N).filter a.ref.selects) v l) r' → ∃ x, r' = .ok x ∧ (∀ k, 0 ≤ x k ∧ x k ≤ 10) ∧
      ∑ k, |x k - smoke i k| ≤
        4 / c * ((Real.exp (2 * γ) - 1) / Real.sqrt leds.length + curvature leds.length o.curv (smoke i)) + 2 / c * o.tol := by
    intro i hi r' hr'
    obtain ⟨h1, h2⟩ := (mem_firstImgs N i).1 hi
    have hγ : 0 ≤ 2 * γ := by
      obtain ⟨l, hl⟩ := List.exists_mem_of_ne_nil _ h.nonempty
      obtain ⟨q1, q2⟩ := relative_within a leds pos N v γ emit smoke hv i h1 h2 l hl
      have := le_of_mul_le_mul_left (q1.trans q2) (Real.exp_pos _)
      have := Real.exp_le_exp.1 this
      linarith
    unfold NonlinearImage at hr'
    have hM : (leds.map fun l => some (ds l)).mapM id = some (leds.map ds) := by
      rw [← mapM_id_some (leds.map ds), List.map_map]; rfl
    rw [hM] at hr'
    simp only at hr'
    rw [if_pos (by simp)] at hr'
    obtain ⟨x, rfl, hx⟩ := hr'
    have hlt : ∀ j : Fin (leds.map ds).length, (j : ℕ) < leds.length := fun j => by have := j.2; simpa using this
    have hdep : ∀ (j : Fin (leds.map ds).length) (τ : Fin a.layers → ℝ), depth τ (distEntry (n := a.layers) (leds.map ds) j) =
        lineDepth a.cam (pos (leds[(j : ℕ)]'(hlt j))) a.lo a.hi τ := by
      intro j τ
      rw [← hds _ (List.getElem_mem (hlt j))]
      unfold depth distEntry
      refine Finset.sum_congr rfl fun k _ => ?_
      congr 2
      simp
    have hlen : (leds.map ds).length = leds.length := List.length_map _
    have hvec : ∀ τ : Fin a.layers → ℝ, vecLength (fun j => depth τ (distEntry (n := a.layers) (leds.map ds) j)) =
        depthsLength leds a.cam pos a.lo a.hi τ := by
      intro τ
      rw [depthsLength_eq]
      simp only [hdep]
      unfold vecLength
      congr 1
      rw [← Equiv.sum_comp (finCongr hlen)]
      rfl
    set target : Fin (leds.map ds).length → ℝ := fun j =>
      (leds.map fun l => v i l / meanOver ((firstImgs N).filter a.ref.selects) v l).getD j 0 with ht
    have hvl : vecLength (fun j => target j - Real.exp (-depth (smoke i) (distEntry (n := a.layers) (leds.map ds) j))) ≤
        Real.sqrt leds.length * (Real.exp (2 * γ) - 1) := by
      have hnn : 0 ≤ Real.exp (2 * γ) - 1 := by have := Real.one_le_exp hγ; linarith
      refine (vecLength_mono _ (fun _ => Real.exp (2 * γ) - 1) ?_).trans (le_of_eq ?_)
      · intro j
        rw [abs_of_nonneg hnn, hdep]
        have hl := List.getElem_mem (hlt j)
        have e : target j = v i (leds[(j : ℕ)]'(hlt j)) / meanOver ((firstImgs N).filter a.ref.selects) v (leds[(j : ℕ)]'(hlt j)) := by
          rw [ht]
          simp only
          rw [List.getD_eq_getElem?_getD, List.getElem?_map, List.getElem?_eq_getElem (hlt j)]
          rfl
        rw [e]
        refine within_sub (relative_within a leds pos N v γ emit smoke hv i h1 h2 _ hl) (Real.exp_pos _).le ?_ hγ
        rw [Real.exp_le_one_iff]
        have := lineDepth_nonneg a leds pos h _ (hv.nonneg i h1 h2) _ hl
        linarith
      · unfold vecLength
        rw [Finset.sum_const, Finset.card_univ, Fintype.card_fin, nsmul_eq_mul, hlen, Real.sqrt_mul hm'.le, Real.sqrt_sq hnn]
    have hfa := hfaint i h1 h2
    unfold Faint at hfa
    have := nearBest_error_le (by rw [hlen]; exact hm) (by have := h.layers; omega) _ o hw hs hc
      (fun z => by rw [hvec, hlen]; exact hsee z) hwp (smoke i) (fun k => ⟨hv.nonneg i h1 h2 k, h10 i h1 h2 k⟩) target
      (fun j => by rw [hdep]; exact hbright i h1 h2 _ (List.getElem_mem (hlt j)))
      _ hvl (by rw [hlen]; exact hfa) x hx
    refine ⟨x, rfl, hx.1, this.trans (le_of_eq ?_)⟩
    rw [hlen]
    congr 3
    rw [div_eq_div_iff hm'.ne' hr0.ne']
    linear_combination (Real.exp (2 * γ) - 1) * Real.mul_self_sqrt hm'.le
  obtain ⟨found, rfl, hfound⟩ := collect_images _ _ _ (firstImgs N) ((firstImgs_sorted N).imp fun h => h.ne) himg rs hf
  exact ⟨found, mapM_id_ok _, fun i h1 h2 => hfound i ((mem_firstImgs N i).2 ⟨h1, h2⟩)⟩

/-- The array as the analysis reads it is seen. -/
theorem surveyed_seen {a0 : ArrayAnalysis} {t : LedTable} {arrays : List (List ℕ)} {edges : List (P3 × P3)} {leds : List ℕ} {truth : ℕ → P3} {η : ℝ}
    (hsv : SurveyedLeds a0 t arrays edges leds truth η) (k : ℕ) (rows : List CoordRow) (pos : ℕ → P3) (hasc : leds.Pairwise (· < ·)) (hnone : leds ≠ [])
    (hrow : ∀ x ∈ leds, (rows.map (·.pos))[x]? = some (pos x) ∧ euclid (truth x) (pos x) ≤ η + 1 / 10 ^ 6) :
    SeenArray (a0.withFiles k leds.reverse rows) leds pos := by
  refine ⟨rfl, hasc, hnone, fun x hx => (hrow x hx).1, hsv.layers, hsv.domain, ?_⟩
  intro x hx
  have hr := (hrow x hx).2
  have hz := height_le_euclid (truth x) (pos x)
  have hin := hsv.inside x hx
  have hap := hsv.apart x hx
  rw [abs_le] at hz
  refine ⟨?_, hsv.camera, ⟨?_, ?_⟩, ?_⟩
  · rintro hc
    have hc' : a0.cam = pos x := hc
    rw [hc'] at hap
    have hsym : euclid (pos x) (truth x) = euclid (truth x) (pos x) := by
      unfold euclid
      congr 1
      ring
    linarith
  · show a0.lo ≤ _
    linarith [hz.1, hz.2, hin.1]
  · show _ ≤ a0.hi
    linarith [hz.1, hz.2, hin.2]
  · rintro ⟨_, hc⟩
    have hc' : (pos x).2.2 = a0.hi := hc
    linarith [hz.1, hz.2, hin.2]

/-- Light seen at the positions found. -/
theorem displaced_depth {a0 : ArrayAnalysis} {p q : P3} (h : a0.lo < a0.hi) {S L δ ε : ℝ} (hδ : 0 < δ)
    (hcam : CameraClear a0.lo a0.hi a0.layers δ a0.cam.2.2) (smoke : Fin a0.layers → ℝ) (h0 : ∀ j, 0 ≤ smoke j) (hS : ∀ j, smoke j ≤ S)
    (hL : euclid a0.cam p ≤ L) (hpos : euclid p q ≤ ε) :
    lineDepth a0.cam q a0.lo a0.hi smoke ≤ lineDepth a0.cam p a0.lo a0.hi smoke + displacementError S L δ ε := by
  have hk0 : 0 < a0.layers := by
    obtain ⟨k, hk, _⟩ := hcam
    omega
  have hS0 : 0 ≤ S := (h0 ⟨0, hk0⟩).trans (hS ⟨0, hk0⟩)
  have h1 := C129_depth a0.cam p q a0.lo a0.hi h smoke S (fun k => ⟨h0 k, hS k⟩) δ hδ hcam
  have h2 : S * euclid p q * (1 + euclid a0.cam p / δ) ≤ displacementError S L δ ε := by
    unfold displacementError
    have e0 := euclid_nonneg a0.cam p
    have e1 := euclid_nonneg p q
    have e2 : (0 : ℝ) ≤ ε := e1.trans hpos
    gcongr
  linarith [(abs_le.1 h1).1]

/-- **C146.** The whole program with the nonlinear solver: for every history of steps 1 and 2, all photos and all smoke of at most 10 per
metre, the coefficients are near those of the smoke if the solver stops near the least cost. -/
theorem C146_history {D : Type} [LinearOrder D] [Add D] [Mul D] (maxLoc : Image ℚ → ℕ × ℕ) (m : Metric D) (h : List ExtCmd) (t : LedTable) (arrays : List (List ℕ))
    (groups : Option (List (List ℤ))) (hs : Stage.ofHistory maxLoc m h = .matched t arrays groups) (o : Step3Options)
    (ho : FitOptions arrays groups o) (fit : List P3 → Plane) (edges : List (P3 × P3)) (he : arrays.length ≤ edges.length)
    (hp : EndsMeasured t arrays arrays.length)
    (hdis : ((List.range (wantedCount arrays groups)).map (wantedLeds arrays groups)).flatten.Nodup)
    (h4 : 4 ≤ ((List.range (wantedCount arrays groups)).map (wantedLeds arrays groups)).flatten.length)
    (w : HdfWorld) (ch n : ℕ) (hcount : w.count w.cwd = .ok (n : ℤ)) (hn : 0 < n) (hw : w.cache = none)
    (infos : List InfoRow) (hi : GoodInfos infos) (hlen : n ≤ infos.length) (root : Str) (hroot : '\n' ∉ root)
    (R : ℕ) (img : ℕ → Image ℚ) (hph : ∀ i, Photographed t arrays R (img i)) (files : ℕ → Option Str)
    (hf : ∀ i, 1 ≤ i → i ≤ n → files i =
      (step3File o (infoFile infos) root ch R 0 (img i) none (natStr i) (runHistory maxLoc m .empty h)).toOption)
    (k : ℕ) (hk : k < wantedCount arrays groups) (hasc : (wantedLeds arrays groups k).Pairwise (· < ·)) :
    ∃ rows ids, calculateCoordinates fit arrays.length edges (runHistory maxLoc m .empty h) = .ok rows ∧
      loadIndexFile ((runHistory maxLoc m .empty h).index (indexFileName k (indexSuffix groups))) = .ok (ids.map (Nat.cast : ℕ → ℤ)) ∧
      ∀ (cf : Option (List (ℕ × List ℚ × ℚ × ℚ))), w.coord w.cwd = cf.map asCoord → (∀ c', cf = some c' → List.Forall₂ SameRow rows c') →
      ∃ f, textFrame w ch files = .ok f ∧
      ∀ (a0 : ArrayAnalysis) (truth : ℕ → P3) (η : ℝ), SurveyedLeds a0 t arrays edges (wantedLeds arrays groups k) truth η → 0 ≤ η →
      ∀ (v : ℕ → ℕ → ℝ), (∀ i x a j old p, IsMember arrays x a j old → (old, p) ∈ t →
          v i x = ((∑ q ∈ area (img i) p.1 p.2 R, (img i).px q.1 q.2 : ℚ) : ℝ)) →
      ∀ (o' : NonlinearOptions) (γ : ℝ) (emit : ℕ → ℝ) (smoke : ℕ → Fin a0.layers → ℝ) (S L δ s c : ℝ),
        0 < o'.curv → 0 < s → CurveConditioned (wantedLeds arrays groups k) a0.cam truth a0.lo a0.hi a0.layers o'.curv s c → 4 * |o'.pref| ≤ c * a0.layers →
        0 ≤ L → 2 * s * ((η + 1 / 10 ^ 6) * (1 + L / δ)) ≤ c * Real.sqrt (wantedLeds arrays groups k).length →
        NoisyLight a0 (wantedLeds arrays groups k) truth n v γ emit smoke → 0 < δ → CameraClear a0.lo a0.hi a0.layers δ a0.cam.2.2 →
        (∀ i, 1 ≤ i → i ≤ n → ∀ j, smoke i j ≤ S) → S ≤ 10 → (∀ x ∈ wantedLeds arrays groups k, euclid a0.cam (truth x) ≤ L) →
        (∀ i, 1 ≤ i → i ≤ n → ∀ x ∈ wantedLeds arrays groups k, lineDepth a0.cam (truth x) a0.lo a0.hi (smoke i) + displacementError S L δ (η + 1 / 10 ^ 6) ≤ 23 ∧
          2 * s ≤ Real.exp (-(lineDepth a0.cam (truth x) a0.lo a0.hi (smoke i) + displacementError S L δ (η + 1 / 10 ^ 6)))) →
        (∀ i, 1 ≤ i → i ≤ n → Faint (wantedLeds arrays groups k).length o' s (γ + displacementError S L δ (η + 1 / 10 ^ 6) + 1 / 19999) (smoke i)) →
      ∀ r, (a0.withFiles k ids rows).NonlinearResultOf o' ((a0.withFiles k ids rows).inputOf (frameData f "sum_col_val" k)) r →
        ∃ found : ℕ → Fin a0.layers → ℝ, r = .ok ((firstImgs n).map found) ∧ ∀ i, 1 ≤ i → i ≤ n → (∀ j, 0 ≤ found i j ∧ found i j ≤ 10) ∧
          ∑ j, |found i j - smoke i j| ≤
            8 / c * ((Real.exp (2 * (γ + displacementError S L δ (η + 1 / 10 ^ 6) + 1 / 19999)) - 1) / Real.sqrt (wantedLeds arrays groups k).length +
              curvature (wantedLeds arrays groups k).length o'.curv (smoke i)) + 4 / c * o'.tol := by
  obtain ⟨hnone, rows, c1, c2, c3, c4⟩ := C131_measured maxLoc m h t arrays groups hs o ho fit edges he hp hdis h4 w ch n hcount hn hw infos hi hlen
    root hroot R img hph files hf k hk hasc
  refine ⟨rows, _, c1, c2, ?_⟩
  intro cf hcf hcr
  obtain ⟨f, u, f1, f2, f3⟩ := c4 cf hcf hcr
  refine ⟨f, f1, ?_⟩
  intro a0 truth η hsv hη v hv o' γ emit smoke S L δ s c hw0 hs0 hcon hpref hL0 hprec hl hδ hcam hS hS10 hL hthin hfaint r hr
  obtain ⟨pos, hrow⟩ := c3 a0 truth η hsv
  have hseen := surveyed_seen hsv k rows pos hasc hnone hrow
  have hnoisy := hl.displaced (pos := pos) hsv.domain hδ (by positivity : (0 : ℝ) ≤ η + 1 / 10 ^ 6) hcam hS hL (fun x hx => (hrow x hx).2)
    fun i h1 h2 x hx => (hthin i h1 h2 x hx).1
  have hnoisy' : NoisyLight (a0.withFiles k (wantedLeds arrays groups k).reverse rows) (wantedLeds arrays groups k) pos n u
      (γ + displacementError S L δ (η + 1 / 10 ^ 6) + 1 / 19999) emit smoke := by
    refine ⟨hnoisy.emits, ?_, hnoisy.clear, hnoisy.reference, hnoisy.nonneg, hnoisy.thin⟩
    intro i h1 h2 l hl
    obtain ⟨a, j, old, p, hm, hp, hw⟩ := f3 i h1 h2 l hl
    rw [← hv i l a j old p hm hp] at hw
    exact (hnoisy.light i h1 h2 l hl).trans hw
  rw [f2] at hr
  have hnear := hcon.nearby hnone hsv.domain hs0 hδ hcam hL0 hL (by positivity) hprec (pos := pos) fun x hx => (hrow x hx).2
  have := C146_array (a0.withFiles k (wantedLeds arrays groups k).reverse rows) o' _ pos hseen hw0 s (c / 2) hs0 hnear
    (by show 2 * |o'.pref| ≤ c / 2 * a0.layers; linarith) n u _ emit smoke hnoisy' (fun i h1 h2 k => (hS i h1 h2 k).trans hS10)
    (fun i h1 h2 x hx => (hthin i h1 h2 x hx).2.trans (Real.exp_le_exp.2 (neg_le_neg
      (displaced_depth hsv.domain hδ hcam (smoke i) (hl.nonneg i h1 h2) (hS i h1 h2) (hL x hx) (hrow x hx).2)))) hfaint r hr
  obtain ⟨found, r1, r2⟩ := this
  refine ⟨found, r1, fun i h1 h2 => ⟨(r2 i h1 h2).1, (r2 i h1 h2).2.trans (le_of_eq ?_)⟩⟩
  rw [show 4 / (c / 2) = 8 / c by ring, show 2 / (c / 2) = 4 / c by ring]
  rfl

/-- **C146.** The same from the bench. -/
theorem C146_bench {ι D : Type} [LinearOrder D] [Add D] [Mul D] [DecidableEq ι] (maxLoc : Image ℚ → ℕ × ℕ) (hmax : IsMaxLoc maxLoc) (m : Metric D) (j : Step1Job) (spot : ℕ × ℕ → ι) (spots : Finset ι)
    (peak : ι → ℕ × ℕ) (hb : BenchPhoto maxLoc j spot spots peak) (phys : List (List ι)) (hp : BenchArrays m spots peak phys) (h4 : 4 ≤ phys.flatten.length)
    (hcorner : ∀ c ∈ phys, ∀ f l, c.head? = some f → c.getLast? = some l → (peak f).1 * (peak l).2 ≠ (peak f).2 * (peak l).1)
    (number : ι → ℕ) (hn : NumberedBy (j.table maxLoc) spots peak number) (o : Step2Options)
    (ho : edgeIndices o.edges = phys.map (endNumbers number)) (hig : o.ignore = "None".toList) (hg : o.groups = none)
    (pre h : List ExtCmd) (hh : h = pre ++ [.step1 j, .step2 o] ∨ h = pre ++ [.steps12 j o])
    (fit : List P3 → Plane) (edges : List (P3 × P3)) (he : phys.length ≤ edges.length)
    (w : HdfWorld) (ch n : ℕ) (hcount : w.count w.cwd = .ok (n : ℤ)) (hn0 : 0 < n) (hw : w.cache = none)
    (infos : List InfoRow) (hi : GoodInfos infos) (hlen : n ≤ infos.length) (root : Str) (hroot : '\n' ∉ root)
    (R : ℕ) (img : ℕ → Image ℚ) (hph : ∀ i, PhotographedBench peak phys R (img i)) (files : ℕ → Option Str)
    (hf : ∀ i, 1 ≤ i → i ≤ n → files i =
      (step3File ⟨phys.length, none⟩ (infoFile infos) root ch R 0 (img i) none (natStr i) (runHistory maxLoc m .empty h)).toOption)
    (k : ℕ) (c : List ι) (hk : phys[k]? = some c) (T B : P3) (hTB : edges[k]? = some (T, B)) :
    ∃ rows ids, calculateCoordinates fit phys.length edges (runHistory maxLoc m .empty h) = .ok rows ∧
      loadIndexFile ((runHistory maxLoc m .empty h).index (indexFileName k [])) = .ok (ids.map (Nat.cast : ℕ → ℤ)) ∧
      ∀ (cf : Option (List (ℕ × List ℚ × ℚ × ℚ))), w.coord w.cwd = cf.map asCoord → (∀ c', cf = some c' → List.Forall₂ SameRow rows c') →
      ∃ f, textFrame w ch files = .ok f ∧
      ∀ (a0 : ArrayAnalysis) (place : ι → P3) (η : ℝ), SurveyedBench a0 peak c T B place η → 0 ≤ η →
      ∀ (o' : NonlinearOptions) (γ : ℝ) (emit : ι → ℝ) (smoke : ℕ → Fin a0.layers → ℝ) (S L δ s cc : ℝ),
        0 < o'.curv → 0 < s → CurveConditioned c a0.cam place a0.lo a0.hi a0.layers o'.curv s cc → 4 * |o'.pref| ≤ cc * a0.layers →
        0 ≤ L → 2 * s * ((η + 1 / 10 ^ 6) * (1 + L / δ)) ≤ cc * Real.sqrt c.length →
        BenchLight a0 c place n (fun i s => lightAround (img i) (peak s) R) γ emit smoke → 0 < δ → CameraClear a0.lo a0.hi a0.layers δ a0.cam.2.2 →
        (∀ i, 1 ≤ i → i ≤ n → ∀ j, smoke i j ≤ S) → S ≤ 10 → (∀ x ∈ c, euclid a0.cam (place x) ≤ L) →
        (∀ i, 1 ≤ i → i ≤ n → ∀ x ∈ c, lineDepth a0.cam (place x) a0.lo a0.hi (smoke i) + displacementError S L δ (η + 1 / 10 ^ 6) ≤ 23 ∧
          2 * s ≤ Real.exp (-(lineDepth a0.cam (place x) a0.lo a0.hi (smoke i) + displacementError S L δ (η + 1 / 10 ^ 6)))) →
        (∀ i, 1 ≤ i → i ≤ n → Faint c.length o' s (γ + displacementError S L δ (η + 1 / 10 ^ 6) + 1 / 19999) (smoke i)) →
      ∀ r, (a0.withFiles k ids rows).NonlinearResultOf o' ((a0.withFiles k ids rows).inputOf (frameData f "sum_col_val" k)) r →
        ∃ found : ℕ → Fin a0.layers → ℝ, r = .ok ((firstImgs n).map found) ∧ ∀ i, 1 ≤ i → i ≤ n → (∀ j, 0 ≤ found i j ∧ found i j ≤ 10) ∧
          ∑ j, |found i j - smoke i j| ≤
            8 / cc * ((Real.exp (2 * (γ + displacementError S L δ (η + 1 / 10 ^ 6) + 1 / 19999)) - 1) / Real.sqrt c.length +
              curvature c.length o'.curv (smoke i)) + 4 / cc * o'.tol := by
  obtain ⟨hasc, hnone, rows, g1, g2, g3, g4⟩ := C135_measured maxLoc hmax m j spot spots peak hb phys hp h4 hcorner number hn o ho hig hg pre h hh
    fit edges he w ch n hcount hn0 hw infos hi hlen root hroot R img hph files hf k c hk T B hTB
  refine ⟨rows, _, g1, g2, ?_⟩
  intro cf hcf hcr
  obtain ⟨f, u, f1, f2, f3⟩ := g4 cf hcf hcr
  refine ⟨f, f1, ?_⟩
  intro a0 place η hsv hη o' γ emit smoke S L δ s cc hw0 hs0 hcon hpref hL0 hprec hl hδ hcam hS hS10 hL hthin hfaint r hr
  obtain ⟨pos, hpos⟩ := g3 a0 place η hsv
  have hcm : ∀ s ∈ c, s ∈ phys.flatten := fun s hs => List.mem_flatten.2 ⟨c, List.mem_of_getElem? hk, hs⟩
  have hcne : c ≠ [] := by
    rintro rfl
    exact hnone rfl
  have hseen := bench_seen phys rows c k pos place (a0 := a0) hasc hnone hsv fun s hs => hpos s hs
  have hnoisy := ((bench_light phys c hcm hl).displaced hsv.domain hδ (by positivity) hcam hS
    (fun x hx => by
      obtain ⟨s, hs, rfl⟩ := List.mem_map.1 hx
      rw [benchFun_of phys _ _ s (hcm s hs)]
      exact hL s hs)
    (pos := pos) (ε := η + 1 / 10 ^ 6) (fun x hx => by
      obtain ⟨s, hs, rfl⟩ := List.mem_map.1 hx
      rw [benchFun_of phys _ _ s (hcm s hs)]
      exact (hpos s hs).2)
    (fun i h1 h2 x hx => by
      obtain ⟨s, hs, rfl⟩ := List.mem_map.1 hx
      rw [benchFun_of phys _ _ s (hcm s hs)]
      exact (hthin i h1 h2 s hs).1)).measured (u := u) (ε := 1 / 19999) (fun i h1 h2 x hx => by
      obtain ⟨s, hs, rfl⟩ := List.mem_map.1 hx
      simp only [benchFun_of phys _ _ s (hcm s hs)]
      exact f3 i h1 h2 s hs)
  have hnoisy' : NoisyLight (a0.withFiles k (c.map (benchId phys)).reverse rows) (c.map (benchId phys)) pos n u _ _ smoke :=
    ⟨hnoisy.emits, hnoisy.light, hnoisy.clear, hnoisy.reference, hnoisy.nonneg, hnoisy.thin⟩
  rw [f2] at hr
  have hnear0 := hcon.nearby hcne hsv.domain hs0 hδ hcam hL0 hL (by positivity) hprec (pos := fun s => pos (benchId phys s)) fun s hs => (hpos s hs).2
  have hnear : CurveConditioned (c.map (benchId phys)) a0.cam pos a0.lo a0.hi a0.layers o'.curv s (cc / 2) := by
    refine ⟨hnear0.1, fun x => ?_⟩
    have := hnear0.2 x
    unfold depthsLength at this ⊢
    rw [List.map_map, List.length_map]
    exact this
  have := C146_array (a0.withFiles k (c.map (benchId phys)).reverse rows) o' _ pos hseen hw0 s (cc / 2) hs0 hnear
    (by show 2 * |o'.pref| ≤ cc / 2 * a0.layers; linarith) n u _ _ smoke hnoisy' (fun i h1 h2 k => (hS i h1 h2 k).trans hS10)
    (fun i h1 h2 x hx => by
      obtain ⟨b, hb', rfl⟩ := List.mem_map.1 hx
      exact (hthin i h1 h2 b hb').2.trans (Real.exp_le_exp.2 (neg_le_neg
        (displaced_depth hsv.domain hδ hcam (smoke i) (hl.nonneg i h1 h2) (hS i h1 h2) (hL b hb') (hpos b hb').2))))
    (by rw [List.length_map]; exact hfaint) r hr
  obtain ⟨found, r1, r2⟩ := this
  refine ⟨found, r1, fun i h1 h2 => ⟨(r2 i h1 h2).1, (r2 i h1 h2).2.trans (le_of_eq ?_)⟩⟩
  rw [List.length_map, show 4 / (cc / 2) = 8 / cc by ring,
    show 2 / (cc / 2) = 4 / cc by ring]
  rfl

/-! ### Cases of C146: the column of five LEDs -/

/-- The constant of the column. -/
theorem column_curve (w : ℝ) (hw : 0 < w) : CurveConditioned [0, 1, 2, 3, 4] (5, 0, 2) (fun (x : ℕ) => ((0, 0, 4 - (x : ℝ)) : P3)) (-1) 5 3 w (1 / 5) (1 / 40) := by
  refine ⟨by norm_num, fun x => ?_⟩
  have r0 := column_profile (4 - ((0 : ℕ) : ℝ)) (column_ray 0 (by norm_num)) x
  have r2 := column_profile (4 - ((2 : ℕ) : ℝ)) (column_ray 2 (by norm_num)) x
  have r4 := column_profile (4 - ((4 : ℕ) : ℝ)) (column_ray 4 (by norm_num)) x
  have a0 : above 1 2 (4 - ((0 : ℕ) : ℝ)) = 1 ∧ above 3 2 (4 - ((0 : ℕ) : ℝ)) = 1 / 2 := by unfold above; norm_num
  have a2 : above 1 2 (4 - ((2 : ℕ) : ℝ)) = 1 ∧ above 3 2 (4 - ((2 : ℕ) : ℝ)) = 0 := by unfold above; norm_num
  have a4 : above 1 2 (4 - ((4 : ℕ) : ℝ)) = 1 / 2 ∧ above 3 2 (4 - ((4 : ℕ) : ℝ)) = 0 := by unfold above; norm_num
  rw [a0.1, a0.2] at r0
  rw [a2.1, a2.2] at r2
  rw [a4.1, a4.2] at r4
  have q0 := (column_distance 0 (by norm_num)).1
  have q2 := (column_distance 2 (by norm_num)).1
  have q4 := (column_distance 4 (by norm_num)).1
  have hcurv := (C73_curvature (n := 3) (m := [0, 1, 2, 3, 4].length) (by decide) w hw x).1
  have hV : ∀ i : Fin [0, 1, 2, 3, 4].length, |lineDepth (5, 0, 2) (0, 0, 4 - (([0, 1, 2, 3, 4][i] : ℕ) : ℝ)) (-1) 5 x| ≤
      depthsLength [0, 1, 2, 3, 4] (5, 0, 2) (fun (x : ℕ) => ((0, 0, 4 - (x : ℝ)) : P3)) (-1) 5 x := by
    intro i
    rw [depthsLength_eq]
    exact abs_le_vecLength (fun i : Fin [0, 1, 2, 3, 4].length => lineDepth (5, 0, 2) (0, 0, 4 - (([0, 1, 2, 3, 4][i] : ℕ) : ℝ)) (-1) 5 x) i
  have v0 := hV ⟨0, by decide⟩
  have v2 := hV ⟨2, by decide⟩
  have v4 := hV ⟨4, by decide⟩
  change |lineDepth (5, 0, 2) (0, 0, 4 - ((0 : ℕ) : ℝ)) (-1) 5 x| ≤ _ at v0
  change |lineDepth (5, 0, 2) (0, 0, 4 - ((2 : ℕ) : ℝ)) (-1) 5 x| ≤ _ at v2
  change |lineDepth (5, 0, 2) (0, 0, 4 - ((4 : ℕ) : ℝ)) (-1) 5 x| ≤ _ at v4
  rw [r0, abs_mul, abs_of_pos (by linarith)] at v0
  rw [r2, abs_mul, abs_of_pos (by linarith)] at v2
  rw [r4, abs_mul, abs_of_pos (by linarith)] at v4
  set V := depthsLength [0, 1, 2, 3, 4] (5, 0, 2) (fun (x : ℕ) => ((0, 0, 4 - (x : ℝ)) : P3)) (-1) 5 x
  have w0 := (mul_le_mul_of_nonneg_right q0 (abs_nonneg _)).trans v0
  have w2 := (mul_le_mul_of_nonneg_right q2 (abs_nonneg _)).trans v2
  have w4 := (mul_le_mul_of_nonneg_right q4 (abs_nonneg _)).trans v4
  have e1 : |x 1| ≤ V / 5 := by
    have : x 0 + (x 1 - x 0) * 1 + (x 2 - x 1) * 0 = x 1 := by ring
    rw [this] at w2
    linarith
  have e2 : |x 2| ≤ 3 * V / 5 := by
    have : x 2 = 2 * (x 0 + (x 1 - x 0) * 1 + (x 2 - x 1) * (1 / 2)) - x 1 := by ring
    rw [this]
    refine (abs_sub _ _).trans ?_
    rw [abs_mul, abs_two]
    linarith
  have e0 : |x 0| ≤ 3 * V / 5 := by
    have : x 0 = 2 * (x 0 + (x 1 - x 0) * (1 / 2) + (x 2 - x 1) * 0) - x 1 := by ring
    rw [this]
    refine (abs_sub _ _).trans ?_
    rw [abs_mul, abs_two]
    linarith
  have hV0 : 0 ≤ V := Real.sqrt_nonneg _
  rw [Fin.sum_univ_three]
  have : (1 / 5 : ℝ) / (([0, 1, 2, 3, 4].length : ℕ) : ℝ) * V = V / 25 := by
    simp only [List.length_cons, List.length_nil]
    push_cast
    ring
  rw [this]
  linarith

/-- The column with its coordinates. -/
noncomputable def columnWithLeds : ArrayAnalysis :=
  ⟨(5, 0, 2), -1, 5, 3, (List.range 5).map fun (x : ℕ) => ((0, 0, 4 - (x : ℝ)) : P3), [4, 3, 2, 1, 0], 0, .first 1, 1, false⟩

theorem columnWithLeds_seen : SeenArray columnWithLeds [0, 1, 2, 3, 4] (fun (x : ℕ) => ((0, 0, 4 - (x : ℝ)) : P3)) := by
  refine ⟨rfl, by decide, by simp, ?_, le_rfl, by unfold columnWithLeds; norm_num, fun x hx => column_ray x (column_le x hx)⟩
  intro l hl
  have := column_le l hl
  show ((List.range 5).map fun (x : ℕ) => ((0, 0, 4 - (x : ℝ)) : P3))[l]? = _
  rw [List.getElem?_map, List.getElem?_range (by omega)]
  rfl

/-- C146_array: all hypotheses met by the column in smoke that takes half of the light on 5 m, with a preference for more smoke and a solver that
stops early. -/
example (r : Except PyErr (List (Fin 3 → ℝ))) (hr : columnWithLeds.NonlinearResultOf ⟨1 / 10 ^ 6, -1 / 1000, 1 / 1000⟩ (columnWithLeds.inputOf
      (.ok (tableOf (firstImgs 2) [0, 1, 2, 3, 4] fun i (x : ℕ) =>
        1000 * Real.exp (-lineDepth (5, 0, 2) (0, 0, 4 - (x : ℝ)) (-1) 5 (columnSmoke i))))) r) :
    ∃ found : ℕ → Fin 3 → ℝ, r = .ok [found 1, found 2] ∧ ∑ k, |found 2 k - Real.log 2 / 5| ≤ 2 / 25 := by
  have hlog : Real.log 2 ≤ 7 / 10 := by have := Real.log_two_lt_d9; linarith
  have hlog0 : 0 < Real.log 2 := Real.log_pos (by norm_num)
  have hn := column_noisy
  have haff : ∀ i, Affine (columnSmoke i) := by
    intro i
    unfold columnSmoke
    split
    · exact ⟨Real.log 2 / 5, 0, fun _ => by simp⟩
    · exact ⟨0, 0, fun _ => by simp⟩
  have hcurv : ∀ i, curvature [0, 1, 2, 3, 4].length (1 / 10 ^ 6) (columnSmoke i) = 0 := fun i =>
    (C73_curvature (by decide) _ (by norm_num) _).2.2 (haff i)
  obtain ⟨found, e, hfound⟩ := C146_array columnWithLeds ⟨1 / 10 ^ 6, -1 / 1000, 1 / 1000⟩ _ _ columnWithLeds_seen (by norm_num) (1 / 5) (1 / 40) (by norm_num)
    (column_curve _ (by norm_num)) (by unfold columnWithLeds; norm_num [abs_of_neg]) 2 _ 0 (fun _ => 1000) columnSmoke
    ⟨hn.emits, fun i _ _ l _ => ⟨by simp [columnWithLeds], by simp [columnWithLeds]⟩, hn.clear, hn.reference, hn.nonneg, hn.thin⟩
    (fun i _ _ k => (columnSmoke_le i k).trans (by norm_num))
    (by
      intro i _ _ x hx
      show 2 * (1 / 5) ≤ Real.exp (-lineDepth (5, 0, 2) (0, 0, 4 - (x : ℝ)) (-1) 5 (columnSmoke i))
      have hd : lineDepth (5, 0, 2) (0, 0, 4 - (x : ℝ)) (-1) 5 (columnSmoke i) ≤ 4 / 5 := by
        obtain ⟨d1, d2⟩ := column_distance x (column_le x hx)
        unfold columnSmoke
        split
        · rw [column_depth _ _ (column_le x hx)]
          nlinarith
        · rw [column_depth _ _ (column_le x hx)]
          norm_num
      refine le_trans ?_ (Real.exp_le_exp.2 (neg_le_neg hd))
      rw [Real.exp_neg, le_inv_comm₀ (by norm_num) (Real.exp_pos _)]
      have h2 : Real.exp (4 / 5) ^ 5 = Real.exp 1 ^ 4 := by
        rw [← Real.exp_nat_mul, ← Real.exp_nat_mul]; norm_num
      have h3 : Real.exp 1 ^ 4 ≤ 2.7182818286 ^ 4 := by
        have := Real.exp_one_lt_d9
        gcongr
      have h4 : Real.exp (4 / 5) ^ 5 ≤ (5 / 2) ^ 5 := by rw [h2]; refine h3.trans ?_; norm_num
      refine (le_of_pow_le_pow_left₀ (by norm_num) (by norm_num) h4).trans ?_
      norm_num)
    (by
      intro i _ _
      unfold Faint
      show 2 * (Real.sqrt _ * (Real.exp (2 * 0) - 1)) + _ * (curvature [0, 1, 2, 3, 4].length (1 / 10 ^ 6) (columnSmoke i) + _ + _) ≤ _
      rw [hcurv i, mul_zero, Real.exp_zero, sub_self]
      norm_num [abs_of_neg]) r hr
  refine ⟨found, e, ?_⟩
  have hb := (hfound 2 (by norm_num) le_rfl).2
  have hsm : columnSmoke 2 = fun _ => Real.log 2 / 5 := by simp [columnSmoke]
  have hb' : ∑ k : Fin 3, |found 2 k - columnSmoke 2 k| ≤ 4 / (1 / 40) * ((Real.exp (2 * 0) - 1) / Real.sqrt (([0, 1, 2, 3, 4].length : ℕ) : ℝ) +
      curvature [0, 1, 2, 3, 4].length (1 / 10 ^ 6) (columnSmoke 2)) + 2 / (1 / 40) * (1 / 1000) := hb
  rw [hcurv 2, mul_zero, Real.exp_zero, sub_self, zero_div] at hb'
  rw [hsm] at hb'
  refine hb'.trans ?_
  norm_num

/-- C146_bench: two photos of the column without smoke, all hypotheses met; the nonlinear analysis shows nearly none. -/
theorem column_nonlinear : ∃ rows ids f, calculateCoordinates (fun _ => ⟨0, 1, 0⟩) 1 [((0, 0, 4), (0, 0, 0))]
      (runHistory firstMaxLoc (roundedMetric double) .empty [.step1 columnJob, .step2 (columnOptions "None")]) = .ok rows ∧
    textFrame stripDir 0 (fun i => (step3File ⟨1, none⟩ (infoFile stripInfos) "exp".toList 0 1 0 (columnPhoto 1) none (natStr i)
      (runHistory firstMaxLoc (roundedMetric double) .empty [.step1 columnJob, .step2 (columnOptions "None")])).toOption) = .ok f ∧
    ∀ r, (columnAnalysis.withFiles 0 ids rows).NonlinearResultOf ⟨1 / 10 ^ 6, -1 / 1000, 1 / 10000⟩
        ((columnAnalysis.withFiles 0 ids rows).inputOf (frameData f "sum_col_val" 0)) r →
      ∃ found : ℕ → Fin 3 → ℝ, r = .ok [found 1, found 2] ∧ ∑ j, |found 2 j| ≤ 1 / 10 := by
  obtain ⟨rows, ids, c1, c2, c3⟩ := C146_bench firstMaxLoc isMaxLoc_firstMaxLoc (roundedMetric double) columnJob (fun p => p.1 / 3) {0, 1, 2, 3, 4} columnPeak
    column_bench [[0, 1, 2, 3, 4]] column_arrays (by decide) column_corner id column_numbered (columnOptions "None") (by decide +kernel) rfl rfl [] _
    (Or.inl rfl) (fun _ => ⟨0, 1, 0⟩) [((0, 0, 4), (0, 0, 0))]
    (by simp) stripDir 0 2 rfl (by norm_num) rfl stripInfos strip_infos (by decide) "exp".toList (by decide +kernel) 1 (fun _ => columnPhoto 1)
    (fun _ => column_photographed 1) _ (fun i _ _ => rfl) 0 [0, 1, 2, 3, 4] rfl (0, 0, 4) (0, 0, 0) rfl
  obtain ⟨f, f1, f2⟩ := c3 none rfl (by simp)
  refine ⟨rows, ids, f, c1, f1, fun r hr => ?_⟩
  have hg : Real.exp (2 * (0 + displacementError 0 (27 / 5) 1 (0 + 1 / 10 ^ 6) + 1 / 19999)) - 1 ≤ 1 / 9000 := by
    have h1 : 2 * (0 + displacementError 0 (27 / 5) 1 (0 + 1 / 10 ^ 6) + 1 / 19999) = 2 / 19999 := by unfold displacementError; norm_num
    rw [h1]
    have h2 := Real.one_sub_le_exp_neg (2 / 19999)
    have h3 : Real.exp (2 / 19999) * Real.exp (-(2 / 19999)) = 1 := by rw [← Real.exp_add, add_neg_cancel, Real.exp_zero]
    have h4 := Real.exp_pos (2 / 19999 : ℝ)
    nlinarith
  have hg0 : 0 ≤ Real.exp (2 * (0 + displacementError 0 (27 / 5) 1 (0 + 1 / 10 ^ 6) + 1 / 19999)) - 1 := by
    have := Real.one_le_exp (x := 2 * (0 + displacementError 0 (27 / 5) 1 (0 + 1 / 10 ^ 6) + 1 / 19999)) (by unfold displacementError; norm_num)
    linarith
  have hs5 : Real.sqrt (([0, 1, 2, 3, 4].length : ℕ) : ℝ) ≤ 3 ∧ 1 ≤ Real.sqrt (([0, 1, 2, 3, 4].length : ℕ) : ℝ) := by
    constructor
    · rw [Real.sqrt_le_left (by norm_num)]
      norm_num
    · rw [Real.le_sqrt (by norm_num) (by norm_num)]
      norm_num
  have hcurv : curvature [0, 1, 2, 3, 4].length (1 / 10 ^ 6) (fun _ : Fin 3 => 0) = 0 :=
    (C73_curvature (by decide) _ (by norm_num) _).2.2 ⟨0, 0, fun _ => by simp⟩
  obtain ⟨found, e, hfound⟩ := f2 columnAnalysis _ 0 column_bench_surveyed le_rfl ⟨1 / 10 ^ 6, -1 / 1000, 1 / 10000⟩ 0 (fun _ => 1000) (fun _ _ => 0)
      0 (27 / 5) 1 (1 / 5) (1 / 40) (by norm_num) (by norm_num) (column_curve _ (by norm_num)) (by unfold columnAnalysis; norm_num [abs_of_neg]) (by norm_num)
      (le_trans (by norm_num : _ ≤ 1 / 40 * (1 : ℝ)) (mul_le_mul_of_nonneg_left hs5.2 (by norm_num)))
      ⟨fun _ _ => by norm_num, by
        intro i h1 h2 s hs
        have e : lightAround (columnPhoto 1) (columnPeak s) 1 = 1000 := by
          unfold lightAround
          have e2 : (∑ q ∈ area (columnPhoto 1) (columnPeak s).1 (columnPeak s).2 1, (columnPhoto 1).px q.1 q.2 : ℚ) = if 1 = 2 then 500 else 1000 :=
            column_light 1 s _ (column_rows s hs)
          rw [e2]
          norm_num
        show Within 0 (lightAround (columnPhoto 1) (columnPeak s) 1) _
        rw [e, lineDepth_zero]
        unfold Within
        norm_num, fun _ _ _ _ => rfl, ⟨1, le_rfl, by norm_num, by simp [columnAnalysis, RefChoice.selects]⟩, fun _ _ _ _ => le_rfl, by
        intro i _ _ s _
        rw [lineDepth_zero]
        norm_num⟩ (by norm_num)
      ⟨1, by decide, by unfold columnAnalysis; norm_num, by unfold columnAnalysis; norm_num⟩ (fun _ _ _ _ => le_rfl) (by norm_num)
      (fun x hx => (column_distance x (column_le x hx)).2)
      (by
        intro i _ _ x hx
        rw [lineDepth_zero]
        unfold displacementError
        norm_num)
      (by
        intro i _ _
        unfold Faint
        show 2 * (Real.sqrt _ * _) + _ * (curvature [0, 1, 2, 3, 4].length (1 / 10 ^ 6) (fun _ : Fin 3 => 0) + _ + _) ≤ _
        rw [hcurv]
        have hp := mul_le_mul hs5.1 hg hg0 (by norm_num)
        have h5 : (([0, 1, 2, 3, 4].length : ℕ) : ℝ) * (0 + 10 * |(-1 / 1000 : ℝ)| + 1 / 10000) ≤ 1 / 10 := by norm_num [abs_of_neg]
        linarith) r hr
  refine ⟨found, e, ?_⟩
  have hb := (hfound 2 (by norm_num) le_rfl).2
  have hb' : ∑ k : Fin 3, |found 2 k - 0| ≤ 8 / (1 / 40) * ((Real.exp (2 * (0 + displacementError 0 (27 / 5) 1 (0 + 1 / 10 ^ 6) + 1 / 19999)) - 1) /
      Real.sqrt (([0, 1, 2, 3, 4].length : ℕ) : ℝ) + curvature [0, 1, 2, 3, 4].length (1 / 10 ^ 6) (fun _ : Fin 3 => 0)) + 4 / (1 / 40) * (1 / 10000) := hb
  rw [hcurv] at hb'
  simp only [sub_zero] at hb'
  have hdiv := div_le_self hg0 hs5.2
  refine hb'.trans ?_
  linarith

end Ledsa
