import Verif.Model.RoundedNonlinear
import Verif.Props.MergedBench

/-!
# The nonlinear analysis in floating point (C152)
-/

namespace Ledsa

/-! ### Light and optical depths -/

/-- Light through nearly the same depth. -/
theorem exp_near {x y d : ℝ} (hx : 0 ≤ x) (hy : 0 ≤ y) (h : |x - y| ≤ d) : |Real.exp (-x) - Real.exp (-y)| ≤ d := by
  have aux : ∀ a b : ℝ, 0 ≤ a → a ≤ b → |Real.exp (-a) - Real.exp (-b)| ≤ b - a := by
    intro a b ha hab
    have h1 : Real.exp (-b) ≤ Real.exp (-a) := Real.exp_le_exp.2 (by linarith)
    rw [abs_of_nonneg (by linarith)]
    have h2 := Real.add_one_le_exp (-(b - a))
    have h3 : Real.exp (-a) ≤ 1 := Real.exp_le_one_iff.2 (by linarith)
    have h4 : Real.exp (-b) = Real.exp (-a) * Real.exp (-(b - a)) := by rw [← Real.exp_add]; ring_nf
    rw [h4]
    have h5 := Real.exp_pos (-a)
    nlinarith
  rcases le_total x y with hxy | hxy
  · refine (aux x y hx hxy).trans ?_
    have := (abs_le.1 h).1
    linarith
  · rw [abs_sub_comm]
    refine (aux y x hy hxy).trans ?_
    have := (abs_le.1 h).2
    linarith

/-- Light through a depth that is right up to a factor: however thick the smoke, the error is that of the factor. -/
theorem exp_within {η x y : ℝ} (hη : 0 ≤ η) (hy : 0 ≤ y) (h : Within η x y) : |Real.exp (-x) - Real.exp (-y)| ≤ Real.exp η - 1 := by
  have hg : 1 ≤ Real.exp η := Real.one_le_exp hη
  have aux : ∀ a b : ℝ, 0 ≤ a → a ≤ b → b ≤ a * Real.exp η → |Real.exp (-a) - Real.exp (-b)| ≤ Real.exp η - 1 := by
    intro a b ha hab hb
    have h1 : Real.exp (-b) ≤ Real.exp (-a) := Real.exp_le_exp.2 (by linarith)
    rw [abs_of_nonneg (by linarith)]
    have h2 := Real.add_one_le_exp (-(b - a))
    have h4 : Real.exp (-b) = Real.exp (-a) * Real.exp (-(b - a)) := by rw [← Real.exp_add]; ring_nf
    have h5 := Real.exp_pos (-a)
    have h6 : a * Real.exp (-a) ≤ 1 := by
      have h7 := Real.add_one_le_exp a
      have h8 : Real.exp a * Real.exp (-a) = 1 := by rw [← Real.exp_add, add_neg_cancel, Real.exp_zero]
      nlinarith
    rw [h4]
    have h9 : Real.exp (-a) - Real.exp (-a) * Real.exp (-(b - a)) ≤ Real.exp (-a) * (b - a) := by nlinarith
    have h10 : Real.exp (-a) * (b - a) ≤ Real.exp (-a) * (a * (Real.exp η - 1)) := mul_le_mul_of_nonneg_left (by linarith) h5.le
    have h11 : a * Real.exp (-a) * (Real.exp η - 1) ≤ 1 * (Real.exp η - 1) := mul_le_mul_of_nonneg_right h6 (by linarith)
    linarith
  have hx := h.nonneg hy
  rcases le_total x y with hxy | hxy
  · exact aux x y hx hxy h.symm.2
  · rw [abs_sub_comm]
    exact aux y x hy hxy h.2

theorem vecLength_const_le {m : ℕ} (v : Fin m → ℝ) (d : ℝ) (hd : 0 ≤ d) (h : ∀ i, |v i| ≤ d) : vecLength v ≤ Real.sqrt m * d := by
  refine (vecLength_mono v (fun _ => d) fun i => by rw [abs_of_nonneg hd]; exact h i).trans (le_of_eq ?_)
  unfold vecLength
  rw [Finset.sum_const, Finset.card_univ, Fintype.card_fin, nsmul_eq_mul, Real.sqrt_mul (Nat.cast_nonneg m), Real.sqrt_sq hd]

/-- The cost for other distances that let nearly the same light through. -/
theorem cost_near {m n : ℕ} (A A' : Fin m → Fin n → ℝ) (w p : ℝ) (target : Fin m → ℝ) (τ : Fin n → ℝ) (d : ℝ) (hd : 0 ≤ d)
    (h : ∀ i, |Real.exp (-depth τ (A i)) - Real.exp (-depth τ (A' i))| ≤ d) :
    costFunction A w p target τ ≤ costFunction A' w p target τ + Real.sqrt m * d / m := by
  unfold costFunction
  rw [rmse_eq, rmse_eq]
  have h1 : vecLength (fun i => Real.exp (-depth τ (A i)) - target i) ≤
      vecLength (fun i => Real.exp (-depth τ (A' i)) - target i) + Real.sqrt m * d := by
    have e : (fun i => Real.exp (-depth τ (A i)) - target i) = fun i =>
        (Real.exp (-depth τ (A' i)) - target i) + (Real.exp (-depth τ (A i)) - Real.exp (-depth τ (A' i))) := by
      funext i
      ring
    rw [e]
    exact (vecLength_add _ _).trans (add_le_add le_rfl (vecLength_const_le _ d hd h))
  have h2 := div_le_div_of_nonneg_right h1 (Nat.cast_nonneg m : (0 : ℝ) ≤ m)
  rw [add_div] at h2
  linarith

/-- Nearly best for the rounded distances, nearly best for the distances. -/
theorem NearBest.transfer {m n : ℕ} {A A' : Fin m → Fin n → ℝ} {o : NonlinearOptions} {target : Fin m → ℝ} {x : Fin n → ℝ}
    (hx : NearBest A o target x) (d : ℝ) (hd : 0 ≤ d)
    (h : ∀ τ, InBounds τ → ∀ i, |Real.exp (-depth τ (A i)) - Real.exp (-depth τ (A' i))| ≤ d) :
    NearBest A' { o with tol := o.tol + 2 * (Real.sqrt m * d / m) } target x := by
  obtain ⟨hb, hmin⟩ := hx
  refine ⟨hb, fun τ hτ => ?_⟩
  have h1 := cost_near A' A o.curv o.pref target x d hd fun i => by rw [abs_sub_comm]; exact h x hb i
  have h2 := cost_near A A' o.curv o.pref target τ d hd fun i => h τ hτ i
  have h3 := hmin τ hτ
  show costFunction A' o.curv o.pref target x ≤ costFunction A' o.curv o.pref target τ + (o.tol + 2 * (Real.sqrt m * d / m))
  linarith

namespace Machine

variable (M : Machine)

/-- What the roundings of distances and borders make of light that comes through smoke of at most 10 per metre. -/
noncomputable def lightError (n : ℕ) (lo hi L δ : ℝ) : ℝ := Real.exp M.distErr - 1 + M.borderError n lo hi 10 L δ

/-- The accuracy of the solver together with the roundings of the distances to `m` LEDs. -/
noncomputable def looser (o : NonlinearOptions) (m n : ℕ) (lo hi L δ : ℝ) : NonlinearOptions :=
  { o with tol := o.tol + 2 * M.lightError n lo hi L δ / Real.sqrt m }

/-- **C152, analysis.** The nonlinear analysis of an LED array in floating point: the coefficients of every image are near those of the smoke. -/
theorem C152_array (a : ArrayAnalysis) (o : NonlinearOptions) (leds : List ℕ) (pos : ℕ → P3) (h : SeenArray a leds pos) (hw : 0 < o.curv)
    (s c : ℝ) (hs : 0 < s) (hcon : CurveConditioned leds a.cam pos a.lo a.hi a.layers o.curv s c) (hwp : 2 * |o.pref| ≤ c * a.layers) (N : ℕ)
    (v : ℕ → ℕ → ℝ) (γ : ℝ) (hγ : 0 ≤ γ) (emit : ℕ → ℝ) (smoke : ℕ → Fin a.layers → ℝ) (hv : NoisyLight a leds pos N v γ emit smoke)
    (L δ : ℝ) (hL : ∀ l ∈ leds, Ledsa.euclid a.cam (pos l) ≤ L) (hδ : 0 < δ)
    (hcam : CameraClear a.lo a.hi a.layers δ a.cam.2.2) (hfit : M.Fits a N L δ)
    (h10 : ∀ i, 1 ≤ i → i ≤ N → ∀ k, smoke i k ≤ 10)
    (hbright : ∀ i, 1 ≤ i → i ≤ N → ∀ l ∈ leds, 2 * s ≤ Real.exp (-lineDepth a.cam (pos l) a.lo a.hi (smoke i)))
    (hfaint : ∀ i, 1 ≤ i → i ≤ N → Faint leds.length (M.looser o leds.length a.layers a.lo a.hi L δ) s (γ + 9 * M.u) (smoke i))
    (r : Except PyErr (List (Fin a.layers → ℝ))) (hr : M.NonlinearArrayResult a o (.ok (tableOf (firstImgs N) leds v)) r) :
    ∃ found : ℕ → Fin a.layers → ℝ, r = .ok ((firstImgs N).map found) ∧ ∀ i, 1 ≤ i → i ≤ N → (∀ k, 0 ≤ found i k ∧ found i k ≤ 10) ∧
      ∑ k, |found i k - smoke i k| ≤
        4 / c * ((Real.exp (2 * (γ + 9 * M.u)) - 1) / Real.sqrt leds.length + curvature leds.length o.curv (smoke i)) +
          2 / c * (M.looser o leds.length a.layers a.lo a.hi L δ).tol := by
  have hu := M.u_nonneg
  have hww := M.w_nonneg
  have h3 := h.layers
  have hnd : leds.Nodup := h.ascending.imp fun h => Nat.ne_of_lt h
  obtain ⟨i0, hi1, hi2, hi3⟩ := hv.reference
  have hN : 0 < N := by omega
  have hne' : (firstImgs N).filter a.ref.selects ≠ [] :=
    List.ne_nil_of_mem (List.mem_filter.2 ⟨(mem_firstImgs N i0).2 ⟨hi1, hi2⟩, hi3⟩)
  obtain ⟨l0, hl0⟩ := List.exists_mem_of_ne_nil leds h.nonempty
  have hL0 : 0 ≤ L := (euclid_nonneg _ _).trans (hL l0 hl0)
  have hη := M.distErr_nonneg
  set B := M.borderError a.layers a.lo a.hi 10 L δ with hB
  have hB0 : 0 ≤ B := by rw [hB]; unfold borderError; positivity
  have hlight : M.lightError a.layers a.lo a.hi L δ = Real.exp M.distErr - 1 + B := rfl
  have hd0 : 0 ≤ M.lightError a.layers a.lo a.hi L δ := by
    rw [hlight]
    have := Real.one_le_exp hη
    linarith
  have hsmall : 4 * M.u * a.layers ≤ 1 := by
    have := hfit.layers
    nlinarith
  obtain ⟨hT, hlen, _⟩ := M.C124_layers a.lo a.hi a.layers (by omega) h.domain hfit.lo hfit.hi hsmall
  set ls := M.layers a.lo a.hi a.layers with hls
  -- the input
  have hpos : ledPositions a.coordinates a.ids = .ok (leds.reverse.map pos) := by
    unfold ledPositions
    rw [h.ids]
    have : leds.reverse.mapM (fun i => a.coordinates[i]?) = some (leds.reverse.map pos) :=
      mapM_option_some _ _ _ fun i hi => h.positions i (List.mem_reverse.1 hi)
    rw [this]
  unfold NonlinearArrayResult at hr
  rw [hpos] at hr
  simp only at hr
  rw [M.rel_tableOf a.ref N hN leds v h.ascending h.nonempty hne' a.parallel] at hr
  obtain ⟨rows, rs, hrows, hrs, rfl⟩ := hr
  -- the distances
  unfold DistanceArray distanceRows at hrows
  rw [List.map_id, ← List.map_reverse, List.reverse_reverse, List.forall₂_map_left_iff] at hrows
  obtain ⟨g, rfl, hg⟩ := forall₂_choose _ leds rows hnd hrows
  have hex : ∀ l, ∃ d : List ℝ, l ∈ leds → g l = some d ∧ M.DistResult a.cam (pos l) ls (.dists d) := by
    intro l
    by_cases hl : l ∈ leds
    · obtain ⟨r, hr1, hr2⟩ := hg l hl
      obtain ⟨d, rfl, _⟩ := (M.C124_accepted a.cam (pos l) ls a.lo a.hi hT (h.rays l hl) (by rw [hlen]; exact hfit.layers) (by
        rw [hlen]
        refine le_trans ?_ hfit.far
        exact mul_le_mul_of_nonneg_left (hL l hl) (by positivity))).2 r hr1
      exact ⟨d, fun _ => ⟨hr2, hr1⟩⟩
    · exact ⟨[], fun h => absurd h hl⟩
  choose ds hds using hex
  have hgd : leds.map g = leds.map fun l => some (ds l) := List.map_congr_left fun l hl => (hds l hl).1
  rw [hgd] at hrs
  have hm : 0 < leds.length := List.length_pos_iff.2 h.nonempty
  have hm' : (0 : ℝ) < leds.length := by exact_mod_cast hm
  have hr0 : 0 < Real.sqrt leds.length := Real.sqrt_pos.2 hm'
  obtain ⟨hc, hsee⟩ := hcon
  have hdepth : ∀ l ∈ leds, ∀ τ : Fin a.layers → ℝ, InBounds τ →
      |Real.exp (-depth τ (entry a.layers (ds l))) - Real.exp (-lineDepth a.cam (pos l) a.lo a.hi τ)| ≤ M.lightError a.layers a.lo a.hi L δ := by
    intro l hl τ hτ
    have h1 := M.rows_within a.cam (pos l) (h.rays l hl).ne ls (ds l) (hds l hl).2 (M.onLayers τ) (fun k => (hτ _).1)
    have e : depth (M.onLayers τ) (entry ls.length (ds l)) = depth τ (entry a.layers (ds l)) := by
      unfold depth
      rw [← Equiv.sum_comp (finCongr (M.layers_length a.lo a.hi a.layers).symm)]
      rfl
    rw [e] at h1
    have h0 := rayDepth_nonneg a.cam (pos l) ls (M.onLayers τ) (fun k => (hτ _).1)
    have h2 := exp_within hη h0 h1
    have h4 := M.depthThrough_near a.cam (pos l) a.lo a.hi h.domain (by omega) hfit.lo hfit.hi hsmall τ 10 L δ hτ (hL l hl) hδ hfit.borders hcam
    have h5 := exp_near (lineDepth_nonneg a leds pos h τ (fun k => (hτ k).1) l hl) h0 h4
    rw [hlight]
    rw [abs_le] at h2 h5 ⊢
    have e' : rayDepth a.cam (pos l) ls (M.onLayers τ) = M.depthThrough a.cam (pos l) a.lo a.hi τ := rfl
    constructor <;> linarith [h2.1, h2.2, h5.1, h5.2]
  have himg : ∀ i ∈ firstImgs N, ∀ r', NonlinearImage a.layers (leds.map fun l => some (ds l)) o
      (leds.map fun l => M.relIntensity (((firstImgs N).filter a.ref.selects).map fun j => v j l) (v i l)) r' →
      ∃ x, r' = .ok x ∧ (∀ k, 0 ≤ x k ∧ x k ≤ 10) ∧
      ∑ k, |x k - smoke i k| ≤
        4 / c * ((Real.exp (2 * (γ + 9 * M.u)) - 1) / Real.sqrt leds.length + curvature leds.length o.curv (smoke i)) +
          2 / c * (M.looser o leds.length a.layers a.lo a.hi L δ).tol := by
    intro i hi r' hr'
    obtain ⟨h1, h2⟩ := (mem_firstImgs N i).1 hi
    unfold NonlinearImage at hr'
    have hM : (leds.map fun l => some (ds l)).mapM id = some (leds.map ds) := by
      rw [← mapM_id_some (leds.map ds), List.map_map]; rfl
    rw [hM] at hr'
    simp only at hr'
    rw [if_pos (by simp)] at hr'
    obtain ⟨x, rfl, hx⟩ := hr'
    have hlt : ∀ j : Fin (leds.map ds).length, (j : ℕ) < leds.length := fun j => by have := j.2; simpa using this
    have hmem : ∀ j : Fin (leds.map ds).length, leds[(j : ℕ)]'(hlt j) ∈ leds := fun j => List.getElem_mem _
    have hlen : (leds.map ds).length = leds.length := List.length_map _
    -- the distances without roundings
    set A' : Fin (leds.map ds).length → Fin a.layers → ℝ := fun j k => lineDepth a.cam (pos (leds[(j : ℕ)]'(hlt j))) a.lo a.hi (onlyLayer k) with hA'
    have hdep : ∀ (j : Fin (leds.map ds).length) (τ : Fin a.layers → ℝ), depth τ (A' j) =
        lineDepth a.cam (pos (leds[(j : ℕ)]'(hlt j))) a.lo a.hi τ := by
      intro j τ
      unfold depth
      rw [lineDepth_rayIn, hA']
      exact Finset.sum_congr rfl fun k _ => by simp only; rw [lineDepth_only]
    have hrow : ∀ j : Fin (leds.map ds).length, (distEntry (leds.map ds) j : Fin a.layers → ℝ) = entry a.layers (ds (leds[(j : ℕ)]'(hlt j))) := by
      intro j
      funext k
      unfold distEntry entry
      congr 1
      simp
    have hx' := hx.transfer (A' := A') (M.lightError a.layers a.lo a.hi L δ) hd0 fun τ hτ j => by
      rw [hdep, hrow]
      exact hdepth _ (hmem j) τ hτ
    have ho : ({ o with tol := o.tol + 2 * (Real.sqrt (leds.map ds).length * M.lightError a.layers a.lo a.hi L δ / (leds.map ds).length) } : NonlinearOptions) =
        M.looser o leds.length a.layers a.lo a.hi L δ := by
      unfold looser
      rw [hlen]
      congr 2
      rw [← mul_div_assoc, div_eq_div_iff hm'.ne' hr0.ne']
      linear_combination 2 * M.lightError a.layers a.lo a.hi L δ * Real.mul_self_sqrt hm'.le
    rw [ho] at hx'
    have hvec : ∀ τ : Fin a.layers → ℝ, vecLength (fun j => depth τ (A' j)) = depthsLength leds a.cam pos a.lo a.hi τ := by
      intro τ
      rw [depthsLength_eq]
      simp only [hdep]
      unfold vecLength
      congr 1
      rw [← Equiv.sum_comp (finCongr hlen)]
      rfl
    set target : Fin (leds.map ds).length → ℝ := fun j =>
      (leds.map fun l => M.relIntensity (((firstImgs N).filter a.ref.selects).map fun j => v j l) (v i l)).getD j 0 with ht
    have hγ2 : 0 ≤ 2 * (γ + 9 * M.u) := by linarith
    have hnn : 0 ≤ Real.exp (2 * (γ + 9 * M.u)) - 1 := by have := Real.one_le_exp hγ2; linarith
    have hvl : vecLength (fun j => target j - Real.exp (-depth (smoke i) (A' j))) ≤
        Real.sqrt leds.length * (Real.exp (2 * (γ + 9 * M.u)) - 1) := by
      rw [← hlen]
      refine vecLength_const_le _ _ hnn fun j => ?_
      rw [hdep]
      have hl := hmem j
      generalize hll : leds[(j : ℕ)]'(hlt j) = l at hl
      have e : target j = M.relIntensity (((firstImgs N).filter a.ref.selects).map fun j => v j l) (v i l) := by
        rw [ht]
        simp only
        rw [List.getD_eq_getElem?_getD, List.getElem?_map, List.getElem?_eq_getElem (hlt j), ← hll]
        rfl
      rw [e]
      refine within_sub ?_ (Real.exp_pos _).le ?_ hγ2
      · have k1 := M.mean_near (((firstImgs N).filter a.ref.selects).map fun j => v j l) (hv.emits l hl) (by simpa using hne') (γ := γ)
          (fun r hr => by
            obtain ⟨j, hj, rfl⟩ := List.mem_map.1 hr
            rw [List.mem_filter, mem_firstImgs] at hj
            have := hv.light j hj.1.1 hj.1.2 l hl
            rwa [hv.clear j hj.1.1 hj.1.2 hj.2, lineDepth_zero, neg_zero, Real.exp_zero, mul_one] at this)
          (by
            rw [List.length_map]
            have : (((firstImgs N).filter a.ref.selects).length : ℝ) ≤ N := by
              have := List.length_filter_le a.ref.selects (firstImgs N)
              have e : (firstImgs N).length = N := by simp [firstImgs]
              rw [e] at this
              exact_mod_cast this
            refine le_trans (mul_le_mul_of_nonneg_left this (by positivity)) hfit.images)
        have k2 := (hv.light i h1 h2 l hl).div k1 (mul_nonneg (hv.emits l hl).le (Real.exp_pos _).le) (hv.emits l hl)
        rw [mul_div_cancel_left₀ _ (hv.emits l hl).ne'] at k2
        have k3 := k2.trans (M.rnd_within (k2.nonneg (Real.exp_pos _).le))
        unfold relIntensity
        refine k3.mono (Real.exp_pos _).le ?_
        linarith
      · rw [Real.exp_le_one_iff]
        have := lineDepth_nonneg a leds pos h _ (hv.nonneg i h1 h2) _ hl
        linarith
    have hfa := hfaint i h1 h2
    unfold Faint at hfa
    have := nearBest_error_le (by rw [hlen]; exact hm) (by omega) A' (M.looser o leds.length a.layers a.lo a.hi L δ) hw hs hc
      (fun z => by rw [hvec, hlen]; exact hsee z) hwp (smoke i) (fun k => ⟨hv.nonneg i h1 h2 k, h10 i h1 h2 k⟩) target
      (fun j => by rw [hdep]; exact hbright i h1 h2 _ (hmem j))
      _ hvl (by rw [hlen]; exact hfa) x hx'
    refine ⟨x, rfl, hx.1, this.trans (le_of_eq ?_)⟩
    rw [hlen]
    have e1 : Real.sqrt leds.length * (Real.exp (2 * (γ + 9 * M.u)) - 1) / leds.length =
        (Real.exp (2 * (γ + 9 * M.u)) - 1) / Real.sqrt leds.length := by
      rw [div_eq_div_iff hm'.ne' hr0.ne']
      linear_combination (Real.exp (2 * (γ + 9 * M.u)) - 1) * Real.mul_self_sqrt hm'.le
    rw [e1]
    rfl
  obtain ⟨found, rfl, hfound⟩ := collect_images _ _ _ (firstImgs N) ((firstImgs_sorted N).imp fun h => h.ne) himg rs hrs
  exact ⟨found, mapM_id_ok _, fun i h1 h2 => hfound i ((mem_firstImgs N i).2 ⟨h1, h2⟩)⟩

/-- **C152, analysis.** There is something for the analysis to return. -/
theorem C152_exists (a : ArrayAnalysis) (o : NonlinearOptions) (ho : 0 ≤ o.tol) (leds : List ℕ) (pos : ℕ → P3) (h : SeenArray a leds pos) (N : ℕ)
    (v : ℕ → ℕ → ℝ) (L δ : ℝ) (hL : ∀ l ∈ leds, Ledsa.euclid a.cam (pos l) ≤ L) (hfit : M.Fits a N L δ) (hN : 0 < N)
    (hne : (firstImgs N).filter a.ref.selects ≠ []) :
    ∃ r, M.NonlinearArrayResult a o (.ok (tableOf (firstImgs N) leds v)) r := by
  have hu := M.u_nonneg
  have hw := M.w_nonneg
  have h3 := h.layers
  have hsmall : 4 * M.u * a.layers ≤ 1 := by
    have := hfit.layers
    nlinarith
  obtain ⟨hT, hlen, _⟩ := M.C124_layers a.lo a.hi a.layers (by omega) h.domain hfit.lo hfit.hi hsmall
  have hpos : ledPositions a.coordinates a.ids = .ok (leds.reverse.map pos) := by
    unfold ledPositions
    rw [h.ids]
    have : leds.reverse.mapM (fun i => a.coordinates[i]?) = some (leds.reverse.map pos) :=
      mapM_option_some _ _ _ fun i hi => h.positions i (List.mem_reverse.1 hi)
    rw [this]
  have hex : ∀ l, ∃ d : List ℝ, l ∈ leds → M.DistResult a.cam (pos l) (M.layers a.lo a.hi a.layers) (.dists d) := by
    intro l
    by_cases hl : l ∈ leds
    · obtain ⟨⟨r, hr⟩, hall⟩ := M.C124_accepted a.cam (pos l) _ a.lo a.hi hT (h.rays l hl) (by rw [hlen]; exact hfit.layers) (by
        rw [hlen]
        refine le_trans ?_ hfit.far
        exact mul_le_mul_of_nonneg_left (hL l hl) (by positivity))
      obtain ⟨d, rfl, _⟩ := hall r hr
      exact ⟨d, fun _ => hr⟩
    · exact ⟨[], fun h => absurd h hl⟩
  choose ds hds using hex
  unfold NonlinearArrayResult
  rw [hpos]
  simp only
  rw [M.rel_tableOf a.ref N hN leds v h.ascending h.nonempty hne a.parallel]
  simp only
  have himg : ∀ i, ∃ r, NonlinearImage a.layers (leds.map fun l => some (ds l)) o (leds.map fun l =>
      M.relIntensity (((firstImgs N).filter a.ref.selects).map fun j => v j l) (v i l)) r := by
    intro i
    unfold NonlinearImage
    have hM : (leds.map fun l => some (ds l)).mapM id = some (leds.map ds) := by
      rw [← mapM_id_some (leds.map ds), List.map_map]; rfl
    rw [hM]
    simp only
    have hlen2 : (leds.map fun l => M.relIntensity (((firstImgs N).filter a.ref.selects).map fun j => v j l) (v i l)).length = (leds.map ds).length := by
      simp
    simp only [if_pos hlen2]
    obtain ⟨x, hx1, hx2⟩ := bestFit_exists (n := a.layers) (distEntry (leds.map ds)) o.curv o.pref (fun i' => (leds.map fun l =>
      M.relIntensity (((firstImgs N).filter a.ref.selects).map fun j => v j l) (v i l)).getD i' 0)
    exact ⟨_, x, rfl, hx1, fun τ hτ => (hx2 τ hτ).trans (by linarith)⟩
  choose res hres using himg
  refine ⟨_, leds.map fun l => some (ds l), (firstImgs N).map res, ?_, ?_, rfl⟩
  · unfold DistanceArray distanceRows
    rw [List.map_id, ← List.map_reverse, List.reverse_reverse, List.forall₂_map_left_iff, List.forall₂_map_right_iff, List.forall₂_same]
    exact fun l hl => ⟨_, hds l hl, rfl⟩
  · rw [List.forall₂_map_left_iff, List.forall₂_map_right_iff, List.forall₂_same]
    exact fun i _ => hres i

end Machine

variable {ι D : Type} [LinearOrder D] [Add D] [Mul D]

/-- **C152.** From the bench to the coefficients with the nonlinear solver in floating point. -/
theorem C152_bench [DecidableEq ι] (maxLoc : Image ℚ → ℕ × ℕ) (hmax : IsMaxLoc maxLoc) (m : Metric D) (j : Step1Job) (spot : ℕ × ℕ → ι) (spots : Finset ι)
    (peak : ι → ℕ × ℕ) (hb : BenchPhoto maxLoc j spot spots peak) (phys : List (List ι)) (hp : BenchArrays m spots peak phys)
    (number : ι → ℕ) (hn : NumberedBy (j.table maxLoc) spots peak number) (o : Step2Options)
    (ho : edgeIndices o.edges = phys.map (endNumbers number)) (kept : List (List ι)) (hkept : kept = keptArrays number o.ignore phys)
    (hgr : GoodGroups phys.length o.groups)
    (h4 : 4 ≤ ((List.range (groupCount kept o.groups)).map (benchGroup kept o.groups)).flatten.length)
    (hcorner : ∀ c ∈ kept, ∃ f l, c.head? = some f ∧ c.getLast? = some l ∧ (peak f).1 * (peak l).2 ≠ (peak f).2 * (peak l).1)
    (pre h : List ExtCmd) (hh : h = pre ++ [.step1 j, .step2 o] ∨ h = pre ++ [.steps12 j o])
    (fit : List P3 → Plane) (edges : List (P3 × P3)) (he : phys.length ≤ edges.length)
    (w : HdfWorld) (ch n : ℕ) (hcount : w.count w.cwd = .ok (n : ℤ)) (hn0 : 0 < n) (hw : w.cache = none)
    (infos : List InfoRow) (hi : GoodInfos infos) (hlen : n ≤ infos.length) (root : Str) (hroot : '\n' ∉ root)
    (R : ℕ) (img : ℕ → Image ℚ) (hph : ∀ i, PhotographedBench peak kept R (img i)) (files : ℕ → Option Str)
    (hf : ∀ i, 1 ≤ i → i ≤ n → files i =
      (step3File ⟨phys.length, o.groups⟩ (infoFile infos) root ch R 0 (img i) none (natStr i) (runHistory maxLoc m .empty h)).toOption)
    (k : ℕ) (hk : k < groupCount kept o.groups) (c : List ι) (hc : c = benchGroup kept o.groups k) (M : Machine) :
    ∃ rows ids, calculateCoordinates fit phys.length edges (runHistory maxLoc m .empty h) = .ok rows ∧
      loadIndexFile ((runHistory maxLoc m .empty h).index (indexFileName k (indexSuffix o.groups))) = .ok (ids.map (Nat.cast : ℕ → ℤ)) ∧
      ∀ (cf : Option (List (ℕ × List ℚ × ℚ × ℚ))), w.coord w.cwd = cf.map asCoord → (∀ c', cf = some c' → List.Forall₂ SameRow rows c') →
      ∃ f, textFrame w ch files = .ok f ∧
      ∀ (a0 : ArrayAnalysis) (place : ι → P3) (η ρ E : ℝ), SurveyedGroup a0 peak kept edges c place η → 0 ≤ η → 0 ≤ ρ → E = η + 1 / 10 ^ 6 + ρ →
        (∀ s ∈ c, (a0.lo + E ≤ (place s).2.2 ∧ (place s).2.2 + E < a0.hi) ∧ E < euclid a0.cam (place s)) →
      ∀ (read : ℝ → ℝ), (∀ x, |read x - x| ≤ M.w * |x|) → (∀ s ∈ c, M.w * (euclid (0, 0, 0) (place s) + (η + 1 / 10 ^ 6)) ≤ ρ) →
      ∃ pos : ι → P3, (∀ s ∈ c, euclid (place s) (pos s) ≤ E) ∧
      ∀ (o' : NonlinearOptions) (γ : ℝ) (emit : ι → ℝ) (smoke : ℕ → Fin a0.layers → ℝ) (S L δ s cc : ℝ), 0 ≤ γ →
        0 < o'.curv → 0 < s → CurveConditioned c a0.cam place a0.lo a0.hi a0.layers o'.curv s cc → 4 * |o'.pref| ≤ cc * a0.layers →
        2 * s * (E * (1 + L / δ)) ≤ cc * Real.sqrt c.length →
        BenchLight a0 c place n (fun i s => lightAround (img i) (peak s) R) γ emit smoke → 0 < δ → CameraClear a0.lo a0.hi a0.layers δ a0.cam.2.2 →
        (∀ i, 1 ≤ i → i ≤ n → ∀ j, smoke i j ≤ S) → S ≤ 10 → (∀ s ∈ c, euclid a0.cam (place s) ≤ L) → M.Fits a0 n (L + E) δ →
        (∀ i, 1 ≤ i → i ≤ n → ∀ x ∈ c, lineDepth a0.cam (place x) a0.lo a0.hi (smoke i) + displacementError S L δ E ≤ 23 ∧
          2 * s ≤ Real.exp (-(lineDepth a0.cam (place x) a0.lo a0.hi (smoke i) + displacementError S L δ E))) →
        (∀ i, 1 ≤ i → i ≤ n → Faint c.length (M.looser o' c.length a0.layers a0.lo a0.hi (L + E) δ) s
          (γ + displacementError S L δ E + 1 / 19999 + 2 * M.w + 9 * M.u) (smoke i)) →
        (0 ≤ o'.tol → ∃ r, M.NonlinearArrayResult ((a0.withFiles k ids rows).readBy read) o' (readData read (frameData f "sum_col_val" k)) r) ∧
      ∀ r, M.NonlinearArrayResult ((a0.withFiles k ids rows).readBy read) o' (readData read (frameData f "sum_col_val" k)) r →
        ∃ found : ℕ → Fin a0.layers → ℝ, r = .ok ((firstImgs n).map found) ∧ ∀ i, 1 ≤ i → i ≤ n → (∀ j, 0 ≤ found i j ∧ found i j ≤ 10) ∧
          ∑ j, |found i j - smoke i j| ≤
            8 / cc * ((Real.exp (2 * (γ + displacementError S L δ E + 1 / 19999 + 2 * M.w + 9 * M.u)) - 1) / Real.sqrt c.length +
              curvature c.length o'.curv (smoke i)) + 4 / cc * (M.looser o' c.length a0.layers a0.lo a0.hi (L + E) δ).tol := by
  obtain ⟨hasc, hnone, hcm, rows, g1, g2, g3, g4⟩ := C151_measured maxLoc hmax m j spot spots peak hb phys hp number hn o ho kept hkept hgr h4 hcorner
    pre h hh fit edges he w ch n hcount hn0 hw infos hi hlen root hroot R img hph files hf k hk c hc
  refine ⟨rows, _, g1, g2, ?_⟩
  intro cf hcf hcr
  obtain ⟨f, u, f1, f2, f3⟩ := g4 cf hcf hcr
  refine ⟨f, f1, ?_⟩
  intro a0 place η ρ E hsv hη hρ hE hin read hread hfar
  have hw0 := M.w_nonneg
  have hw1 := M.w_small
  obtain ⟨pos, hpos⟩ := g3 a0 place η hsv
  have hE0 : 0 ≤ E := by rw [hE]; positivity
  have hnear : ∀ s ∈ c, euclid (place s) (readPos read (pos (benchId kept s))) ≤ E := by
    intro s hs
    have h1 := (hpos s hs).2
    have h2 := M.read_position hread (pos (benchId kept s))
    have h3 := euclid_triangle (place s) (pos (benchId kept s)) (readPos read (pos (benchId kept s)))
    have h4 := euclid_triangle (0, 0, 0) (place s) (pos (benchId kept s))
    have h5 := mul_le_mul_of_nonneg_left (h4.trans (add_le_add le_rfl h1)) hw0
    have := hfar s hs
    rw [hE]
    linarith
  refine ⟨fun s => readPos read (pos (benchId kept s)), hnear, ?_⟩
  intro o' γ emit smoke S L δ s cc hγ hcurv hspos hcon hpref hprec hl hδ hcam hS hS10 hL hfit hthin hfaint
  set rpos : ℕ → P3 := fun x => readPos read (pos x) with hrpos
  have hLr : ∀ x ∈ c.map (benchId kept), euclid a0.cam (rpos x) ≤ L + E := by
    intro x hx
    obtain ⟨s, hs, rfl⟩ := List.mem_map.1 hx
    exact (euclid_triangle a0.cam (place s) _).trans (add_le_add (hL s hs) (hnear s hs))
  set a := (a0.withFiles k (c.map (benchId kept)).reverse rows).readBy read with ha
  have hseen : SeenArray a (c.map (benchId kept)) rpos := by
    refine ⟨rfl, hasc, by simpa using hnone, ?_, hsv.layers, hsv.domain, ?_⟩
    · intro x hx
      obtain ⟨s, hs, rfl⟩ := List.mem_map.1 hx
      show ((rows.map (·.pos)).map (readPos read))[benchId kept s]? = _
      rw [List.getElem?_map, (hpos s hs).1]
      rfl
    · intro x hx
      obtain ⟨s, hs, rfl⟩ := List.mem_map.1 hx
      exact ray_displaced hsv.camera (hin s hs).1 (hin s hs).2 (hnear s hs)
  have hfita : M.Fits a n (L + E) δ := ⟨hfit.lo, hfit.hi, hfit.images, hfit.layers, hfit.far, hfit.borders⟩
  obtain ⟨i0, hi1, hi2, hi3⟩ := hl.reference
  rw [f2, readData_tableOf]
  constructor
  · intro ht0
    exact M.C152_exists a o' ht0 _ rpos hseen n _ (L + E) δ hLr hfita hn0
      (List.ne_nil_of_mem (List.mem_filter.2 ⟨(mem_firstImgs n i0).2 ⟨hi1, hi2⟩, hi3⟩))
  intro r hr
  obtain ⟨s0, hs0⟩ := List.exists_mem_of_ne_nil c hnone
  have h3 := hsv.layers
  have hS0 : 0 ≤ S := (hl.nonneg i0 hi1 hi2 ⟨0, by omega⟩).trans (hS i0 hi1 hi2 ⟨0, by omega⟩)
  have hL0 : 0 ≤ L := (euclid_nonneg _ _).trans (hL s0 hs0)
  have hdis0 : 0 ≤ displacementError S L δ E := by unfold displacementError; positivity
  have hnoisy := ((bench_light kept c hcm hl).displaced hsv.domain hδ hE0 hcam hS
    (fun x hx => by
      obtain ⟨s, hs, rfl⟩ := List.mem_map.1 hx
      rw [benchFun_of kept _ _ s (hcm s hs)]
      exact hL s hs)
    (pos := rpos) (ε := E) (fun x hx => by
      obtain ⟨s, hs, rfl⟩ := List.mem_map.1 hx
      rw [benchFun_of kept _ _ s (hcm s hs)]
      exact hnear s hs)
    (fun i h1 h2 x hx => by
      obtain ⟨s, hs, rfl⟩ := List.mem_map.1 hx
      rw [benchFun_of kept _ _ s (hcm s hs)]
      exact (hthin i h1 h2 s hs).1)).measured (u := u) (ε := 1 / 19999) (fun i h1 h2 x hx => by
      obtain ⟨s, hs, rfl⟩ := List.mem_map.1 hx
      simp only [benchFun_of kept _ _ s (hcm s hs)]
      exact f3 i h1 h2 s hs)
  have hnoisy2 := hnoisy.measured (u := fun i l => read (u i l)) (ε := 2 * M.w) (fun i h1 h2 x hx => by
    have hp := (hnoisy.light i h1 h2 x hx).pos (mul_pos (hnoisy.emits x hx) (Real.exp_pos _))
    have := hread (u i x)
    rw [abs_of_pos hp] at this
    exact within_of_err hw0 (by linarith) hp.le this)
  have hnoisy' : NoisyLight a (c.map (benchId kept)) rpos n (fun i l => read (u i l)) _ _ smoke :=
    ⟨hnoisy2.emits, hnoisy2.light, hnoisy2.clear, hnoisy2.reference, hnoisy2.nonneg, hnoisy2.thin⟩
  have hnear0 := hcon.nearby hnone hsv.domain hspos hδ hcam hL0 hL hE0 hprec (pos := fun s => rpos (benchId kept s)) hnear
  have hcon' : CurveConditioned (c.map (benchId kept)) a0.cam rpos a0.lo a0.hi a0.layers o'.curv s (cc / 2) := by
    refine ⟨hnear0.1, fun x => ?_⟩
    have := hnear0.2 x
    unfold depthsLength at this ⊢
    rw [List.map_map, List.length_map]
    exact this
  have := M.C152_array a o' _ rpos hseen hcurv s (cc / 2) hspos hcon'
    (by show 2 * |o'.pref| ≤ cc / 2 * a0.layers; linarith) n _ (γ + displacementError S L δ E + 1 / 19999 + 2 * M.w) (by positivity) _ smoke hnoisy'
    (L + E) δ hLr hδ hcam hfita (fun i h1 h2 k => (hS i h1 h2 k).trans hS10)
    (fun i h1 h2 x hx => by
      obtain ⟨b, hb', rfl⟩ := List.mem_map.1 hx
      exact (hthin i h1 h2 b hb').2.trans (Real.exp_le_exp.2 (neg_le_neg
        (displaced_depth hsv.domain hδ hcam (smoke i) (hl.nonneg i h1 h2) (hS i h1 h2) (hL b hb') (hnear b hb')))))
    (by rw [List.length_map]; exact hfaint) r hr
  obtain ⟨found, r1, r2⟩ := this
  refine ⟨found, r1, fun i h1 h2 => ⟨(r2 i h1 h2).1, (r2 i h1 h2).2.trans (le_of_eq ?_)⟩⟩
  rw [List.length_map, show 4 / (cc / 2) = 8 / cc by ring, show 2 / (cc / 2) = 4 / cc by ring]
  rfl

/-- **C152.** The coefficients that the calculations of a batch return are the numbers shown, at the time of the photo. -/
theorem shows_found (infos : List InfoRow) (hn0 : infos ≠ []) (job : BatchJob ℝ) (pairs : List (ℕ × ℕ)) (layers : ℕ) (h3 : 0 < layers)
    (hlay : job.layers = layers) (hskip : ∀ x, job.skip x = false) (htimes : experimentTimes infos = .ok job.times) (hnd : job.times.Nodup)
    (hpn : pairs.Nodup) (found : ℕ × ℕ → ℕ → Fin layers → ℝ)
    (hfound : ∀ p ∈ pairs, job.analyse p.1 p.2 = .ok (((firstImgs infos.length).map (found p)).map List.ofFn))
    (dir : Str) (hplain : PlainPath dir job.solver job.property) (globbed : List (Str × ℕ × List (ℤ × List ℝ))) (hglob : Globbed dir (job.run pairs []).1 globbed)
    (lo hi' : ℚ) (hdom : lo < hi') (hne : pairs ≠ []) :
    (job.run pairs []).2 = none ∧ ∃ t, allExtcos globbed = .ok t ∧ ∀ p ∈ pairs, ∀ (i : ℕ) (row : InfoRow) (time : ℤ), infos[i]? = some row →
      pyInt row.expTime = .ok time → ∀ l : Fin layers, Shows t lo hi' layers p.2 p.1 time l (found p (i + 1) l) := by
  have hlen : 0 < infos.length := List.length_pos_of_ne_nil hn0
  have hft := experimentTimes_forall₂ infos _ htimes
  have htl : job.times.length = infos.length := hft.length_eq.symm
  set time : ℕ → ℤ := fun i => (job.times[i]?).getD 0 with htime
  have htime' : ∀ i (hi : i < infos.length), time i = job.times[i]'(by omega) := by
    intro i hi
    simp only [htime, List.getElem?_eq_getElem (show i < job.times.length by omega), Option.getD_some]
  set coef : ℕ → ℕ → ℕ → ℕ → ℝ := fun c a i l => if hll : l < layers then found (a, c) (i + 1) ⟨l, hll⟩ else 0 with hcoef
  have hgood : GoodBatch job pairs infos.length time coef := by
    refine ⟨hskip, ?_, ?_⟩
    · apply List.ext_getElem
      · simp [htl]
      · intro i h1 h2
        rw [List.getElem_map, List.getElem_range, htime' i (by omega)]
    · intro p hpp
      rw [hfound p hpp]
      unfold coefRows firstImgs
      rw [List.map_map, List.map_map, hlay]
      congr 1
      apply List.map_congr_left
      intro i _
      apply ofFn_range
      intro l hll
      simp only [hcoef, dif_pos hll]
  have hdist : ∀ i < infos.length, ∀ k < i, time k ≠ time i := by
    intro i hi k hki he
    rw [htime' i hi, htime' k (by omega)] at he
    have := (List.Nodup.getElem_inj_iff hnd).1 he
    omega
  have shown := fun c a (hm : (a, c) ∈ pairs) i (hii : i < infos.length) l (hll : l < job.layers) hh hhh =>
    C141_shown_partial job dir hplain pairs hpn infos.length time hdist coef hgood globbed hglob lo hi' hdom c a hm i hii l hll hh hhh
  have hin1 : ∀ l, l < job.layers → InLayer lo hi' job.layers l (lo + (hi' - lo) * l / job.layers) := by
    intro l hll
    have hpos : (0 : ℚ) < job.layers := by
      have : 0 < job.layers := by omega
      exact_mod_cast this
    refine ⟨le_rfl, ?_⟩
    have : (hi' - lo) * l / job.layers < (hi' - lo) * (l + 1) / job.layers := by
      apply div_lt_div_of_pos_right _ hpos
      have : 0 < hi' - lo := by linarith
      nlinarith
    linarith
  obtain ⟨t, ht⟩ : ∃ t, allExtcos globbed = .ok t := by
    obtain ⟨p, hpp⟩ := List.exists_mem_of_ne_nil pairs hne
    obtain ⟨t, _, _, _, h1, _⟩ := shown p.2 p.1 hpp 0 hlen 0 (by omega) _ (hin1 0 (by omega))
    exact ⟨t, h1⟩
  refine ⟨?_, t, ht, ?_⟩
  · rw [C141_ends_iff]
    exact fun p hpp => ⟨_, hgood.one hpp⟩
  intro p hpp i row tm hrow hrt
  obtain ⟨hil, hrow'⟩ := List.getElem?_eq_some_iff.1 hrow
  have htm' : job.times[i]'(by omega) = tm := by
    have := hft.get hil (by omega)
    simp only [List.get_eq_getElem] at this
    rw [hrow', hrt, Except.ok.injEq] at this
    exact this.symm
  intro l
  have hll : (l : ℕ) < job.layers := by rw [hlay]; exact l.2
  have htt : time i = tm := by rw [htime' i hil, htm']
  have hce : coef p.2 p.1 i l = found p (i + 1) l := by
    simp only [hcoef, dif_pos l.2]
  obtain ⟨t', byA, byL, byT, s1, s2, s3, s4, s5, s6, s7, s8⟩ := shown p.2 p.1 hpp i hil l hll _ (hin1 l hll)
  rw [ht, Except.ok.injEq] at s1
  subst s1
  rw [hce, htt] at s6 s7
  rw [hce] at s8
  rw [htt] at s5
  refine ⟨byA, byL, byT, i, s2, s3, ?_, s5, s6, s7, s8⟩
  intro h0 hh0
  obtain ⟨t', byA', byL', byT', r1, r2, r3, r4, _⟩ := shown p.2 p.1 hpp i hil l hll h0 (by rw [hlay]; exact hh0)
  rw [hlay] at r4
  rw [ht, Except.ok.injEq] at r1
  subst r1
  rw [s3, Except.ok.injEq] at r3
  subst r3
  exact r4

/-- **C152**, from the bench to the numbers shown: as C142 with the nonlinear solver, ignored LEDs and merged arrays. -/
theorem C152_end_to_end [DecidableEq ι] (maxLoc : Image ℚ → ℕ × ℕ) (hmax : IsMaxLoc maxLoc) (m : Metric D) (j : Step1Job) (spot : ℕ × ℕ → ι)
    (spots : Finset ι) (peak : ι → ℕ × ℕ) (hb : BenchPhoto maxLoc j spot spots peak) (phys : List (List ι)) (hp : BenchArrays m spots peak phys)
    (number : ι → ℕ) (hn : NumberedBy (j.table maxLoc) spots peak number) (o : Step2Options)
    (ho : edgeIndices o.edges = phys.map (endNumbers number)) (kept : List (List ι)) (hkept : kept = keptArrays number o.ignore phys)
    (hgr : GoodGroups phys.length o.groups)
    (h4 : 4 ≤ ((List.range (groupCount kept o.groups)).map (benchGroup kept o.groups)).flatten.length)
    (hcorner : ∀ c ∈ kept, ∃ f l, c.head? = some f ∧ c.getLast? = some l ∧ (peak f).1 * (peak l).2 ≠ (peak f).2 * (peak l).1)
    (pre h : List ExtCmd) (hh : h = pre ++ [.step1 j, .step2 o] ∨ h = pre ++ [.steps12 j o])
    (fit : List P3 → Plane) (edges : List (P3 × P3)) (he : phys.length ≤ edges.length)
    (infos : List InfoRow) (hi : GoodInfos infos) (hn0 : infos ≠ [])
    (w : ℕ → HdfWorld) (hcount : ∀ ch, (w ch).count (w ch).cwd = .ok (infos.length : ℤ)) (hw : ∀ ch, (w ch).cache = none)
    (root : Str) (hroot : '\n' ∉ root)
    (R : ℕ) (img : ℕ → ℕ → Image ℚ) (hph : ∀ ch i, PhotographedBench peak kept R (img ch i)) (files : ℕ → ℕ → Option Str)
    (hf : ∀ ch i, 1 ≤ i → i ≤ infos.length → files ch i =
      (step3File ⟨phys.length, o.groups⟩ (infoFile infos) root ch R 0 (img ch i) none (natStr i) (runHistory maxLoc m .empty h)).toOption)
    (M : Machine) (a0 : ArrayAnalysis) (place : ι → P3) (η ρ E : ℝ)
    (hsv : ∀ k < groupCount kept o.groups, SurveyedGroup a0 peak kept edges (benchGroup kept o.groups k) place η)
    (hη : 0 ≤ η) (hρ : 0 ≤ ρ) (hE : E = η + 1 / 10 ^ 6 + ρ)
    (hin : ∀ s ∈ kept.flatten, (a0.lo + E ≤ (place s).2.2 ∧ (place s).2.2 + E < a0.hi) ∧ E < euclid a0.cam (place s))
    (read : ℝ → ℝ) (hread : ∀ x, |read x - x| ≤ M.w * |x|) (hfar : ∀ s ∈ kept.flatten, M.w * (euclid (0, 0, 0) (place s) + (η + 1 / 10 ^ 6)) ≤ ρ)
    (o' : NonlinearOptions) (γ : ℝ) (emit : ℕ → ι → ℝ) (smoke : ℕ → ℕ → Fin a0.layers → ℝ) (S L δ s : ℝ) (cc : ℕ → ℝ) (hγ : 0 ≤ γ)
    (hcurv : 0 < o'.curv) (hs0 : 0 < s)
    (hcon : ∀ k < groupCount kept o.groups, CurveConditioned (benchGroup kept o.groups k) a0.cam place a0.lo a0.hi a0.layers o'.curv s (cc k) ∧
      4 * |o'.pref| ≤ cc k * a0.layers ∧ 2 * s * (E * (1 + L / δ)) ≤ cc k * Real.sqrt (benchGroup kept o.groups k).length)
    (hl : ∀ ch, ∀ k < groupCount kept o.groups, BenchLight a0 (benchGroup kept o.groups k) place infos.length (fun i s => lightAround (img ch i) (peak s) R) γ (emit ch) (smoke ch))
    (hδ : 0 < δ) (hcam : CameraClear a0.lo a0.hi a0.layers δ a0.cam.2.2)
    (hS : ∀ ch i, 1 ≤ i → i ≤ infos.length → ∀ j, smoke ch i j ≤ S) (hS10 : S ≤ 10) (hL : ∀ s ∈ kept.flatten, euclid a0.cam (place s) ≤ L)
    (hfit : M.Fits a0 infos.length (L + E) δ)
    (hthin : ∀ ch i, 1 ≤ i → i ≤ infos.length → ∀ x ∈ kept.flatten, lineDepth a0.cam (place x) a0.lo a0.hi (smoke ch i) + displacementError S L δ E ≤ 23 ∧
      2 * s ≤ Real.exp (-(lineDepth a0.cam (place x) a0.lo a0.hi (smoke ch i) + displacementError S L δ E)))
    (hfaint : ∀ ch i, 1 ≤ i → i ≤ infos.length → ∀ k < groupCount kept o.groups,
      Faint (benchGroup kept o.groups k).length (M.looser o' (benchGroup kept o.groups k).length a0.layers a0.lo a0.hi (L + E) δ) s
        (γ + displacementError S L δ E + 1 / 19999 + 2 * M.w + 9 * M.u) (smoke ch i)) :
    ∃ (rows : List CoordRow) (ids : ℕ → List ℕ), calculateCoordinates fit phys.length edges (runHistory maxLoc m .empty h) = .ok rows ∧
      (∀ k < groupCount kept o.groups, loadIndexFile ((runHistory maxLoc m .empty h).index (indexFileName k (indexSuffix o.groups))) = .ok ((ids k).map (Nat.cast : ℕ → ℤ))) ∧
      ∀ (cf : Option (List (ℕ × List ℚ × ℚ × ℚ))), (∀ ch, (w ch).coord (w ch).cwd = cf.map asCoord) → (∀ c', cf = some c' → List.Forall₂ SameRow rows c') →
      ∃ f : ℕ → DataTable, (∀ ch, textFrame (w ch) ch (files ch) = .ok (f ch)) ∧
      (0 ≤ o'.tol → ∀ k < groupCount kept o.groups, ∀ ch, ∃ r, M.NonlinearCalculates ((a0.withFiles k (ids k) rows).readBy read) o' (readData read (frameData (f ch) "sum_col_val" k)) r) ∧
      ∀ (job : BatchJob ℝ) (pairs : List (ℕ × ℕ)), job.layers = a0.layers → (∀ x, job.skip x = false) → experimentTimes infos = .ok job.times →
        job.times.Nodup → pairs.Nodup → (∀ p ∈ pairs, p.1 < groupCount kept o.groups) →
        (∀ p ∈ pairs, M.NonlinearCalculates ((a0.withFiles p.1 (ids p.1) rows).readBy read) o' (readData read (frameData (f p.2) "sum_col_val" p.1))
          (job.analyse p.1 p.2)) →
      ∀ (dir : Str), PlainPath dir job.solver job.property → ∀ globbed, Globbed dir (job.run pairs []).1 globbed →
      ∀ (lo hi : ℚ), (lo : ℝ) = a0.lo → (hi : ℝ) = a0.hi → pairs ≠ [] →
        (job.run pairs []).2 = none ∧
        ∃ t, allExtcos globbed = .ok t ∧ ∀ p ∈ pairs, ∀ c, c = benchGroup kept o.groups p.1 → ∀ (i : ℕ) (row : InfoRow) (time : ℤ), infos[i]? = some row → pyInt row.expTime = .ok time →
          ∃ x : Fin a0.layers → ℝ, (∀ l : Fin a0.layers, Shows t lo hi a0.layers p.2 p.1 time l (x l)) ∧ (∀ l, 0 ≤ x l ∧ x l ≤ 10) ∧
            ∑ j, |x j - smoke p.2 (i + 1) j| ≤
              8 / cc p.1 * ((Real.exp (2 * (γ + displacementError S L δ E + 1 / 19999 + 2 * M.w + 9 * M.u)) - 1) / Real.sqrt c.length +
                curvature c.length o'.curv (smoke p.2 (i + 1))) + 4 / cc p.1 * (M.looser o' c.length a0.layers a0.lo a0.hi (L + E) δ).tol := by
  have hlen : 0 < infos.length := List.length_pos_of_ne_nil hn0
  have main := fun (k : ℕ) (ch : ℕ) (hk : k < groupCount kept o.groups) =>
    C152_bench maxLoc hmax m j spot spots peak hb phys hp number hn o ho kept hkept hgr h4 hcorner pre h hh fit edges he (w ch) ch infos.length
      (hcount ch) hlen (hw ch) infos hi le_rfl root hroot R (img ch) (hph ch) (files ch) (hf ch) k hk (benchGroup kept o.groups k) rfl M
  have hflat : ∀ (k : ℕ), ∀ s ∈ benchGroup kept o.groups k, s ∈ kept.flatten := by
    intro k s hs
    obtain ⟨a, c, h1, h2⟩ := benchGroup_mem kept o.groups k s hs
    exact List.mem_flatten.2 ⟨c, List.mem_of_getElem? h1, h2⟩
  have hphys : 0 < groupCount kept o.groups := by
    rcases Nat.eq_zero_or_pos (groupCount kept o.groups) with h0 | h0
    · rw [h0] at h4
      simp at h4
    · exact h0
  -- coordinates and index files
  obtain ⟨rows, hrows⟩ : ∃ rows, calculateCoordinates fit phys.length edges (runHistory maxLoc m .empty h) = .ok rows := by
    obtain ⟨rows, _, g1, _⟩ := main 0 0 hphys
    exact ⟨rows, g1⟩
  have hids : ∀ k, ∃ ids : List ℕ, k < groupCount kept o.groups →
      loadIndexFile ((runHistory maxLoc m .empty h).index (indexFileName k (indexSuffix o.groups))) = .ok (ids.map (Nat.cast : ℕ → ℤ)) := by
    intro k
    by_cases hk : k < groupCount kept o.groups
    · obtain ⟨_, ids, _, g2, _⟩ := main k 0 hk
      exact ⟨ids, fun _ => g2⟩
    · exact ⟨[], fun h => absurd h hk⟩
  choose ids hids using hids
  refine ⟨rows, ids, hrows, hids, ?_⟩
  intro cf hcf hcr
  -- the same for every channel and array
  have main2 : ∀ (k ch : ℕ) (c : List ι), k < groupCount kept o.groups → c = benchGroup kept o.groups k → ∃ f, textFrame (w ch) ch (files ch) = .ok f ∧
        (0 ≤ o'.tol → ∃ r, M.NonlinearArrayResult ((a0.withFiles k (ids k) rows).readBy read) o' (readData read (frameData f "sum_col_val" k)) r) ∧
        ∀ r, M.NonlinearArrayResult ((a0.withFiles k (ids k) rows).readBy read) o' (readData read (frameData f "sum_col_val" k)) r →
        ∃ found : ℕ → Fin a0.layers → ℝ, r = .ok ((firstImgs infos.length).map found) ∧ ∀ i, 1 ≤ i → i ≤ infos.length → (∀ j, 0 ≤ found i j ∧ found i j ≤ 10) ∧
          ∑ j, |found i j - smoke ch i j| ≤
            8 / cc k * ((Real.exp (2 * (γ + displacementError S L δ E + 1 / 19999 + 2 * M.w + 9 * M.u)) - 1) / Real.sqrt c.length +
              curvature c.length o'.curv (smoke ch i)) + 4 / cc k * (M.looser o' c.length a0.layers a0.lo a0.hi (L + E) δ).tol := by
    intro k ch c hkl hc
    subst hc
    obtain ⟨rows', ids', g1, g2, g3⟩ := main k ch hkl
    rw [hrows, Except.ok.injEq] at g1
    subst g1
    rw [hids k hkl, Except.ok.injEq] at g2
    have g2' := List.map_injective_iff.2 Nat.cast_injective g2
    subst g2'
    obtain ⟨f, f1, f2⟩ := g3 cf (hcf ch) hcr
    obtain ⟨pos, _, p2⟩ := f2 a0 place η ρ E (hsv k hkl) hη hρ hE (fun s hs => hin s (hflat k s hs)) read hread
      (fun s hs => hfar s (hflat k s hs))
    obtain ⟨q1, q2⟩ := p2 o' γ (emit ch) (smoke ch) S L δ s (cc k) hγ hcurv hs0 (hcon k hkl).1 (hcon k hkl).2.1 (hcon k hkl).2.2 (hl ch k hkl) hδ hcam (hS ch)
      hS10 (fun s hs => hL s (hflat k s hs)) hfit (fun i h1 h2 s hs => hthin ch i h1 h2 s (hflat k s hs)) (fun i h1 h2 => hfaint ch i h1 h2 k hkl)
    exact ⟨f, f1, q1, q2⟩
  have hframe : ∀ ch, ∃ f, textFrame (w ch) ch (files ch) = .ok f := by
    intro ch
    obtain ⟨f, f1, _⟩ := main2 0 ch _ hphys rfl
    exact ⟨f, f1⟩
  choose f hframe using hframe
  have main3 : ∀ (k ch : ℕ) (c : List ι), k < groupCount kept o.groups → c = benchGroup kept o.groups k →
        (0 ≤ o'.tol → ∃ r, M.NonlinearArrayResult ((a0.withFiles k (ids k) rows).readBy read) o' (readData read (frameData (f ch) "sum_col_val" k)) r) ∧
        ∀ r, M.NonlinearArrayResult ((a0.withFiles k (ids k) rows).readBy read) o' (readData read (frameData (f ch) "sum_col_val" k)) r →
        ∃ found : ℕ → Fin a0.layers → ℝ, r = .ok ((firstImgs infos.length).map found) ∧ ∀ i, 1 ≤ i → i ≤ infos.length → (∀ j, 0 ≤ found i j ∧ found i j ≤ 10) ∧
          ∑ j, |found i j - smoke ch i j| ≤
            8 / cc k * ((Real.exp (2 * (γ + displacementError S L δ E + 1 / 19999 + 2 * M.w + 9 * M.u)) - 1) / Real.sqrt c.length +
              curvature c.length o'.curv (smoke ch i)) + 4 / cc k * (M.looser o' c.length a0.layers a0.lo a0.hi (L + E) δ).tol := by
    intro k ch c hk hc
    obtain ⟨f', f1, f2⟩ := main2 k ch c hk hc
    rw [hframe ch, Except.ok.injEq] at f1
    subst f1
    exact f2
  refine ⟨f, hframe, ?_, ?_⟩
  · intro hε0 k hk ch
    obtain ⟨q1, _⟩ := main3 k ch _ hk rfl
    obtain ⟨r, hr⟩ := q1 hε0
    exact ⟨_, r, hr, rfl⟩
  intro job pairs hlay hskip htimes hnd hpn hpk hcalc dir hplain globbed hglob lo hi' hlo hhi hne
  have hall : ∀ p : ℕ × ℕ, ∃ found : ℕ → Fin a0.layers → ℝ, p ∈ pairs →
      job.analyse p.1 p.2 = .ok (((firstImgs infos.length).map found).map List.ofFn) ∧
      ∀ c, c = benchGroup kept o.groups p.1 → ∀ i, 1 ≤ i → i ≤ infos.length → (∀ j, 0 ≤ found i j ∧ found i j ≤ 10) ∧
          ∑ j, |found i j - smoke p.2 i j| ≤
            8 / cc p.1 * ((Real.exp (2 * (γ + displacementError S L δ E + 1 / 19999 + 2 * M.w + 9 * M.u)) - 1) / Real.sqrt c.length +
              curvature c.length o'.curv (smoke p.2 i)) + 4 / cc p.1 * (M.looser o' c.length a0.layers a0.lo a0.hi (L + E) δ).tol := by
    intro p
    by_cases hpp : p ∈ pairs
    · obtain ⟨r, hr, hr'⟩ := hcalc p hpp
      obtain ⟨_, p2⟩ := main3 p.1 p.2 _ (hpk p hpp) rfl
      obtain ⟨found, e1, e2⟩ := p2 r hr
      refine ⟨found, fun _ => ⟨by rw [hr', e1]; rfl, ?_⟩⟩
      intro c hc
      subst hc
      exact e2
    · exact ⟨fun _ _ => 0, fun h => absurd h hpp⟩
  choose found hfound using hall
  have hdom : lo < hi' := by
    have := (hsv 0 hphys).domain
    rw [← hlo, ← hhi] at this
    exact_mod_cast this
  have h3 : 0 < a0.layers := by
    have := (hsv 0 hphys).layers
    omega
  obtain ⟨e1, t, e2, e3⟩ := shows_found infos hn0 job pairs a0.layers h3 hlay hskip htimes hnd hpn found (fun p hp => (hfound p hp).1) dir hplain globbed hglob
    lo hi' hdom hne
  refine ⟨e1, t, e2, fun p hpp c hc i row tm hrow hrt => ?_⟩
  obtain ⟨hil, _⟩ := List.getElem?_eq_some_iff.1 hrow
  obtain ⟨q1, q2⟩ := (hfound p hpp).2 c hc (i + 1) (by omega) (by omega)
  exact ⟨found p (i + 1), e3 p hpp i row tm hrow hrt, q1, q2⟩

/-! ### A case of C152: two photos of the column without smoke, in double precision -/

theorem column_surveyed_group : SurveyedGroup columnAnalysis columnPeak ([[0, 1, 2, 3, 4]] : List (List ℕ)) [((0, 0, 4), (0, 0, 0))]
    [0, 1, 2, 3, 4] (fun (x : ℕ) => (0, 0, 4 - (x : ℝ))) 0 := by
  have hs := column_bench_surveyed
  refine ⟨hs.layers, hs.domain, hs.camera, ?_, hs.inside, hs.apart⟩
  intro s hsm k ck T B f l hk he hsk hf hl q hq
  have hkl : k < 1 := by simpa using (List.getElem?_eq_some_iff.1 hk).1
  obtain rfl : k = 0 := by omega
  simp only [List.getElem?_cons_zero, Option.some.injEq, Prod.mk.injEq] at hk he
  subst hk
  obtain ⟨rfl, rfl⟩ := he
  exact hs.seen f l hf hl s hsm q hq

theorem column_looser : (double.looser ⟨1 / 10 ^ 6, -1 / 1000, 1 / 10000⟩ [0, 1, 2, 3, 4].length 3 (-1) 5 (27 / 5 + (0 + 1 / 10 ^ 6 + 1 / 10 ^ 9)) 1).tol ≤ 2 / 10000 := by
  have hs : 1 ≤ Real.sqrt (([0, 1, 2, 3, 4].length : ℕ) : ℝ) := by
    rw [Real.le_sqrt (by norm_num) (by norm_num)]
    norm_num
  have he : Real.exp double.distErr - 1 ≤ 1 / 10 ^ 6 := by
    have h1 : double.distErr ≤ 1 / 10 ^ 7 := by unfold Machine.distErr double; norm_num
    have h2 := Real.one_sub_le_exp_neg double.distErr
    have h3 : Real.exp double.distErr * Real.exp (-double.distErr) = 1 := by rw [← Real.exp_add, add_neg_cancel, Real.exp_zero]
    have h4 := Real.exp_pos double.distErr
    nlinarith
  have he0 : 0 ≤ Real.exp double.distErr - 1 := by
    have := Real.one_le_exp double.distErr_nonneg
    linarith
  have hb : double.borderError 3 (-1) 5 10 (27 / 5 + (0 + 1 / 10 ^ 6 + 1 / 10 ^ 9)) 1 ≤ 1 / 10 ^ 6 := by
    unfold Machine.borderError double
    norm_num
  have hb0 : 0 ≤ double.borderError 3 (-1) 5 10 (27 / 5 + (0 + 1 / 10 ^ 6 + 1 / 10 ^ 9)) 1 := by
    unfold Machine.borderError double
    positivity
  unfold Machine.looser Machine.lightError
  simp only
  have := div_le_self (by linarith :
    0 ≤ 2 * (Real.exp double.distErr - 1 + double.borderError 3 (-1) 5 10 (27 / 5 + (0 + 1 / 10 ^ 6 + 1 / 10 ^ 9)) 1)) hs
  linarith

theorem column_rounded_nonlinear : ∃ rows ids f, calculateCoordinates (fun _ => ⟨0, 1, 0⟩) 1 [((0, 0, 4), (0, 0, 0))]
      (runHistory firstMaxLoc (roundedMetric double) .empty [.step1 columnJob, .step2 (columnOptions "None")]) = .ok rows ∧
    textFrame stripDir 0 (fun i => (step3File ⟨1, none⟩ (infoFile stripInfos) "exp".toList 0 1 0 (columnPhoto 1) none (natStr i)
      (runHistory firstMaxLoc (roundedMetric double) .empty [.step1 columnJob, .step2 (columnOptions "None")])).toOption) = .ok f ∧
    (∃ r, double.NonlinearArrayResult ((columnAnalysis.withFiles 0 ids rows).readBy roundDouble) ⟨1 / 10 ^ 6, -1 / 1000, 1 / 10000⟩
        (readData roundDouble (frameData f "sum_col_val" 0)) r) ∧
    ∀ r, double.NonlinearArrayResult ((columnAnalysis.withFiles 0 ids rows).readBy roundDouble) ⟨1 / 10 ^ 6, -1 / 1000, 1 / 10000⟩
        (readData roundDouble (frameData f "sum_col_val" 0)) r →
      ∃ found : ℕ → Fin 3 → ℝ, r = .ok [found 1, found 2] ∧ ∑ j, |found 2 j| ≤ 1 / 10 := by
  obtain ⟨rows, ids, c1, c2, c3⟩ := C152_bench firstMaxLoc isMaxLoc_firstMaxLoc (roundedMetric double) columnJob (fun p => p.1 / 3) {0, 1, 2, 3, 4}
    columnPeak column_bench [[0, 1, 2, 3, 4]] column_arrays id column_numbered (columnOptions "None") (by decide +kernel) [[0, 1, 2, 3, 4]] (by decide +kernel)
    (by intro gs hgs; cases hgs) (by decide)
    (by
      intro c hc
      obtain rfl : c = [0, 1, 2, 3, 4] := by simpa using hc
      exact ⟨0, 4, rfl, rfl, by decide⟩) [] _
    (Or.inl rfl) (fun _ => ⟨0, 1, 0⟩) [((0, 0, 4), (0, 0, 0))]
    (by simp) stripDir 0 2 rfl (by norm_num) rfl stripInfos strip_infos (by decide) "exp".toList (by decide +kernel) 1 (fun _ => columnPhoto 1)
    (fun _ => column_photographed 1) _ (fun i _ _ => rfl) 0 (by decide) [0, 1, 2, 3, 4] rfl double
  obtain ⟨f, f1, f2⟩ := c3 none rfl (by simp)
  refine ⟨rows, ids, f, c1, f1, ?_⟩
  obtain ⟨pos, p1, p2⟩ := f2 columnAnalysis _ 0 (1 / 10 ^ 9) _ column_surveyed_group le_rfl (by norm_num) rfl
    (by
      intro x hx
      have h4 := column_le x hx
      have hx' : (x : ℝ) ≤ 4 := by exact_mod_cast h4
      have h0 : (0 : ℝ) ≤ x := by positivity
      have := (column_distance x h4).1
      refine ⟨⟨?_, ?_⟩, ?_⟩
      · show (-1 : ℝ) + _ ≤ 4 - (x : ℝ)
        norm_num
        linarith
      · show 4 - (x : ℝ) + _ < 5
        norm_num
        linarith
      · show _ < euclid (5, 0, 2) (0, 0, 4 - (x : ℝ))
        norm_num
        linarith)
    roundDouble (fun x => by
      have := double.rnd_err x
      exact this)
    (by
      intro x hx
      have := column_origin x (column_le x hx)
      show double.w * (euclid (0, 0, 0) (0, 0, 4 - (x : ℝ)) + (0 + 1 / 10 ^ 6)) ≤ 1 / 10 ^ 9
      have hw : double.w = (1 / 2) ^ 53 := rfl
      rw [hw]
      nlinarith)
  have hg : Real.exp (2 * (0 + displacementError 0 (27 / 5) 1 (0 + 1 / 10 ^ 6 + 1 / 10 ^ 9) + 1 / 19999 + 2 * double.w + 9 * double.u)) - 1 ≤ 1 / 8000 := by
    have h1 : 2 * (0 + displacementError 0 (27 / 5) 1 (0 + 1 / 10 ^ 6 + 1 / 10 ^ 9) + 1 / 19999 + 2 * double.w + 9 * double.u) ≤ 2 / 18000 := by
      unfold displacementError double
      norm_num
    have h5 := Real.exp_le_exp.2 h1
    have h2 := Real.one_sub_le_exp_neg (2 / 18000)
    have h3 : Real.exp (2 / 18000) * Real.exp (-(2 / 18000)) = 1 := by rw [← Real.exp_add, add_neg_cancel, Real.exp_zero]
    have h4 := Real.exp_pos (2 / 18000 : ℝ)
    nlinarith
  have hg0 : 0 ≤ Real.exp (2 * (0 + displacementError 0 (27 / 5) 1 (0 + 1 / 10 ^ 6 + 1 / 10 ^ 9) + 1 / 19999 + 2 * double.w + 9 * double.u)) - 1 := by
    have := Real.one_le_exp (x := 2 * (0 + displacementError 0 (27 / 5) 1 (0 + 1 / 10 ^ 6 + 1 / 10 ^ 9) + 1 / 19999 + 2 * double.w + 9 * double.u))
      (by unfold displacementError double; norm_num)
    linarith
  have hs5 : Real.sqrt (([0, 1, 2, 3, 4].length : ℕ) : ℝ) ≤ 3 ∧ 1 ≤ Real.sqrt (([0, 1, 2, 3, 4].length : ℕ) : ℝ) := by
    constructor
    · rw [Real.sqrt_le_left (by norm_num)]
      norm_num
    · rw [Real.le_sqrt (by norm_num) (by norm_num)]
      norm_num
  have hcurv : curvature [0, 1, 2, 3, 4].length (1 / 10 ^ 6) (fun _ : Fin 3 => 0) = 0 :=
    (C73_curvature (by decide) _ (by norm_num) _).2.2 ⟨0, 0, fun _ => by simp⟩
  obtain ⟨q1, q2⟩ := p2 ⟨1 / 10 ^ 6, -1 / 1000, 1 / 10000⟩ 0 (fun _ => 1000) (fun _ _ => 0)
      0 (27 / 5) 1 (1 / 5) (1 / 40) le_rfl (by norm_num) (by norm_num) (column_curve _ (by norm_num)) (by unfold columnAnalysis; norm_num [abs_of_neg])
      (le_trans (by norm_num : _ ≤ 1 / 40 * (1 : ℝ)) (mul_le_mul_of_nonneg_left hs5.2 (by norm_num)))
      ⟨fun _ _ => by norm_num, by
        intro i h1 h2 s hs
        have e : lightAround (columnPhoto 1) (columnPeak s) 1 = 1000 := by
          unfold lightAround
          have e2 : (∑ q ∈ area (columnPhoto 1) (columnPeak s).1 (columnPeak s).2 1, (columnPhoto 1).px q.1 q.2 : ℚ) = if 1 = 2 then 500 else 1000 :=
            column_light 1 s _ (column_rows s hs)
          rw [e2]
          norm_num
        show Within 0 (lightAround (columnPhoto 1) (columnPeak s) 1) _
        rw [e, lineDepth_zero]
        unfold Within
        norm_num, fun _ _ _ _ => rfl, ⟨1, le_rfl, by norm_num, by simp [columnAnalysis, RefChoice.selects]⟩, fun _ _ _ _ => le_rfl, by
        intro i _ _ s _
        rw [lineDepth_zero]
        norm_num⟩ (by norm_num)
      ⟨1, by decide, by unfold columnAnalysis; norm_num, by unfold columnAnalysis; norm_num⟩ (fun _ _ _ _ => le_rfl) (by norm_num)
      (fun x hx => (column_distance x (column_le x hx)).2) column_fits
      (by
        intro i _ _ x hx
        rw [lineDepth_zero]
        unfold displacementError
        norm_num)
      (by
        intro i _ _
        unfold Faint
        show 2 * (Real.sqrt _ * _) + _ * (curvature [0, 1, 2, 3, 4].length (1 / 10 ^ 6) (fun _ : Fin 3 => 0) + 10 * |(-1 / 1000 : ℝ)| +
          (double.looser ⟨1 / 10 ^ 6, -1 / 1000, 1 / 10000⟩ [0, 1, 2, 3, 4].length 3 (-1) 5 (27 / 5 + (0 + 1 / 10 ^ 6 + 1 / 10 ^ 9)) 1).tol) ≤ _
        rw [hcurv]
        have hp := mul_le_mul hs5.1 hg hg0 (by norm_num)
        have ht := column_looser
        have h5 : (([0, 1, 2, 3, 4].length : ℕ) : ℝ) = 5 := by norm_num
        have h6 : |(-1 / 1000 : ℝ)| = 1 / 1000 := by norm_num [abs_of_neg]
        rw [h6]
        rw [h5] at hp ⊢
        linarith)
  refine ⟨q1 (by norm_num), fun r hr => ?_⟩
  obtain ⟨found, e, hfound⟩ := q2 r hr
  refine ⟨found, e, ?_⟩
  have hb := (hfound 2 (by norm_num) le_rfl).2
  have hb' : ∑ k : Fin 3, |found 2 k - 0| ≤ 8 / (1 / 40) * ((Real.exp (2 * (0 + displacementError 0 (27 / 5) 1 (0 + 1 / 10 ^ 6 + 1 / 10 ^ 9) + 1 / 19999 +
      2 * double.w + 9 * double.u)) - 1) /
      Real.sqrt (([0, 1, 2, 3, 4].length : ℕ) : ℝ) + curvature [0, 1, 2, 3, 4].length (1 / 10 ^ 6) (fun _ : Fin 3 => 0)) + 4 / (1 / 40) *
      (double.looser ⟨1 / 10 ^ 6, -1 / 1000, 1 / 10000⟩ [0, 1, 2, 3, 4].length 3 (-1) 5 (27 / 5 + (0 + 1 / 10 ^ 6 + 1 / 10 ^ 9)) 1).tol := hb
  rw [hcurv] at hb'
  simp only [sub_zero] at hb'
  have hdiv := div_le_self hg0 hs5.2
  have ht := column_looser
  refine hb'.trans ?_
  linarith

end Ledsa
