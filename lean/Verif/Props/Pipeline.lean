import Verif.Model.Pipeline
import Verif.Props.Alignment
import Verif.Props.Geometry
import Verif.Props.Extinction
import Verif.Props.Solver
import Verif.Props.Analysis
import Mathlib.MeasureTheory.Integral.IntervalIntegral.Basic

/-!
# The whole analysis of an LED array (C95), LEDs outside the domain (C96)
-/

namespace Ledsa

open MeasureTheory

/-! ### Specification: light through a layered smoke field -/

/-- Extinction coefficient at height `z`: constant in each of the `n` equal slices of the domain. -/
noncomputable def extinctionAt (lo hi : ℝ) {n : ℕ} (σ : Fin n → ℝ) (z : ℝ) : ℝ := open Classical in
  ∑ k : Fin n, if lo + (k : ℕ) * ((hi - lo) / n) ≤ z ∧ z < lo + ((k : ℕ) + 1) * ((hi - lo) / n) then σ k else 0

/-- Optical depth of the straight ray from the camera to the LED: the line integral of the extinction coefficient. -/
noncomputable def lineDepth (cam led : P3) (lo hi : ℝ) {n : ℕ} (σ : Fin n → ℝ) : ℝ :=
  euclid cam led * ∫ t in (0 : ℝ)..1, extinctionAt lo hi σ (cam.2.2 + t * (led.2.2 - cam.2.2))

/-! ### Distances are line integrals -/

theorem integral_slice (cam led : P3) (hz : cam.2.2 ≠ led.2.2) (b t c : ℝ) : open Classical in
    IntervalIntegrable (fun s : ℝ => if b ≤ cam.2.2 + s * (led.2.2 - cam.2.2) ∧ cam.2.2 + s * (led.2.2 - cam.2.2) < t then c else 0)
      volume 0 1 ∧
    ∫ s in (0 : ℝ)..1, (if b ≤ cam.2.2 + s * (led.2.2 - cam.2.2) ∧ cam.2.2 + s * (led.2.2 - cam.2.2) < t then c else 0) =
      c * (volume (insideParams cam led b t)).toReal := by
  classical
  set S : Set ℝ := {s | b ≤ cam.2.2 + s * (led.2.2 - cam.2.2) ∧ cam.2.2 + s * (led.2.2 - cam.2.2) < t} with hS
  have hm : MeasurableSet S := by
    have hc : Measurable fun s : ℝ => cam.2.2 + s * (led.2.2 - cam.2.2) := by fun_prop
    exact (measurableSet_le measurable_const hc).inter (measurableSet_lt hc measurable_const)
  have hf : (fun s : ℝ => if b ≤ cam.2.2 + s * (led.2.2 - cam.2.2) ∧ cam.2.2 + s * (led.2.2 - cam.2.2) < t then c else 0) =
      S.indicator fun _ => c := by
    funext s
    by_cases h : s ∈ S
    · rw [Set.indicator_of_mem h]; exact if_pos h
    · rw [Set.indicator_of_notMem h]; exact if_neg h
  rw [hf]
  constructor
  · rw [intervalIntegrable_iff_integrableOn_Ioc_of_le zero_le_one]
    exact (integrableOn_const (by simp)).indicator hm
  · rw [intervalIntegral.integral_of_le zero_le_one, integral_indicator_const _ hm, smul_eq_mul, mul_comm]
    congr 1
    unfold Measure.real
    rw [Measure.restrict_apply hm]
    congr 1
    apply measure_congr
    have hsub : S ∩ Set.Ioc 0 1 ⊆ insideParams cam led b t := by
      rintro s ⟨⟨h1, h2⟩, h3, h4⟩
      exact ⟨h3.le, h4, h1, h2.le⟩
    have hfin : insideParams cam led b t \ (S ∩ Set.Ioc 0 1) ⊆ {0, (t - cam.2.2) / (led.2.2 - cam.2.2)} := by
      rintro s ⟨⟨h1, h2, h3, h4⟩, h5⟩
      by_cases h0 : s = 0
      · exact .inl h0
      · right
        have hd : led.2.2 - cam.2.2 ≠ 0 := sub_ne_zero.2 (Ne.symm hz)
        have : cam.2.2 + s * (led.2.2 - cam.2.2) = t := by
          by_contra hne
          exact h5 ⟨⟨h3, lt_of_le_of_ne h4 hne⟩, lt_of_le_of_ne h1 (Ne.symm h0), h2⟩
        rw [Set.mem_singleton_iff, eq_div_iff hd]
        linarith
    have hnull : volume (insideParams cam led b t \ (S ∩ Set.Ioc 0 1)) = 0 :=
      measure_mono_null hfin ((Set.toFinite _).measure_zero _)
    exact (ae_eq_set.2 ⟨by rw [Set.sdiff_eq_empty.2 hsub]; simp, hnull⟩)

theorem border_eq (lo hi : ℝ) (n k : ℕ) : border lo hi n k = lo + (k : ℕ) * ((hi - lo) / n) := rfl

theorem lineDepth_slanted (cam led : P3) (hz : cam.2.2 ≠ led.2.2) (lo hi : ℝ) {n : ℕ} (σ : Fin n → ℝ) :
    lineDepth cam led lo hi σ = ∑ k : Fin n, lengthInside cam led (border lo hi n k) (border lo hi n (k + 1)) * σ k := by
  classical
  unfold lineDepth extinctionAt
  rw [intervalIntegral.integral_finsetSum fun k _ => (integral_slice cam led hz _ _ _).1, Finset.mul_sum]
  refine Finset.sum_congr rfl fun k _ => ?_
  rw [(integral_slice cam led hz _ _ _).2]
  unfold lengthInside border
  push_cast
  ring

theorem lineDepth_horizontal (cam led : P3) (hz : cam.2.2 = led.2.2) (lo hi : ℝ) {n : ℕ} (σ : Fin n → ℝ) :
    lineDepth cam led lo hi σ = horizontalDist cam led * extinctionAt lo hi σ cam.2.2 := by
  unfold lineDepth
  rw [euclid_horizontal cam led hz]
  simp [hz]

/-- A ray with distances: camera and LED in the domain, not both at its upper end, and not at the same place. -/
structure RayInDomain (cam led : P3) (lo hi : ℝ) : Prop where
  ne : cam ≠ led
  cam_in : lo ≤ cam.2.2 ∧ cam.2.2 ≤ hi
  led_in : lo ≤ led.2.2 ∧ led.2.2 ≤ hi
  top : ¬ (cam.2.2 = hi ∧ led.2.2 = hi)

/-- **C95.** The distances of a ray weigh the layers as the line integral does, for every smoke field. -/
theorem C95_distances (cam led : P3) (lo hi : ℝ) (n : ℕ) (hn : 1 ≤ n) (h : lo < hi) (hr : RayInDomain cam led lo hi) :
    ∃ ds, distPerLayer cam led (layers lo hi n) = .dists ds ∧ ds.length = n ∧ (∀ d ∈ ds, 0 ≤ d) ∧
      ∀ σ : Fin n → ℝ, ∑ k : Fin n, ds.getD k 0 * σ k = lineDepth cam led lo hi σ := by
  classical
  obtain ⟨ds, h1, h2, _⟩ := C40_sum_partial cam led lo hi n hn h hr.ne hr.cam_in hr.led_in hr.top
  have hlay : ∀ k : Fin n, (layers lo hi n)[(k : ℕ)]? = some ⟨border lo hi n k, border lo hi n (k + 1)⟩ :=
    fun k => layers_getElem? lo hi n k k.2
  have hlen : (layers lo hi n).length = n := by simp [layers]
  by_cases hz : cam.2.2 = led.2.2
  · have hds : ds = distInPlane cam led (layers lo hi n) := by
      unfold distPerLayer at h1
      rw [alpha_horizontal cam led hz hr.ne] at h1
      simp only [if_true] at h1
      unfold checked at h1
      split at h1
      · cases h1
      · exact (LayerDists.dists.inj h1).symm
    refine ⟨ds, h1, by rw [hds]; simp [distInPlane, hlen], h2, fun σ => ?_⟩
    rw [lineDepth_horizontal cam led hz, hds]
    unfold extinctionAt distInPlane
    rw [Finset.mul_sum]
    refine Finset.sum_congr rfl fun k _ => ?_
    rw [List.getD_eq_getElem?_getD, List.getElem?_map, hlay k]
    simp only [Option.map_some, Option.getD_some, border_eq]
    push_cast
    split <;> simp
  · have hds := C39_length_in_layer cam led hz _ ds h1
    refine ⟨ds, h1, by rw [hds]; simp [hlen], h2, fun σ => ?_⟩
    rw [lineDepth_slanted cam led hz, hds]
    refine Finset.sum_congr rfl fun k _ => ?_
    rw [List.getD_eq_getElem?_getD, List.getElem?_map, hlay k]
    rfl

/-! ### Loading -/

theorem arrayData_ok {K : Type} (files : ℕ → List (ℕ × ℕ × K)) (N arr : ℕ) (hN : 0 < N) (leds : List ℕ) (v : ℕ → ℕ → K)
    (hl : leds.Pairwise (· < ·)) (hne : leds ≠ []) (hnd : ∀ i, 1 ≤ i → i ≤ N → ((files i).map (·.1)).Nodup)
    (h : ∀ i, 1 ≤ i → i ≤ N → ∀ l x, (l, arr, x) ∈ files i ↔ l ∈ leds ∧ x = v i l) :
    arrayData (loadedTable files N) arr = .ok (tableOf (firstImgs N) leds v) := by
  have key : ∀ i, 1 ≤ i → i ≤ N →
      ((sortRows (files i)).filter fun r => r.2.1 = arr) = leds.map fun l => (l, arr, v i l) := by
    intro i h1 h2
    have hs := (sortRows_sorted (files i) (hnd i h1 h2)).filter (fun r => decide (r.2.1 = arr))
    have hmem : ∀ r, r ∈ (sortRows (files i)).filter (fun r => decide (r.2.1 = arr)) ↔ r ∈ leds.map fun l => (l, arr, v i l) := by
      rintro ⟨l, a, x⟩
      rw [List.mem_filter, sortRows_mem, List.mem_map]
      constructor
      · rintro ⟨hm, ha⟩
        have ha : a = arr := by simpa using ha
        subst ha
        obtain ⟨h3, h4⟩ := (h i h1 h2 l x).1 hm
        exact ⟨l, h3, by rw [h4]⟩
      · rintro ⟨l', h3, h4⟩
        rw [Prod.mk.injEq, Prod.mk.injEq] at h4
        obtain ⟨rfl, rfl, rfl⟩ := h4
        exact ⟨(h i h1 h2 l' _).2 ⟨h3, rfl⟩, by simp⟩
    have hs' : (leds.map fun l => (l, arr, v i l)).Pairwise (fun x y => x.1 < y.1) := by
      rw [List.pairwise_map]; exact hl
    refine List.Perm.eq_of_pairwise (le := fun x y => x.1 < y.1) ?_ hs hs' ?_
    · intro x y _ _ h3 h4
      exact absurd (h3.trans h4) (lt_irrefl _)
    · rw [List.perm_ext_iff_of_nodup (hs.imp fun h he => by rw [he] at h; exact lt_irrefl _ h)
        (hs'.imp fun h he => by rw [he] at h; exact lt_irrefl _ h)]
      exact hmem
  have hrows : ((loadedTable files N).filter fun r => r.2.2.1 = arr).map (fun r => (r.1, r.2.1, r.2.2.2)) =
      tableOf (firstImgs N) leds v := by
    unfold loadedTable tableOf firstImgs
    rw [List.filter_flatMap, List.map_flatMap, List.flatMap_map]
    apply List.flatMap_congr
    intro k hk
    rw [List.mem_range] at hk
    rw [List.filter_map]
    show (List.map _ (List.map _ (List.filter (fun r => decide (r.2.1 = arr)) (sortRows (files (k + 1)))))) = _
    rw [key (k + 1) (by omega) (by omega), List.map_map, List.map_map]
    rfl
  unfold arrayData
  rw [hrows]
  have : tableOf (firstImgs N) leds v ≠ [] := by
    obtain ⟨n, rfl⟩ := Nat.exists_eq_succ_of_ne_zero hN.ne'
    obtain ⟨l, ls, rfl⟩ := List.exists_cons_of_ne_nil hne
    simp [tableOf, firstImgs, List.range_succ_eq_map]
  split
  · rename_i h0; exact absurd h0 this
  · rfl

/-! ### C95 -/

/-- An LED array seen through smoke: the LEDs `leds` in ascending order, at `pos`, send `emit`; image `i` is taken while the
extinction coefficients of the layers are `smoke i`, and the intensities follow the Beer-Lambert law. The reference images are
taken without smoke. -/
structure SmokeExperiment (a : ArrayAnalysis) (leds : List ℕ) (pos : ℕ → P3) (files : ℕ → List (ℕ × ℕ × ℝ)) (N : ℕ)
    (emit : ℕ → ℝ) (smoke : ℕ → Fin a.layers → ℝ) : Prop where
  ids : a.ids = leds.reverse
  ascending : leds.Pairwise (· < ·)
  nonempty : leds ≠ []
  positions : ∀ l ∈ leds, a.coordinates[l]? = some (pos l)
  layers : 1 ≤ a.layers
  domain : a.lo < a.hi
  rays : ∀ l ∈ leds, RayInDomain a.cam (pos l) a.lo a.hi
  emits : ∀ l ∈ leds, 0 < emit l
  nodup : ∀ i, 1 ≤ i → i ≤ N → ((files i).map (·.1)).Nodup
  measured : ∀ i, 1 ≤ i → i ≤ N → ∀ l x, (l, a.arr, x) ∈ files i ↔
    l ∈ leds ∧ x = emit l * Real.exp (-lineDepth a.cam (pos l) a.lo a.hi (smoke i))
  clear : ∀ i, 1 ≤ i → i ≤ N → a.ref.selects i = true → smoke i = fun _ => 0
  reference : ∃ i, 1 ≤ i ∧ i ≤ N ∧ a.ref.selects i = true

theorem mem_firstImgs (N i : ℕ) : i ∈ firstImgs N ↔ 1 ≤ i ∧ i ≤ N := by
  unfold firstImgs
  rw [List.mem_map]
  constructor
  · rintro ⟨k, hk, rfl⟩
    rw [List.mem_range] at hk
    omega
  · rintro ⟨h1, h2⟩
    exact ⟨i - 1, List.mem_range.2 (by omega), by omega⟩

theorem lineDepth_zero (cam led : P3) (lo hi : ℝ) (n : ℕ) : lineDepth cam led lo hi (fun _ : Fin n => 0) = 0 := by
  unfold lineDepth extinctionAt
  simp

/-- **C95.** The solver gets the transmissions of the rays, and for each LED its own distances. -/
theorem C95_input (a : ArrayAnalysis) (leds : List ℕ) (pos : ℕ → P3) (files : ℕ → List (ℕ × ℕ × ℝ)) (N : ℕ)
    (emit : ℕ → ℝ) (smoke : ℕ → Fin a.layers → ℝ) (h : SmokeExperiment a leds pos files N emit smoke) :
    ∃ ds : ℕ → List ℝ,
      a.solverInput files N = .ok (leds.map fun l => some (ds l),
        (firstImgs N).map fun i => leds.map fun l => Real.exp (-lineDepth a.cam (pos l) a.lo a.hi (smoke i))) ∧
      ∀ l ∈ leds, (ds l).length = a.layers ∧ (∀ d ∈ ds l, 0 ≤ d) ∧
        ∀ σ : Fin a.layers → ℝ, ∑ k : Fin a.layers, (ds l).getD k 0 * σ k = lineDepth a.cam (pos l) a.lo a.hi σ := by
  have hex : ∀ l, ∃ ds : List ℝ, l ∈ leds → distPerLayer a.cam (pos l) (Ledsa.layers a.lo a.hi a.layers) = .dists ds ∧
      ds.length = a.layers ∧ (∀ d ∈ ds, 0 ≤ d) ∧
      ∀ σ : Fin a.layers → ℝ, ∑ k : Fin a.layers, ds.getD k 0 * σ k = lineDepth a.cam (pos l) a.lo a.hi σ := by
    intro l
    by_cases hl : l ∈ leds
    · obtain ⟨ds, hds⟩ := C95_distances a.cam (pos l) a.lo a.hi a.layers h.layers h.domain (h.rays l hl)
      exact ⟨ds, fun _ => hds⟩
    · exact ⟨[], fun h => absurd h hl⟩
  choose ds hds using hex
  refine ⟨ds, ?_, fun l hl => (hds l hl).2⟩
  obtain ⟨i0, hi1, hi2, hi3⟩ := h.reference
  have hN : 0 < N := by omega
  have hpos : ledPositions a.coordinates a.ids = .ok (leds.reverse.map pos) := by
    unfold ledPositions
    rw [h.ids]
    have : leds.reverse.mapM (fun i => a.coordinates[i]?) = some (leds.reverse.map pos) :=
      mapM_option_some _ _ _ fun i hi => h.positions i (List.mem_reverse.1 hi)
    rw [this]
  have hdist : distanceArray a.cam (Ledsa.layers a.lo a.hi a.layers) (leds.reverse.map pos) = leds.map fun l => some (ds l) := by
    unfold distanceArray distanceRows
    rw [← List.map_reverse, List.reverse_reverse, List.map_map]
    apply List.map_congr_left
    intro l hl
    simp only [Function.comp, (hds l hl).1]
  set v : ℕ → ℕ → ℝ := fun i l => emit l * Real.exp (-lineDepth a.cam (pos l) a.lo a.hi (smoke i)) with hv
  have hdata := arrayData_ok files N a.arr hN leds v h.ascending h.nonempty h.nodup h.measured
  have hsel : ∃ i ∈ firstImgs N, a.ref.selects i = true := ⟨i0, (mem_firstImgs N i0).2 ⟨hi1, hi2⟩, hi3⟩
  have hrel : serialRel (tableOf (firstImgs N) leds v) (refIntensities a.ref (tableOf (firstImgs N) leds v)) =
      .ok ((firstImgs N).map fun i => leds.map fun l => Real.exp (-lineDepth a.cam (pos l) a.lo a.hi (smoke i))) := by
    rw [C46_value a.ref (firstImgs N) leds v (firstImgs_sorted N) h.ascending h.nonempty hsel]
    congr 1
    apply List.map_congr_left
    intro i _
    apply List.map_congr_left
    intro l hl
    have hmean : meanOver ((firstImgs N).filter a.ref.selects) v l = emit l := by
      unfold meanOver
      have hall : ((firstImgs N).filter a.ref.selects).map (fun j => v j l) =
          ((firstImgs N).filter a.ref.selects).map fun _ => emit l := by
        apply List.map_congr_left
        intro j hj
        rw [List.mem_filter, mem_firstImgs] at hj
        simp only [hv]
        rw [h.clear j hj.1.1 hj.1.2 hj.2, lineDepth_zero, neg_zero, Real.exp_zero, mul_one]
      rw [hall, List.map_const', List.sum_replicate, nsmul_eq_mul]
      have hlen : (((firstImgs N).filter a.ref.selects).length : ℝ) ≠ 0 := by
        rw [Nat.cast_ne_zero, Ne, List.length_eq_zero_iff]
        obtain ⟨i, h1, h2⟩ := hsel
        exact List.ne_nil_of_mem (List.mem_filter.2 ⟨h1, h2⟩)
      rw [mul_div_cancel_left₀ _ hlen]
    rw [hmean]
    simp only [hv]
    rw [mul_div_cancel_left₀ _ (h.emits l hl).ne']
  unfold ArrayAnalysis.solverInput ArrayAnalysis.inputOf
  rw [hpos, hdata]
  simp only [bind, Except.bind]
  rw [hdist]
  cases a.parallel with
  | false => simp only [Bool.false_eq_true, if_false]; rw [hrel]
  | true =>
    simp only [if_true]
    rw [C45_same_intensities N hN leds v h.ascending h.nonempty, hrel]

theorem mapM_id_some {α : Type} (l : List α) : (l.map some).mapM id = some l := by
  induction l with
  | nil => rfl
  | cons a l ih => rw [List.map_cons, List.mapM_cons, ih]; rfl

theorem mapM_id_ok {ε α : Type} (l : List α) : (l.map (Except.ok (ε := ε))).mapM id = .ok l := by
  induction l with
  | nil => rfl
  | cons a l ih => rw [List.map_cons, List.mapM_cons, ih]; rfl

/-- For transmissions of one profile only this profile can be returned. -/
theorem linearImage_iff {n : ℕ} (leds : List ℕ) (ds : ℕ → List ℝ) (lam : ℝ) (σ : Fin n → ℝ) (depthOf : ℕ → (Fin n → ℝ) → ℝ)
    (hd : ∀ l ∈ leds, ∀ τ : Fin n → ℝ, ∑ k : Fin n, (ds l).getD k 0 * τ k = depthOf l τ)
    (hsol : ∀ (m : ℕ) (A : Fin m → Fin n → ℝ), (∀ i, ∃ l ∈ leds, A i = fun (k : Fin n) => (ds l).getD k 0) →
      (∀ l ∈ leds, ∃ i, A i = fun (k : Fin n) => (ds l).getD k 0) → ∀ x, LinearSolution A lam (calcIntensities A σ) x ↔ x = σ)
    (r : Except PyErr (Fin n → ℝ)) :
    LinearImage n (leds.map fun l => some (ds l)) lam (leds.map fun l => Real.exp (-depthOf l σ)) r ↔ r = .ok σ := by
  unfold LinearImage
  have hM : (leds.map fun l => some (ds l)).mapM id = some (leds.map ds) := by
    rw [← mapM_id_some (leds.map ds), List.map_map]; rfl
  rw [hM]
  simp only
  rw [if_pos (by simp)]
  have hA : ∀ i : Fin (leds.map ds).length, distEntry (n := n) (leds.map ds) i =
      fun k : Fin n => (ds (leds[(i : ℕ)]'(by have := i.2; simpa using this))).getD k 0 := by
    intro i
    funext k
    unfold distEntry
    congr 1
    simp
  have hrel : (fun i : Fin (leds.map ds).length => (leds.map fun l => Real.exp (-depthOf l σ)).getD i 0) =
      calcIntensities (distEntry (leds.map ds)) σ := by
    funext i
    have hi : (i : ℕ) < leds.length := by have := i.2; simpa using this
    rw [C42_beer_lambert, hA i, List.getD_eq_getElem?_getD, List.getElem?_map, List.getElem?_eq_getElem hi]
    simp only [Option.map_some, Option.getD_some]
    rw [← hd _ (List.getElem_mem hi) σ]
    congr 2
    exact Finset.sum_congr rfl fun k _ => mul_comm _ _
  rw [hrel]
  have key := hsol _ (distEntry (leds.map ds)) (fun i => ⟨_, List.getElem_mem _, hA i⟩) (fun l hl => by
    obtain ⟨j, hj, rfl⟩ := List.getElem_of_mem hl
    exact ⟨⟨j, by simpa using hj⟩, hA _⟩)
  constructor
  · rintro ⟨x, hr, hx⟩
    rw [hr, (key x).1 hx]
  · rintro rfl
    exact ⟨σ, rfl, (key σ).2 rfl⟩

theorem result_iff (a : ArrayAnalysis) (files : ℕ → List (ℕ × ℕ × ℝ)) (N : ℕ) (rows : List (Option (List ℝ)))
    (imgs : List ℕ) (rel : ℕ → List ℝ) (σ : ℕ → Fin a.layers → ℝ)
    (hin : a.solverInput files N = .ok (rows, imgs.map rel))
    (h : ∀ i ∈ imgs, ∀ r, LinearImage a.layers rows a.lam (rel i) r ↔ r = .ok (σ i)) (r : Except PyErr (List (Fin a.layers → ℝ))) :
    a.Result files N r ↔ r = .ok (imgs.map σ) := by
  unfold ArrayAnalysis.Result ArrayAnalysis.ResultOf
  rw [hin]
  simp only
  have key : ∀ (l : List ℕ), (∀ i ∈ l, i ∈ imgs) → ∀ rs,
      (List.Forall₂ (LinearImage a.layers rows a.lam) (l.map rel) rs ↔ rs = l.map fun i => Except.ok (σ i)) := by
    intro l
    induction l with
    | nil => intro _ rs; simp
    | cons i l ih =>
      intro hl rs
      rw [List.map_cons, List.map_cons]
      constructor
      · intro hf
        cases hf with
        | cons h1 h2 =>
          rw [(h i (hl i (by simp)) _).1 h1, (ih (fun j hj => hl j (by simp [hj])) _).1 h2]
      · rintro rfl
        exact .cons ((h i (hl i (by simp)) _).2 rfl) ((ih (fun j hj => hl j (by simp [hj])) _).2 rfl)
  constructor
  · rintro ⟨rs, h1, rfl⟩
    rw [(key imgs (fun _ h => h) rs).1 h1]
    have := mapM_id_ok (ε := PyErr) (imgs.map σ)
    rwa [List.map_map] at this
  · rintro rfl
    refine ⟨imgs.map fun i => Except.ok (σ i), (key imgs (fun _ h => h) _).2 rfl, ?_⟩
    have := mapM_id_ok (ε := PyErr) (imgs.map σ)
    rw [List.map_map] at this
    exact this.symm

/-- **C95.** Smoke profiles linear in height are found exactly, image by image, whatever the LEDs emit, for one or several
cores, if the rays determine such profiles and no optical depth exceeds 23. -/
theorem C95_recovered (a : ArrayAnalysis) (leds : List ℕ) (pos : ℕ → P3) (files : ℕ → List (ℕ × ℕ × ℝ)) (N : ℕ)
    (emit : ℕ → ℝ) (smoke : ℕ → Fin a.layers → ℝ) (h : SmokeExperiment a leds pos files N emit smoke)
    (h3 : 3 ≤ a.layers) (hlam : 0 < a.lam) (hnn : ∀ i k, 0 ≤ smoke i k) (hlin : ∀ i, Affine (smoke i))
    (hthin : ∀ i, ∀ l ∈ leds, lineDepth a.cam (pos l) a.lo a.hi (smoke i) ≤ 23)
    (hdet : ∀ σ τ : Fin a.layers → ℝ, Affine σ → Affine τ →
      (∀ l ∈ leds, lineDepth a.cam (pos l) a.lo a.hi σ = lineDepth a.cam (pos l) a.lo a.hi τ) → σ = τ)
    (r : Except PyErr (List (Fin a.layers → ℝ))) :
    a.Result files N r ↔ r = .ok ((firstImgs N).map smoke) := by
  obtain ⟨ds, hin, hds⟩ := C95_input a leds pos files N emit smoke h
  refine result_iff a files N _ (firstImgs N) _ smoke hin ?_ r
  intro i _ r
  refine linearImage_iff leds ds a.lam (smoke i) (fun l τ => lineDepth a.cam (pos l) a.lo a.hi τ) (fun l hl τ => (hds l hl).2.2 τ) ?_ r
  intro m A hA hA' x
  have hdepth : ∀ i (τ : Fin a.layers → ℝ), ∃ l ∈ leds, depth τ (A i) = lineDepth a.cam (pos l) a.lo a.hi τ := by
    intro i τ
    obtain ⟨l, hl, he⟩ := hA i
    exact ⟨l, hl, by rw [he]; exact (hds l hl).2.2 τ⟩
  apply C43_linear_profile_partial h3 A
  · intro i k
    obtain ⟨l, hl, he⟩ := hA i
    rw [he]
    simp only [List.getD_eq_getElem?_getD]
    cases hk : (ds l)[(k : ℕ)]? with
    | none => simp
    | some d => simpa using (hds l hl).2.1 d (List.mem_of_getElem? hk)
  · intro σ τ hσ hτ heq
    apply hdet σ τ hσ hτ
    intro l hl
    obtain ⟨j, hj⟩ := hA' l hl
    have := heq j
    rw [hj] at this
    rw [← (hds l hl).2.2 σ, ← (hds l hl).2.2 τ]
    exact this
  · exact hlam
  · exact hnn i
  · exact hlin i
  · intro j
    obtain ⟨l, hl, he⟩ := hdepth j (smoke i)
    rw [he]
    refine (hthin i l hl).trans ?_
    have : (23 : ℝ) / 10 ≤ Real.log 10 := by
      rw [Real.le_log_iff_exp_le (by norm_num)]
      have h1 := Real.exp_one_lt_d9
      have h2 : Real.exp (23 / 10) ^ 10 = Real.exp 1 ^ 23 := by
        rw [← Real.exp_nat_mul, ← Real.exp_nat_mul]; norm_num
      have h3 : Real.exp 1 ^ 23 ≤ 10 ^ 10 := by
        calc Real.exp 1 ^ 23 ≤ 2.7182818286 ^ 23 := by gcongr
          _ ≤ 10 ^ 10 := by norm_num
      have h4 : Real.exp (23 / 10) ^ 10 ≤ 10 ^ 10 := h2 ▸ h3
      exact le_of_pow_le_pow_left₀ (by norm_num) (by norm_num) h4
    linarith

/-! ### A case of C95: one LED next to the camera in the lowest layer, one straight above it -/

/-- Camera at the origin, three layers of one metre, two LEDs. -/
noncomputable def exampleAnalysis : ArrayAnalysis where
  cam := (0, 0, 0)
  lo := 0
  hi := 3
  layers := 3
  coordinates := [(1, 0, 0), (0, 0, 3)]
  ids := [1, 0]
  arr := 0
  ref := .first 1
  lam := 1 / 1000
  parallel := true

/-- Coordinates of the LEDs. -/
def examplePos (l : ℕ) : P3 := if l = 0 then (1, 0, 0) else (0, 0, 3)

/-- No smoke in the first image, then 1, 2, 3 per metre. -/
def exampleSmoke (i : ℕ) : Fin 3 → ℝ := if i = 1 then fun _ => 0 else fun k => 1 + 1 * ((k : ℕ) : ℝ)

theorem example_depth0 (σ : Fin 3 → ℝ) : lineDepth (0, 0, 0) (examplePos 0) 0 3 σ = σ 0 := by
  rw [lineDepth_horizontal _ _ (by simp [examplePos])]
  unfold extinctionAt horizontalDist examplePos
  rw [Fin.sum_univ_three]
  norm_num

theorem example_depth1 (σ : Fin 3 → ℝ) : lineDepth (0, 0, 0) (examplePos 1) 0 3 σ = σ 0 + σ 1 + σ 2 := by
  rw [lineDepth_slanted _ _ (by simp [examplePos])]
  rw [Fin.sum_univ_three]
  have he : euclid (0, 0, 0) (examplePos 1) = 3 := by
    unfold euclid examplePos
    norm_num
    rw [show (9 : ℝ) = 3 ^ 2 by norm_num, Real.sqrt_sq (by norm_num)]
  have hl : ∀ k : ℕ, k < 3 → lengthInside (0, 0, 0) (examplePos 1) (border 0 3 3 k) (border 0 3 3 (k + 1)) = 1 := by
    intro k hk
    unfold lengthInside
    rw [volume_inside _ _ _ _ (by simp [examplePos]), he, heightInLayer_eq]
    unfold border examplePos
    have : k = 0 ∨ k = 1 ∨ k = 2 := by omega
    rcases this with rfl | rfl | rfl <;> norm_num
  have h0 := hl 0 (by norm_num)
  have h1 := hl 1 (by norm_num)
  have h2 := hl 2 (by norm_num)
  simp only [Fin.isValue, Fin.val_zero, Fin.val_one, Fin.val_two]
  rw [h0, h1, h2]
  ring

theorem example_determined (σ τ : Fin 3 → ℝ) (h1 : Affine σ) (h2 : Affine τ)
    (e0 : lineDepth (0, 0, 0) (examplePos 0) 0 3 σ = lineDepth (0, 0, 0) (examplePos 0) 0 3 τ)
    (e1 : lineDepth (0, 0, 0) (examplePos 1) 0 3 σ = lineDepth (0, 0, 0) (examplePos 1) 0 3 τ) : σ = τ := by
  obtain ⟨a, b, hσ⟩ := h1
  obtain ⟨c, d, hτ⟩ := h2
  rw [example_depth0, example_depth0, hσ, hτ] at e0
  rw [example_depth1, example_depth1, hσ, hσ, hσ, hτ, hτ, hτ] at e1
  simp at e0 e1
  have hbd : b = d := by linarith
  funext k
  rw [hσ, hτ, e0, hbd]

/-- Result files with the LEDs in any order and with LEDs of other arrays. -/
noncomputable def exampleFiles (i : ℕ) : List (ℕ × ℕ × ℝ) :=
  [(1, 0, 70 * Real.exp (-lineDepth (0, 0, 0) (examplePos 1) 0 3 (exampleSmoke i))), (9, 4, 1),
   (0, 0, 50 * Real.exp (-lineDepth (0, 0, 0) (examplePos 0) 0 3 (exampleSmoke i)))]

theorem exampleSmoke_affine (i : ℕ) : Affine (exampleSmoke i) := by
  unfold exampleSmoke
  split
  · exact ⟨0, 0, fun _ => by simp⟩
  · exact ⟨1, 1, fun _ => rfl⟩

example (r : Except PyErr (List (Fin 3 → ℝ))) :
    exampleAnalysis.Result exampleFiles 2 r ↔ r = .ok [fun _ => 0, fun k => 1 + 1 * ((k : ℕ) : ℝ)] := by
  have hsm : ∀ i (k : Fin 3), 0 ≤ exampleSmoke i k ∧ exampleSmoke i k ≤ 3 := by
    intro i k
    unfold exampleSmoke
    have h2 : ((k : ℕ) : ℝ) ≤ 2 := by exact_mod_cast (by omega : (k : ℕ) ≤ 2)
    have h0 : (0 : ℝ) ≤ ((k : ℕ) : ℝ) := Nat.cast_nonneg _
    split
    · simp
    · constructor <;> linarith
  have hexp : SmokeExperiment exampleAnalysis [0, 1] examplePos exampleFiles 2 (fun l => if l = 0 then 50 else 70) exampleSmoke := {
    ids := rfl
    ascending := by simp
    nonempty := by simp
    positions := by
      intro l hl
      simp only [List.mem_cons, List.not_mem_nil, or_false] at hl
      rcases hl with rfl | rfl <;> simp [exampleAnalysis, examplePos]
    layers := by simp [exampleAnalysis]
    domain := by simp [exampleAnalysis]
    rays := by
      intro l hl
      simp only [List.mem_cons, List.not_mem_nil, or_false] at hl
      rcases hl with rfl | rfl
      · exact ⟨by simp [exampleAnalysis, examplePos], by simp [exampleAnalysis], by simp [exampleAnalysis, examplePos],
          by simp [exampleAnalysis]⟩
      · exact ⟨by simp [exampleAnalysis, examplePos], by simp [exampleAnalysis], by simp [exampleAnalysis, examplePos],
          by simp [exampleAnalysis]⟩
    emits := by
      intro l _
      split <;> norm_num
    nodup := by
      intro i _ _
      simp [exampleFiles]
    measured := by
      intro i _ _ l x
      unfold exampleFiles exampleAnalysis
      simp only [List.mem_cons, Prod.mk.injEq, List.not_mem_nil, or_false]
      constructor
      · rintro (⟨rfl, _, rfl⟩ | ⟨_, h, _⟩ | ⟨rfl, _, rfl⟩)
        · simp
        · cases h
        · simp
      · rintro ⟨rfl | rfl, rfl⟩
        · simp
        · simp
    clear := by
      intro i h1 _ h2
      simp only [exampleAnalysis, RefChoice.selects, decide_eq_true_eq] at h2
      have : i = 1 := by omega
      subst this
      rfl
    reference := ⟨1, le_refl _, by norm_num, by simp [exampleAnalysis, RefChoice.selects]⟩ }
  have key := C95_recovered exampleAnalysis [0, 1] examplePos exampleFiles 2 _ exampleSmoke hexp (le_refl _)
    (by simp [exampleAnalysis]) (fun i k => (hsm i k).1) exampleSmoke_affine (by
      intro i l hl
      simp only [List.mem_cons, List.not_mem_nil, or_false] at hl
      rcases hl with rfl | rfl
      · show lineDepth (0, 0, 0) (examplePos 0) 0 3 (exampleSmoke i) ≤ 23
        rw [example_depth0]
        linarith [(hsm i 0).2]
      · show lineDepth (0, 0, 0) (examplePos 1) 0 3 (exampleSmoke i) ≤ 23
        rw [example_depth1]
        linarith [(hsm i 0).2, (hsm i 1).2, (hsm i 2).2]) (by
      intro σ τ hσ hτ h
      exact example_determined σ τ hσ hτ (h 0 (by simp)) (h 1 (by simp))) r
  rw [key]
  have : (firstImgs 2).map exampleSmoke = [fun _ => 0, fun k : Fin 3 => 1 + 1 * ((k : ℕ) : ℝ)] := by
    simp [firstImgs, exampleSmoke, List.range_succ]
  constructor
  · intro h; rw [h]; exact congrArg Except.ok this
  · intro h; rw [h]; exact congrArg Except.ok this.symm

/-! ### C96 -/

/-- **C96 refuted**: a single LED of the array without distances makes the analysis of the whole array fail, although the other
LEDs could be used. -/
theorem C96_false (a : ArrayAnalysis) (files : ℕ → List (ℕ × ℕ × ℝ)) (N : ℕ) (hN : 0 < N) (leds : List ℕ) (v : ℕ → ℕ → ℝ)
    (hl : leds.Pairwise (· < ·)) (hnd : ∀ i, 1 ≤ i → i ≤ N → ((files i).map (·.1)).Nodup)
    (hm : ∀ i, 1 ≤ i → i ≤ N → ∀ l x, (l, a.arr, x) ∈ files i ↔ l ∈ leds ∧ x = v i l)
    (hids : a.ids = leds.reverse) (href : ∃ i, 1 ≤ i ∧ i ≤ N ∧ a.ref.selects i = true)
    (pos : ℕ → P3) (hpos : ∀ l ∈ leds, a.coordinates[l]? = some (pos l)) (bad : ℕ) (hbad : bad ∈ leds)
    (hmiss : distPerLayer a.cam (pos bad) (layers a.lo a.hi a.layers) = .missing) (r : Except PyErr (List (Fin a.layers → ℝ))) :
    a.Result files N r ↔ r = .error .valueError := by
  have hne : leds ≠ [] := List.ne_nil_of_mem hbad
  have hp : ledPositions a.coordinates a.ids = .ok (leds.reverse.map pos) := by
    unfold ledPositions
    rw [hids]
    have : leds.reverse.mapM (fun i => a.coordinates[i]?) = some (leds.reverse.map pos) :=
      mapM_option_some _ _ _ fun i hi => hpos i (List.mem_reverse.1 hi)
    rw [this]
  obtain ⟨i0, hi1, hi2, hi3⟩ := href
  have hsel : ∃ i ∈ firstImgs N, a.ref.selects i = true := ⟨i0, (mem_firstImgs N i0).2 ⟨hi1, hi2⟩, hi3⟩
  have hrel := C46_value a.ref (firstImgs N) leds v (firstImgs_sorted N) hl hne hsel
  have hin : a.solverInput files N = .ok (distanceArray a.cam (layers a.lo a.hi a.layers) (leds.reverse.map pos),
      (firstImgs N).map fun i => leds.map fun l => v i l / meanOver ((firstImgs N).filter a.ref.selects) v l) := by
    unfold ArrayAnalysis.solverInput ArrayAnalysis.inputOf
    rw [hp, arrayData_ok files N a.arr hN leds v hl hne hnd hm]
    simp only [bind, Except.bind]
    cases a.parallel with
    | false => simp only [Bool.false_eq_true, if_false]; rw [hrel]
    | true =>
      simp only [if_true]
      rw [C45_same_intensities N hN leds v hl hne, hrel]
  have hnone : (distanceArray a.cam (layers a.lo a.hi a.layers) (leds.reverse.map pos)).mapM id = none := by
    have hmem : none ∈ distanceArray a.cam (layers a.lo a.hi a.layers) (leds.reverse.map pos) := by
      unfold distanceArray distanceRows
      rw [List.mem_map]
      refine ⟨pos bad, ?_, ?_⟩
      · rw [List.mem_reverse, List.mem_map]
        exact ⟨bad, List.mem_reverse.2 hbad, rfl⟩
      · simp only [hmiss]
    exact mapM_option_none id _ ⟨none, hmem, rfl⟩
  unfold ArrayAnalysis.Result ArrayAnalysis.ResultOf
  rw [hin]
  simp only
  have himg : ∀ rel r, LinearImage a.layers (distanceArray a.cam (layers a.lo a.hi a.layers) (leds.reverse.map pos)) a.lam rel r ↔
      r = .error .valueError := by
    intro rel r
    unfold LinearImage
    rw [hnone]
  obtain ⟨n, rfl⟩ := Nat.exists_eq_succ_of_ne_zero hN.ne'
  have hcons : firstImgs (n + 1) = 1 :: (firstImgs (n + 1)).tail := by
    simp [firstImgs, List.range_succ_eq_map]
  constructor
  · rintro ⟨rs, h1, rfl⟩
    rw [hcons, List.map_cons] at h1
    cases h1 with
    | cons h2 h3 =>
      rw [(himg _ _).1 h2]
      rfl
  · rintro rfl
    refine ⟨(firstImgs (n + 1)).map fun _ => .error .valueError, ?_, ?_⟩
    · rw [List.forall₂_map_left_iff, List.forall₂_map_right_iff, List.forall₂_same]
      intro i _
      exact (himg _ _).2 rfl
    · rw [hcons]; rfl

end Ledsa
