import Verif.Model.RoundedRun
import Verif.Props.RoundedAnalysis
import Verif.Props.BenchRun

/-! From the LED arrays on the bench to the smoke in floating point (C137). -/

namespace Ledsa

/-! ### Layers with shifted borders -/

/-- The height is not near a border of the layer. -/
def ClearOf (z δ : ℝ) (l : Layer) : Prop := z + δ ≤ l.bottom ∨ (l.bottom + δ ≤ z ∧ z + δ ≤ l.top) ∨ l.top + δ ≤ z

open Classical in
theorem rayIn_near (cam p : P3) (l : Layer) (δ : ℝ) (hc : ClearOf cam.2.2 (δ / 2) l) (hd : |p.2.2 - cam.2.2| < δ / 2) :
    rayIn cam p l = if l.bottom ≤ cam.2.2 ∧ cam.2.2 < l.top then euclid cam p else 0 := by
  have hδ : 0 < δ / 2 := (abs_nonneg _).trans_lt hd
  have hray : ∀ t ∈ Set.uIcc (0 : ℝ) 1, (if l.bottom ≤ cam.2.2 + t * (p.2.2 - cam.2.2) ∧ cam.2.2 + t * (p.2.2 - cam.2.2) < l.top then (1 : ℝ) else 0) =
      if l.bottom ≤ cam.2.2 ∧ cam.2.2 < l.top then (1 : ℝ) else 0 := by
    intro t ht
    rw [Set.uIcc_of_le zero_le_one] at ht
    have h1 : |t * (p.2.2 - cam.2.2)| < δ / 2 := by
      rw [abs_mul, abs_of_nonneg ht.1]
      exact (mul_le_of_le_one_left (abs_nonneg _) ht.2).trans_lt hd
    rw [abs_lt] at h1
    congr 1
    apply propext
    rcases hc with hc | ⟨hc1, hc2⟩ | hc
    · constructor <;> intro h <;> exfalso <;> linarith [h.1]
    · constructor <;> intro _ <;> constructor <;> linarith [h1.1, h1.2]
    · constructor <;> intro h <;> exfalso <;> linarith [h.2]
  unfold rayIn
  rw [intervalIntegral.integral_congr hray]
  split_ifs <;> simp

theorem height_shift (cz lz b t b' t' Δ : ℝ) (hb : |b - b'| ≤ Δ) (ht : |t - t'| ≤ Δ) :
    |heightInLayer cz lz b t - heightInLayer cz lz b' t'| ≤ 2 * Δ := by
  rw [heightInLayer_eq, heightInLayer_eq]
  have h1 : |min (max cz lz) t - min (max cz lz) t'| ≤ Δ := by
    have := abs_min_sub_min_le_max (max cz lz) t (max cz lz) t'
    rw [sub_self, abs_zero] at this
    exact this.trans (max_le ((abs_nonneg _).trans ht) ht)
  have h2 : |max (min cz lz) b - max (min cz lz) b'| ≤ Δ := by
    have := abs_max_sub_max_le_max (min cz lz) b (min cz lz) b'
    rw [sub_self, abs_zero] at this
    exact this.trans (max_le ((abs_nonneg _).trans hb) hb)
  have h3 := abs_max_sub_max_le_max 0 (min (max cz lz) t - max (min cz lz) b) 0 (min (max cz lz) t' - max (min cz lz) b')
  rw [sub_self, abs_zero] at h3
  have hΔ : 0 ≤ Δ := (abs_nonneg _).trans hb
  refine h3.trans (max_le (by linarith) ?_)
  rw [abs_le] at h1 h2 ⊢
  constructor <;> linarith [h1.1, h1.2, h2.1, h2.2]

/-- Borders that are shifted by `Δ` change the distance in a layer by at most `4 Δ L / δ`. -/
theorem rayIn_shift (cam p : P3) (l l' : Layer) (δ Δ : ℝ) (hδ : 0 < δ) (hΔ : 2 * Δ ≤ δ) (hc : ClearOf cam.2.2 δ l)
    (hb : |l.bottom - l'.bottom| ≤ Δ) (ht : |l.top - l'.top| ≤ Δ) : |rayIn cam p l - rayIn cam p l'| ≤ 4 * Δ * euclid cam p / δ := by
  classical
  have hΔ0 : 0 ≤ Δ := (abs_nonneg _).trans hb
  have hE := euclid_nonneg cam p
  rcases lt_or_ge |p.2.2 - cam.2.2| (δ / 2) with h | h
  · have hb' := abs_le.1 hb
    have ht' := abs_le.1 ht
    have c1 : ClearOf cam.2.2 (δ / 2) l := by
      rcases hc with hc | ⟨hc1, hc2⟩ | hc
      · left; linarith
      · right; left; constructor <;> linarith
      · right; right; linarith
    have c2 : ClearOf cam.2.2 (δ / 2) l' := by
      rcases hc with hc | ⟨hc1, hc2⟩ | hc
      · left; linarith [hb'.2]
      · right; left; constructor <;> linarith [hb'.1, ht'.2]
      · right; right; linarith [ht'.1]
    rw [rayIn_near cam p l δ c1 h, rayIn_near cam p l' δ c2 h]
    have e : (l.bottom ≤ cam.2.2 ∧ cam.2.2 < l.top) ↔ (l'.bottom ≤ cam.2.2 ∧ cam.2.2 < l'.top) := by
      rcases hc with hc | ⟨hc1, hc2⟩ | hc
      · constructor <;> intro h <;> exfalso <;> linarith [h.1, hb'.2]
      · constructor <;> intro _ <;> constructor <;> linarith [hb'.1, ht'.2]
      · constructor <;> intro h <;> exfalso <;> linarith [h.2, ht'.1]
    simp only [e, sub_self, abs_zero]
    positivity
  · have hz : cam.2.2 ≠ p.2.2 := by
      intro hz
      rw [hz, sub_self, abs_zero] at h
      linarith
    have hd : 0 < |p.2.2 - cam.2.2| := lt_of_lt_of_le (by positivity) h
    rw [rayIn_height cam p hz, rayIn_height cam p hz, ← sub_mul, abs_mul, abs_of_nonneg (div_nonneg hE hd.le)]
    have h1 := height_shift cam.2.2 p.2.2 l.bottom l.top l'.bottom l'.top Δ hb ht
    have h2 : euclid cam p / |p.2.2 - cam.2.2| ≤ euclid cam p / (δ / 2) := div_le_div_of_nonneg_left hE (by positivity) h
    calc _ ≤ 2 * Δ * (euclid cam p / (δ / 2)) := mul_le_mul h1 h2 (div_nonneg hE hd.le) (by positivity)
      _ = _ := by field_simp; ring

theorem lineDepth_rayIn (cam p : P3) (lo hi : ℝ) {n : ℕ} (σ : Fin n → ℝ) :
    lineDepth cam p lo hi σ = ∑ k : Fin n, rayIn cam p ⟨border lo hi n k, border lo hi n (k + 1)⟩ * σ k := by
  classical
  by_cases hz : cam.2.2 = p.2.2
  · rw [lineDepth_horizontal cam p hz]
    unfold extinctionAt
    rw [Finset.mul_sum]
    refine Finset.sum_congr rfl fun k _ => ?_
    rw [rayIn_horizontal cam p hz]
    unfold border
    push_cast
    split_ifs <;> simp
  · rw [lineDepth_slanted cam p hz]
    exact Finset.sum_congr rfl fun k _ => by rw [rayIn_slanted cam p hz]

/-- The camera is clear of all layers if it is inside one of them. -/
theorem clearOf_layers {lo hi : ℝ} (h : lo < hi) {n : ℕ} {δ z : ℝ} (hδ : 0 < δ) (hc : CameraClear lo hi n δ z) (k : ℕ) :
    ClearOf z δ ⟨border lo hi n k, border lo hi n (k + 1)⟩ := by
  obtain ⟨k0, hk0, h1, h2⟩ := hc
  have hs : 0 ≤ (hi - lo) / n := div_nonneg (by linarith) (Nat.cast_nonneg _)
  unfold ClearOf border
  simp only
  push_cast
  rcases lt_trichotomy k k0 with hlt | rfl | hgt
  · right; right
    have : ((k : ℝ) + 1) * ((hi - lo) / n) ≤ k0 * ((hi - lo) / n) := mul_le_mul_of_nonneg_right (by exact_mod_cast hlt) hs
    linarith
  · right; left
    exact ⟨h1, h2⟩
  · left
    have : ((k0 : ℝ) + 1) * ((hi - lo) / n) ≤ k * ((hi - lo) / n) := mul_le_mul_of_nonneg_right (by exact_mod_cast hgt) hs
    linarith

namespace Machine

variable (M : Machine)

theorem layers_length (lo hi : ℝ) (n : ℕ) : (M.layers lo hi n).length = n := by simp [layers]

/-- A profile for the layers as they are set up. -/
noncomputable def onLayers {lo hi : ℝ} {n : ℕ} (σ : Fin n → ℝ) (k : Fin (M.layers lo hi n).length) : ℝ := σ (Fin.cast (M.layers_length lo hi n) k)

/-- The optical depth of the ray through the layers as they are set up. -/
noncomputable def depthThrough (cam p : P3) (lo hi : ℝ) {n : ℕ} (σ : Fin n → ℝ) : ℝ := rayDepth cam p (M.layers lo hi n) (M.onLayers σ)

theorem depthThrough_eq (cam p : P3) (lo hi : ℝ) {n : ℕ} (σ : Fin n → ℝ) :
    M.depthThrough cam p lo hi σ = ∑ k : Fin n, rayIn cam p ⟨M.border lo hi n k, M.border lo hi n (k + 1)⟩ * σ k := by
  unfold depthThrough
  rw [rayDepth_eq, ← Equiv.sum_comp (finCongr (M.layers_length lo hi n).symm)]
  refine Finset.sum_congr rfl fun k _ => ?_
  congr 2
  simp only [layers, Fin.getElem_fin, List.getElem_map, List.getElem_range]
  rfl

/-- What the roundings of the borders make of optical depths. -/
noncomputable def borderError (n : ℕ) (lo hi S L δ : ℝ) : ℝ := n * (S * (48 * M.u * (|lo| + |hi|) * L / δ))

theorem depthThrough_near (cam p : P3) (lo hi : ℝ) (h : lo < hi) {n : ℕ} (hn : 0 < n) (hlo : M.rnd lo = lo) (hhi : M.rnd hi = hi)
    (hsmall : 4 * M.u * n ≤ 1) (σ : Fin n → ℝ) (S L δ : ℝ) (hσ : ∀ k, 0 ≤ σ k ∧ σ k ≤ S) (hL : Ledsa.euclid cam p ≤ L) (hδ : 0 < δ)
    (hΔ : 24 * M.u * (|lo| + |hi|) ≤ δ) (hcam : CameraClear lo hi n δ cam.2.2) :
    |lineDepth cam p lo hi σ - M.depthThrough cam p lo hi σ| ≤ M.borderError n lo hi S L δ := by
  have hb := (M.C124_layers lo hi n hn h hlo hhi hsmall).2.2
  have hu := M.u_nonneg
  rw [lineDepth_rayIn, M.depthThrough_eq, ← Finset.sum_sub_distrib]
  have hS : 0 ≤ S := (hσ ⟨0, hn⟩).1.trans (hσ ⟨0, hn⟩).2
  have hone : ∀ k : Fin n, |rayIn cam p ⟨Ledsa.border lo hi n k, Ledsa.border lo hi n (k + 1)⟩ * σ k -
      rayIn cam p ⟨M.border lo hi n k, M.border lo hi n (k + 1)⟩ * σ k| ≤ S * (48 * M.u * (|lo| + |hi|) * L / δ) := by
    intro k
    have hk : ∀ i ≤ n, |Ledsa.border lo hi n i - M.border lo hi n i| ≤ 12 * M.u * (|lo| + |hi|) := by
      intro i hi'
      rw [abs_sub_comm]
      refine (hb i hi').trans (le_of_eq ?_)
      ring
    have h1 := rayIn_shift cam p ⟨Ledsa.border lo hi n k, Ledsa.border lo hi n (k + 1)⟩ ⟨M.border lo hi n k, M.border lo hi n (k + 1)⟩ δ
      (12 * M.u * (|lo| + |hi|)) hδ (by linarith) (clearOf_layers h hδ hcam k) (hk k k.2.le) (hk (k + 1) k.2)
    rw [← sub_mul, abs_mul, abs_of_nonneg (hσ k).1, mul_comm]
    apply mul_le_mul (hσ k).2 _ (abs_nonneg _) hS
    refine h1.trans ?_
    apply div_le_div_of_nonneg_right _ hδ.le
    have : 0 ≤ 48 * M.u * (|lo| + |hi|) := by positivity
    calc _ = 48 * M.u * (|lo| + |hi|) * Ledsa.euclid cam p := by ring
      _ ≤ _ := mul_le_mul_of_nonneg_left hL this
  refine (Finset.abs_sum_le_sum_abs _ _).trans ((Finset.sum_le_sum fun k _ => hone k).trans ?_)
  unfold borderError
  simp

/-! ### The relative intensities -/

theorem refIntensities_tableOf (c : RefChoice) {imgs leds : List ℕ} (v : ℕ → ℕ → ℝ) (hl : leds.Pairwise (· < ·))
    (hr : imgs.filter c.selects ≠ []) :
    M.refIntensities c (tableOf imgs leds v) = leds.map fun l => M.mean ((imgs.filter c.selects).map fun j => v j l) := by
  unfold refIntensities
  rw [refData_tableOf, ledKeys_tableOf v hr hl]
  apply List.map_congr_left
  intro l hm
  rw [ledValues_tableOf v (hl.imp fun h => Nat.ne_of_lt h) hm]

theorem npDivide_map (leds : List ℕ) (f g : ℕ → ℝ) : M.npDivide (leds.map f) (leds.map g) = .ok (leds.map fun l => M.rnd (f l / g l)) := by
  unfold npDivide
  rw [if_pos (by simp)]
  congr 1
  induction leds with
  | nil => rfl
  | cons a t ih => simp [ih]

theorem rel_tableOf (c : RefChoice) (N : ℕ) (hN : 0 < N) (leds : List ℕ) (v : ℕ → ℕ → ℝ)
    (hl : leds.Pairwise (· < ·)) (hne : leds ≠ []) (hr : (firstImgs N).filter c.selects ≠ []) (par : Bool) :
    (if par then M.poolRel (tableOf (firstImgs N) leds v) (M.refIntensities c (tableOf (firstImgs N) leds v))
      else M.serialRel (tableOf (firstImgs N) leds v) (M.refIntensities c (tableOf (firstImgs N) leds v))) =
      .ok ((firstImgs N).map fun i => leds.map fun l => M.relIntensity (((firstImgs N).filter c.selects).map fun j => v j l) (v i l)) := by
  rw [M.refIntensities_tableOf c v hl hr]
  cases par with
  | false =>
    simp only [Bool.false_eq_true, if_false]
    unfold serialRel
    rw [imgKeys_tableOf v (firstImgs_sorted N) hne]
    apply mapM_ok
    intro i hm
    rw [imgValues_tableOf v ((firstImgs_sorted N).imp fun h => Nat.ne_of_lt h) hm, M.npDivide_map]
    rfl
  | true =>
    simp only [if_true]
    unfold poolRel
    rw [toArray_tableOf N hN leds v hl hne]
    simp only
    rw [List.mapM_map]
    apply mapM_ok
    intro i hm
    rw [Function.comp, M.npDivide_map]
    rfl

/-! ### A whole LED array -/

theorem _root_.Ledsa.forall₂_choose {α β : Type} [DecidableEq α] [Nonempty β] (R : α → β → Prop) : ∀ (l : List α) (rs : List β), l.Nodup →
    List.Forall₂ R l rs → ∃ g : α → β, rs = l.map g ∧ ∀ x ∈ l, R x (g x)
  | [], _, _, h => by
    cases h
    exact ⟨fun _ => Classical.arbitrary β, rfl, by simp⟩
  | a :: l, _, hnd, h => by
    cases h with
    | @cons _ b _ rs h1 h2 =>
      rw [List.nodup_cons] at hnd
      obtain ⟨g, rfl, hg⟩ := forall₂_choose R l rs hnd.2 h2
      refine ⟨fun x => if x = a then b else g x, ?_, ?_⟩
      · rw [List.map_cons, if_pos rfl]
        congr 1
        apply List.map_congr_left
        intro x hx
        rw [if_neg]
        rintro rfl
        exact hnd.1 hx
      · intro x hx
        by_cases hxa : x = a
        · subst hxa; simpa using h1
        · simp only [if_neg hxa]
          exact hg x ((List.mem_cons.1 hx).resolve_left hxa)

/-- What one image gives. -/
theorem image_result {n : ℕ} (ls : List Layer) (hlen : ls.length = n) (leds : List ℕ) (ds : ℕ → List ℝ) (cam : P3) (lo hi : ℝ) (pos : ℕ → P3)
    (hds : ∀ l ∈ leds, M.DistResult cam (pos l) ls (.dists (ds l))) (emit : ℕ → ℝ) (σ : Fin n → ℝ) (γ : ℝ) (refs : ℕ → List ℝ) (v : ℕ → ℝ)
    (hT : Tiles lo ls hi) (h3 : 3 ≤ n) (hrays : ∀ l ∈ leds, RayInDomain cam (pos l) lo hi) (hemit : ∀ l ∈ leds, 0 < emit l)
    (hσ : ∀ k, 0 ≤ σ k) (hthin : ∀ l ∈ leds, rayDepth cam (pos l) ls (fun k => σ (Fin.cast hlen k)) ≤ 23) (hγ : 0 ≤ γ)
    (hrefs : ∀ l ∈ leds, refs l ≠ [] ∧ ∀ r ∈ refs l, Within γ r (emit l)) (hnum : ∀ l ∈ leds, 100 * M.u * (refs l).length ≤ 1)
    (hv : ∀ l ∈ leds, Within γ (v l) (emit l * Real.exp (-rayDepth cam (pos l) ls (fun k => σ (Fin.cast hlen k)))))
    (lam ε : ℝ) (hlam : 0 ≤ lam) (hε : 0 ≤ ε) (r : Except PyErr (Fin n → ℝ))
    (h : M.LinearImage n (leds.map fun l => some (ds l)) lam ε (leds.map fun l => M.relIntensity (refs l) (v l)) r) :
    ∃ x, r = .ok x ∧ (∀ k, 0 ≤ x k) ∧ (∀ l ∈ leds, |rayDepth cam (pos l) ls (fun k => x (Fin.cast hlen k)) -
      rayDepth cam (pos l) ls (fun k => σ (Fin.cast hlen k))| ≤ 104 / 100 * M.imageErr leds.length γ lam ε σ + 1260 * M.u + 460 * M.w) ∧
      lam * bending (fun k => x k - σ k) ≤ 101 / 100 * M.imageErr leds.length γ lam ε σ ^ 2 := by
  subst hlen
  unfold LinearImage at h
  have hM : (leds.map fun l => some (ds l)).mapM id = some (leds.map ds) := by
    rw [← mapM_id_some (leds.map ds), List.map_map]; rfl
  rw [hM] at h
  simp only at h
  rw [if_pos (by simp)] at h
  obtain ⟨x, hr, hx⟩ := h
  have hlt : ∀ i : Fin (leds.map ds).length, (i : ℕ) < leds.length := fun i => by have := i.2; simpa using this
  have hmem : ∀ i : Fin (leds.map ds).length, leds[(i : ℕ)]'(hlt i) ∈ leds := fun i => List.getElem_mem _
  have e1 : (distEntry (leds.map ds) : Fin (leds.map ds).length → Fin ls.length → ℝ) =
      fun (i : Fin (leds.map ds).length) => entry ls.length (ds (leds[(i : ℕ)]'(hlt i))) := by
    funext i k
    unfold distEntry entry
    congr 1
    simp
  have e2 : (fun (i : Fin (leds.map ds).length) => (leds.map fun l => M.relIntensity (refs l) (v l)).getD i 0) =
      fun (i : Fin (leds.map ds).length) => M.relIntensity (refs (leds[(i : ℕ)]'(hlt i))) (v (leds[(i : ℕ)]'(hlt i))) := by
    funext i
    rw [List.getD_eq_getElem?_getD, List.getElem?_map, List.getElem?_eq_getElem (hlt i)]
    rfl
  rw [e1, e2] at hx
  have key := M.C125_depths cam ls lo hi (fun (i : Fin (leds.map ds).length) => pos (leds[(i : ℕ)]'(hlt i))) (fun i => emit (leds[(i : ℕ)]'(hlt i))) σ γ
    (fun i => refs (leds[(i : ℕ)]'(hlt i))) (fun i => v (leds[(i : ℕ)]'(hlt i)))
    ⟨hT, h3, fun i => hrays _ (hmem i), fun i => hemit _ (hmem i), hσ, fun i => hthin _ (hmem i), hγ, fun i => hrefs _ (hmem i),
      fun i => hv _ (hmem i)⟩ (fun i => hnum _ (hmem i)) (fun i => ds (leds[(i : ℕ)]'(hlt i))) (fun i => hds _ (hmem i)) lam ε hlam hε x hx
  obtain ⟨k1, k2, k3⟩ := key
  rw [List.length_map] at k3
  refine ⟨x, hr, k1, ?_, k3⟩
  intro l hl
  obtain ⟨i, hi', rfl⟩ := List.getElem_of_mem hl
  have e3 : M.imageErr (leds.map ds).length γ lam ε σ = M.imageErr leds.length γ lam ε σ := by rw [List.length_map]
  have := k2 ⟨i, by simpa using hi'⟩
  rw [e3] at this
  exact this

/-- The analysis fits into the machine: borders of the domain are numbers of the machine, and neither the layers nor the images nor the
distances are astronomically many or large. -/
structure Fits (a : ArrayAnalysis) (N : ℕ) (L δ : ℝ) : Prop where
  lo : M.rnd a.lo = a.lo
  hi : M.rnd a.hi = a.hi
  images : 100 * M.u * N ≤ 1
  layers : 2 * M.u * a.layers + 28 * M.u + 9 * M.w ≤ 1 / 10
  far : (2 * M.u * a.layers + 28 * M.u + 9 * M.w) * L ≤ 8 / 10 ^ 7
  borders : 24 * M.u * (|a.lo| + |a.hi|) ≤ δ

/-- **C137, analysis.** The analysis of an LED array in floating point, for values that are right up to the factor `exp γ`: the
coefficients found give the optical depth of each line of sight. -/
theorem C137_array (a : ArrayAnalysis) (leds : List ℕ) (pos : ℕ → P3) (h : SeenArray a leds pos) (hlam : 0 ≤ a.lam) (N : ℕ)
    (v : ℕ → ℕ → ℝ) (γ : ℝ) (hγ : 0 ≤ γ) (emit : ℕ → ℝ) (smoke : ℕ → Fin a.layers → ℝ) (hv : NoisyLight a leds pos N v γ emit smoke)
    (S L δ : ℝ) (hS : ∀ i, 1 ≤ i → i ≤ N → ∀ k, smoke i k ≤ S) (hL : ∀ l ∈ leds, Ledsa.euclid a.cam (pos l) ≤ L) (hδ : 0 < δ)
    (hcam : CameraClear a.lo a.hi a.layers δ a.cam.2.2) (hfit : M.Fits a N L δ)
    (hthin : ∀ i, 1 ≤ i → i ≤ N → ∀ l ∈ leds, lineDepth a.cam (pos l) a.lo a.hi (smoke i) + M.borderError a.layers a.lo a.hi S L δ ≤ 23)
    (ε : ℝ) (hε : 0 ≤ ε) (r : Except PyErr (List (Fin a.layers → ℝ)))
    (hr : M.ArrayResult a ε (.ok (tableOf (firstImgs N) leds v)) r) :
    ∃ found : ℕ → Fin a.layers → ℝ, r = .ok ((firstImgs N).map found) ∧ ∀ i, 1 ≤ i → i ≤ N → (∀ k, 0 ≤ found i k) ∧
      (∀ l ∈ leds, |M.depthThrough a.cam (pos l) a.lo a.hi (found i) - lineDepth a.cam (pos l) a.lo a.hi (smoke i)| ≤
        104 / 100 * M.imageErr leds.length (γ + M.borderError a.layers a.lo a.hi S L δ) a.lam ε (smoke i) + 1260 * M.u + 460 * M.w +
          M.borderError a.layers a.lo a.hi S L δ) ∧
      a.lam * bending (fun k => found i k - smoke i k) ≤
        101 / 100 * M.imageErr leds.length (γ + M.borderError a.layers a.lo a.hi S L δ) a.lam ε (smoke i) ^ 2 := by
  have hu := M.u_nonneg
  have hw := M.w_nonneg
  have h3 := h.layers
  have hnd : leds.Nodup := h.ascending.imp fun h => Nat.ne_of_lt h
  obtain ⟨i0, hi1, hi2, hi3⟩ := hv.reference
  have hN : 0 < N := by omega
  have hne' : (firstImgs N).filter a.ref.selects ≠ [] :=
    List.ne_nil_of_mem (List.mem_filter.2 ⟨(mem_firstImgs N i0).2 ⟨hi1, hi2⟩, hi3⟩)
  obtain ⟨l0, hl0⟩ := List.exists_mem_of_ne_nil leds h.nonempty
  have hS0 : 0 ≤ S := (hv.nonneg i0 hi1 hi2 ⟨0, by omega⟩).trans (hS i0 hi1 hi2 ⟨0, by omega⟩)
  have hL0 : 0 ≤ L := (euclid_nonneg _ _).trans (hL l0 hl0)
  set B := M.borderError a.layers a.lo a.hi S L δ with hB
  have hB0 : 0 ≤ B := by rw [hB]; unfold borderError; positivity
  have hsmall : 4 * M.u * a.layers ≤ 1 := by
    have := hfit.layers
    nlinarith
  obtain ⟨hT, hlen, _⟩ := M.C124_layers a.lo a.hi a.layers (by omega) h.domain hfit.lo hfit.hi hsmall
  set ls := M.layers a.lo a.hi a.layers with hls
  have hnear : ∀ i, 1 ≤ i → i ≤ N → ∀ l ∈ leds, |lineDepth a.cam (pos l) a.lo a.hi (smoke i) -
      M.depthThrough a.cam (pos l) a.lo a.hi (smoke i)| ≤ B := fun i h1 h2 l hl =>
    M.depthThrough_near a.cam (pos l) a.lo a.hi h.domain (by omega) hfit.lo hfit.hi hsmall (smoke i) S L δ
      (fun k => ⟨hv.nonneg i h1 h2 k, hS i h1 h2 k⟩) (hL l hl) hδ hfit.borders hcam
  -- the input
  have hpos : ledPositions a.coordinates a.ids = .ok (leds.reverse.map pos) := by
    unfold ledPositions
    rw [h.ids]
    have : leds.reverse.mapM (fun i => a.coordinates[i]?) = some (leds.reverse.map pos) :=
      mapM_option_some _ _ _ fun i hi => h.positions i (List.mem_reverse.1 hi)
    rw [this]
  unfold ArrayResult at hr
  rw [hpos] at hr
  simp only at hr
  rw [M.rel_tableOf a.ref N hN leds v h.ascending h.nonempty hne' a.parallel] at hr
  obtain ⟨rows, rs, hrows, hrs, rfl⟩ := hr
  -- the distances
  unfold DistanceArray distanceRows at hrows
  rw [List.map_id, ← List.map_reverse, List.reverse_reverse, List.forall₂_map_left_iff] at hrows
  obtain ⟨g, rfl, hg⟩ := forall₂_choose _ leds rows hnd hrows
  have hex : ∀ l, ∃ d : List ℝ, l ∈ leds → g l = some d ∧ M.DistResult a.cam (pos l) ls (.dists d) := by
    intro l
    by_cases hl : l ∈ leds
    · obtain ⟨r, hr1, hr2⟩ := hg l hl
      obtain ⟨d, rfl, _⟩ := (M.C124_accepted a.cam (pos l) ls a.lo a.hi hT (h.rays l hl) (by rw [hlen]; exact hfit.layers) (by
        rw [hlen]
        refine le_trans ?_ hfit.far
        exact mul_le_mul_of_nonneg_left (hL l hl) (by positivity))).2 r hr1
      exact ⟨d, fun _ => ⟨hr2, hr1⟩⟩
    · exact ⟨[], fun h => absurd h hl⟩
  choose ds hds using hex
  have hgd : leds.map g = leds.map fun l => some (ds l) := List.map_congr_left fun l hl => (hds l hl).1
  rw [hgd, List.forall₂_map_left_iff] at hrs
  obtain ⟨res, rfl, hres⟩ := forall₂_choose _ (firstImgs N) rs ((firstImgs_sorted N).imp fun h => h.ne) hrs
  -- the images
  have himg : ∀ i, ∃ x : Fin a.layers → ℝ, i ∈ firstImgs N → res i = .ok x ∧ (∀ k, 0 ≤ x k) ∧
      (∀ l ∈ leds, |M.depthThrough a.cam (pos l) a.lo a.hi x - M.depthThrough a.cam (pos l) a.lo a.hi (smoke i)| ≤
        104 / 100 * M.imageErr leds.length (γ + B) a.lam ε (smoke i) + 1260 * M.u + 460 * M.w) ∧
      a.lam * bending (fun k => x k - smoke i k) ≤ 101 / 100 * M.imageErr leds.length (γ + B) a.lam ε (smoke i) ^ 2 := by
    intro i
    by_cases hi : i ∈ firstImgs N
    · obtain ⟨h1, h2⟩ := (mem_firstImgs N i).1 hi
      obtain ⟨x, x1, x2, x3, x4⟩ := M.image_result ls (M.layers_length _ _ _) leds ds a.cam a.lo a.hi pos (fun l hl => (hds l hl).2) emit (smoke i) (γ + B)
        (fun l => ((firstImgs N).filter a.ref.selects).map fun j => v j l) (v i) hT h3 h.rays hv.emits (hv.nonneg i h1 h2)
        (fun l hl => by
          have := abs_le.1 (hnear i h1 h2 l hl)
          have ht := hthin i h1 h2 l hl
          show M.depthThrough a.cam (pos l) a.lo a.hi (smoke i) ≤ 23
          linarith [this.1]) (by linarith)
        (fun l hl => by
          refine ⟨by simpa using hne', fun r hr => ?_⟩
          obtain ⟨j, hj, rfl⟩ := List.mem_map.1 hr
          rw [List.mem_filter, mem_firstImgs] at hj
          have := hv.light j hj.1.1 hj.1.2 l hl
          rw [hv.clear j hj.1.1 hj.1.2 hj.2, lineDepth_zero, neg_zero, Real.exp_zero, mul_one] at this
          exact this.mono (hv.emits l hl).le (by linarith))
        (fun l hl => by
          rw [List.length_map]
          have : (((firstImgs N).filter a.ref.selects).length : ℝ) ≤ N := by
            have := List.length_filter_le a.ref.selects (firstImgs N)
            have e : (firstImgs N).length = N := by simp [firstImgs]
            rw [e] at this
            exact_mod_cast this
          refine le_trans (mul_le_mul_of_nonneg_left this (by positivity)) hfit.images)
        (fun l hl => by
          have := hv.light i h1 h2 l hl
          have w1 := within_exp (hv.emits l hl).le (hnear i h1 h2 l hl)
          have := w1.trans this
          rwa [add_comm] at this) a.lam ε hlam hε (res i) (hres i hi)
      exact ⟨x, fun _ => ⟨x1, x2, x3, x4⟩⟩
    · exact ⟨fun _ => 0, fun h => absurd h hi⟩
  choose found hfound using himg
  refine ⟨found, ?_, fun i h1 h2 => ?_⟩
  · have : (firstImgs N).map res = ((firstImgs N).map found).map Except.ok := by
      rw [List.map_map]
      exact List.map_congr_left fun i hi => (hfound i hi).1
    rw [this]
    exact mapM_id_ok _
  · obtain ⟨_, f1, f2, f3⟩ := hfound i ((mem_firstImgs N i).2 ⟨h1, h2⟩)
    refine ⟨f1, fun l hl => ?_, f3⟩
    have a1 := f2 l hl
    have a2 := hnear i h1 h2 l hl
    rw [abs_le] at a1 a2 ⊢
    constructor <;> linarith [a1.1, a1.2, a2.1, a2.2]

/-- **C137, analysis.** There is something for the analysis to return. -/
theorem C137_exists (a : ArrayAnalysis) (leds : List ℕ) (pos : ℕ → P3) (h : SeenArray a leds pos) (N : ℕ)
    (v : ℕ → ℕ → ℝ) (L δ : ℝ) (hL : ∀ l ∈ leds, Ledsa.euclid a.cam (pos l) ≤ L) (hfit : M.Fits a N L δ) (hN : 0 < N)
    (hne : (firstImgs N).filter a.ref.selects ≠ []) (ε : ℝ) (hε : 0 < ε) :
    ∃ r, M.ArrayResult a ε (.ok (tableOf (firstImgs N) leds v)) r := by
  have hu := M.u_nonneg
  have hw := M.w_nonneg
  have h3 := h.layers
  have hsmall : 4 * M.u * a.layers ≤ 1 := by
    have := hfit.layers
    nlinarith
  obtain ⟨hT, hlen, _⟩ := M.C124_layers a.lo a.hi a.layers (by omega) h.domain hfit.lo hfit.hi hsmall
  have hpos : ledPositions a.coordinates a.ids = .ok (leds.reverse.map pos) := by
    unfold ledPositions
    rw [h.ids]
    have : leds.reverse.mapM (fun i => a.coordinates[i]?) = some (leds.reverse.map pos) :=
      mapM_option_some _ _ _ fun i hi => h.positions i (List.mem_reverse.1 hi)
    rw [this]
  have hex : ∀ l, ∃ d : List ℝ, l ∈ leds → M.DistResult a.cam (pos l) (M.layers a.lo a.hi a.layers) (.dists d) := by
    intro l
    by_cases hl : l ∈ leds
    · obtain ⟨⟨r, hr⟩, hall⟩ := M.C124_accepted a.cam (pos l) _ a.lo a.hi hT (h.rays l hl) (by rw [hlen]; exact hfit.layers) (by
        rw [hlen]
        refine le_trans ?_ hfit.far
        exact mul_le_mul_of_nonneg_left (hL l hl) (by positivity))
      obtain ⟨d, rfl, _⟩ := hall r hr
      exact ⟨d, fun _ => hr⟩
    · exact ⟨[], fun h => absurd h hl⟩
  choose ds hds using hex
  unfold ArrayResult
  rw [hpos]
  simp only
  rw [M.rel_tableOf a.ref N hN leds v h.ascending h.nonempty hne a.parallel]
  simp only
  have himg : ∀ i, ∃ r, M.LinearImage a.layers (leds.map fun l => some (ds l)) a.lam ε (leds.map fun l =>
      M.relIntensity (((firstImgs N).filter a.ref.selects).map fun j => v j l) (v i l)) r := by
    intro i
    unfold LinearImage
    have hM : (leds.map fun l => some (ds l)).mapM id = some (leds.map ds) := by
      rw [← mapM_id_some (leds.map ds), List.map_map]; rfl
    rw [hM]
    simp only
    have hlen2 : (leds.map fun l => M.relIntensity (((firstImgs N).filter a.ref.selects).map fun j => v j l) (v i l)).length = (leds.map ds).length := by
      simp
    simp only [if_pos hlen2]
    obtain ⟨x, hx⟩ := M.C125_exists (n := a.layers) (distEntry (leds.map ds)) a.lam ε hε (fun i' => (leds.map fun l =>
      M.relIntensity (((firstImgs N).filter a.ref.selects).map fun j => v j l) (v i l)).getD i' 0)
    exact ⟨_, x, rfl, hx⟩
  choose res hres using himg
  refine ⟨_, leds.map fun l => some (ds l), (firstImgs N).map res, ?_, ?_, rfl⟩
  · unfold DistanceArray distanceRows
    rw [List.map_id, ← List.map_reverse, List.reverse_reverse, List.forall₂_map_left_iff, List.forall₂_map_right_iff, List.forall₂_same]
    exact fun l hl => ⟨_, hds l hl, rfl⟩
  · rw [List.forall₂_map_left_iff, List.forall₂_map_right_iff, List.forall₂_same]
    exact fun i _ => hres i

/-! ### Numbers read from files -/

theorem read_position {read : ℝ → ℝ} (hread : ∀ x, |read x - x| ≤ M.w * |x|) (p : P3) :
    Ledsa.euclid p (readPos read p) ≤ M.w * Ledsa.euclid (0, 0, 0) p := by
  have hw := M.w_nonneg
  unfold Ledsa.euclid readPos
  simp only
  rw [show M.w * Real.sqrt ((0 - p.1) ^ 2 + (0 - p.2.1) ^ 2 + (0 - p.2.2) ^ 2) =
    Real.sqrt (M.w ^ 2 * ((0 - p.1) ^ 2 + (0 - p.2.1) ^ 2 + (0 - p.2.2) ^ 2)) by rw [Real.sqrt_mul (sq_nonneg _), Real.sqrt_sq hw]]
  apply Real.sqrt_le_sqrt
  have h : ∀ x : ℝ, (x - read x) ^ 2 ≤ M.w ^ 2 * (0 - x) ^ 2 := by
    intro x
    have := hread x
    rw [abs_sub_comm] at this
    have h2 := sq_le_sq' (by linarith [abs_nonneg (x - read x), this]) (le_refl |x - read x|)
    calc (x - read x) ^ 2 = |x - read x| ^ 2 := (sq_abs _).symm
      _ ≤ (M.w * |x|) ^ 2 := pow_le_pow_left₀ (abs_nonneg _) this 2
      _ = M.w ^ 2 * (0 - x) ^ 2 := by rw [mul_pow, sq_abs]; ring
  have h1 := h p.1
  have h2 := h p.2.1
  have h3 := h p.2.2
  linarith

theorem _root_.Ledsa.readData_tableOf (read : ℝ → ℝ) (imgs leds : List ℕ) (v : ℕ → ℕ → ℝ) :
    readData read (.ok (tableOf imgs leds v)) = .ok (tableOf imgs leds fun i l => read (v i l)) := by
  unfold readData tableOf
  simp only [Except.map, List.map_flatMap, List.map_map]
  rfl

end Machine

/-! ### C137 -/

variable {ι D : Type} [LinearOrder D] [Add D] [Mul D]

/-- **C137.** From the bench to the smoke with the analysis in floating point: as C135, but positions and values are read with roundings, the
layers, distances, reference values, relative intensities and optical depths are calculated by the machine `M`, and the least squares solver
reaches the minimum up to `ε`. The optical depths of the found coefficients along the lines that the analysis uses are those of the smoke along the
lines of sight from the camera to the LEDs of array `k` on the bench. -/
theorem C137_bench_to_smoke [DecidableEq ι] (maxLoc : Image ℚ → ℕ × ℕ) (hmax : IsMaxLoc maxLoc) (m : Metric D) (j : Step1Job) (spot : ℕ × ℕ → ι) (spots : Finset ι)
    (peak : ι → ℕ × ℕ) (hb : BenchPhoto maxLoc j spot spots peak) (phys : List (List ι)) (hp : BenchArrays m spots peak phys) (h4 : 4 ≤ phys.flatten.length)
    (hcorner : ∀ c ∈ phys, ∀ f l, c.head? = some f → c.getLast? = some l → (peak f).1 * (peak l).2 ≠ (peak f).2 * (peak l).1)
    (number : ι → ℕ) (hn : NumberedBy (j.table maxLoc) spots peak number) (o : Step2Options)
    (ho : edgeIndices o.edges = phys.map (endNumbers number)) (hig : o.ignore = "None".toList) (hg : o.groups = none)
    (pre h : List ExtCmd) (hh : h = pre ++ [.step1 j, .step2 o] ∨ h = pre ++ [.steps12 j o])
    (fit : List P3 → Plane) (edges : List (P3 × P3)) (he : phys.length ≤ edges.length)
    (w : HdfWorld) (ch n : ℕ) (hcount : w.count w.cwd = .ok (n : ℤ)) (hn0 : 0 < n) (hw : w.cache = none)
    (infos : List InfoRow) (hi : GoodInfos infos) (hlen : n ≤ infos.length) (root : Str) (hroot : '\n' ∉ root)
    (R : ℕ) (img : ℕ → Image ℚ) (hph : ∀ i, PhotographedBench peak phys R (img i)) (files : ℕ → Option Str)
    (hf : ∀ i, 1 ≤ i → i ≤ n → files i =
      (step3File ⟨phys.length, none⟩ (infoFile infos) root ch R 0 (img i) none (natStr i) (runHistory maxLoc m .empty h)).toOption)
    (k : ℕ) (c : List ι) (hk : phys[k]? = some c) (T B : P3) (hTB : edges[k]? = some (T, B)) (M : Machine) :
    ∃ rows ids, calculateCoordinates fit phys.length edges (runHistory maxLoc m .empty h) = .ok rows ∧
      loadIndexFile ((runHistory maxLoc m .empty h).index (indexFileName k [])) = .ok (ids.map (Nat.cast : ℕ → ℤ)) ∧
      ∀ (cf : Option (List (ℕ × List ℚ × ℚ × ℚ))), w.coord w.cwd = cf.map asCoord → (∀ c', cf = some c' → List.Forall₂ SameRow rows c') →
      ∃ f, textFrame w ch files = .ok f ∧
      ∀ (a0 : ArrayAnalysis) (place : ι → P3) (η ρ E : ℝ), SurveyedBench a0 peak c T B place η → 0 ≤ η → 0 ≤ ρ → 0 ≤ a0.lam → E = η + 1 / 10 ^ 6 + ρ →
        (∀ s ∈ c, (a0.lo + E ≤ (place s).2.2 ∧ (place s).2.2 + E < a0.hi) ∧ E < euclid a0.cam (place s)) →
      ∀ (read : ℝ → ℝ), (∀ x, |read x - x| ≤ M.w * |x|) → (∀ s ∈ c, M.w * (euclid (0, 0, 0) (place s) + (η + 1 / 10 ^ 6)) ≤ ρ) →
      ∃ pos : ι → P3, (∀ s ∈ c, euclid (place s) (pos s) ≤ E) ∧
      ∀ (γ : ℝ) (emit : ι → ℝ) (smoke : ℕ → Fin a0.layers → ℝ) (S L δ : ℝ), 0 ≤ γ →
        BenchLight a0 c place n (fun i s => lightAround (img i) (peak s) R) γ emit smoke → 0 < δ → CameraClear a0.lo a0.hi a0.layers δ a0.cam.2.2 →
        (∀ i, 1 ≤ i → i ≤ n → ∀ j, smoke i j ≤ S) → (∀ s ∈ c, euclid a0.cam (place s) ≤ L) → M.Fits a0 n (L + E) δ →
        (∀ i, 1 ≤ i → i ≤ n → ∀ s ∈ c, lineDepth a0.cam (place s) a0.lo a0.hi (smoke i) +
          2 * displacementError S L δ E + M.borderError a0.layers a0.lo a0.hi S (L + E) δ ≤ 23) →
      ∀ ε, 0 ≤ ε →
        (0 < ε → ∃ r, M.ArrayResult ((a0.withFiles k ids rows).readBy read) ε (readData read (frameData f "sum_col_val" k)) r) ∧
      ∀ r, M.ArrayResult ((a0.withFiles k ids rows).readBy read) ε (readData read (frameData f "sum_col_val" k)) r →
        ∃ found : ℕ → Fin a0.layers → ℝ, r = .ok ((firstImgs n).map found) ∧ ∀ i, 1 ≤ i → i ≤ n → (∀ j, 0 ≤ found i j) ∧
          (∀ s ∈ c, |M.depthThrough a0.cam (pos s) a0.lo a0.hi (found i) - lineDepth a0.cam (place s) a0.lo a0.hi (smoke i)| ≤
            104 / 100 * M.imageErr c.length (γ + displacementError S L δ E + 1 / 19999 + 2 * M.w + M.borderError a0.layers a0.lo a0.hi S (L + E) δ)
              a0.lam ε (smoke i) + 1260 * M.u + 460 * M.w + M.borderError a0.layers a0.lo a0.hi S (L + E) δ + displacementError S L δ E) ∧
          a0.lam * bending (fun j => found i j - smoke i j) ≤
            101 / 100 * M.imageErr c.length (γ + displacementError S L δ E + 1 / 19999 + 2 * M.w + M.borderError a0.layers a0.lo a0.hi S (L + E) δ)
              a0.lam ε (smoke i) ^ 2 := by
  obtain ⟨hasc, hnone, rows, g1, g2, g3, g4⟩ := C135_measured maxLoc hmax m j spot spots peak hb phys hp h4 hcorner number hn o ho hig hg pre h hh
    fit edges he w ch n hcount hn0 hw infos hi hlen root hroot R img hph files hf k c hk T B hTB
  refine ⟨rows, _, g1, g2, ?_⟩
  intro cf hcf hcr
  obtain ⟨f, u, f1, f2, f3⟩ := g4 cf hcf hcr
  refine ⟨f, f1, ?_⟩
  intro a0 place η ρ E hsv hη hρ hlam hE hin read hread hfar
  have hw0 := M.w_nonneg
  have hw1 := M.w_small
  obtain ⟨pos, hpos⟩ := g3 a0 place η hsv
  have hE0 : 0 ≤ E := by rw [hE]; positivity
  have hcm : ∀ s ∈ c, s ∈ phys.flatten := fun s hs => List.mem_flatten.2 ⟨c, List.mem_of_getElem? hk, hs⟩
  have hnear : ∀ s ∈ c, euclid (place s) (readPos read (pos (benchId phys s))) ≤ E := by
    intro s hs
    have h1 := (hpos s hs).2
    have h2 := M.read_position hread (pos (benchId phys s))
    have h3 := euclid_triangle (place s) (pos (benchId phys s)) (readPos read (pos (benchId phys s)))
    have h4 := euclid_triangle (0, 0, 0) (place s) (pos (benchId phys s))
    have h5 := mul_le_mul_of_nonneg_left (h4.trans (add_le_add le_rfl h1)) hw0
    have := hfar s hs
    rw [hE]
    linarith
  refine ⟨fun s => readPos read (pos (benchId phys s)), hnear, ?_⟩
  intro γ emit smoke S L δ hγ hl hδ hcam hS hL hfit hthin ε hε
  set rpos : ℕ → P3 := fun x => readPos read (pos x) with hrpos
  have hLr : ∀ x ∈ c.map (benchId phys), euclid a0.cam (rpos x) ≤ L + E := by
    intro x hx
    obtain ⟨s, hs, rfl⟩ := List.mem_map.1 hx
    exact (euclid_triangle a0.cam (place s) _).trans (add_le_add (hL s hs) (hnear s hs))
  set a := (a0.withFiles k (c.map (benchId phys)).reverse rows).readBy read with ha
  have hseen : SeenArray a (c.map (benchId phys)) rpos := by
    refine ⟨rfl, hasc, by simpa using hnone, ?_, hsv.layers, hsv.domain, ?_⟩
    · intro x hx
      obtain ⟨s, hs, rfl⟩ := List.mem_map.1 hx
      show ((rows.map (·.pos)).map (readPos read))[benchId phys s]? = _
      rw [List.getElem?_map, (hpos s hs).1]
      rfl
    · intro x hx
      obtain ⟨s, hs, rfl⟩ := List.mem_map.1 hx
      exact ray_displaced hsv.camera (hin s hs).1 (hin s hs).2 (hnear s hs)
  have hfita : M.Fits a n (L + E) δ := ⟨hfit.lo, hfit.hi, hfit.images, hfit.layers, hfit.far, hfit.borders⟩
  obtain ⟨i0, hi1, hi2, hi3⟩ := hl.reference
  rw [f2, readData_tableOf]
  constructor
  · intro hε0
    exact M.C137_exists a _ rpos hseen n _ (L + E) δ hLr hfita hn0
      (List.ne_nil_of_mem (List.mem_filter.2 ⟨(mem_firstImgs n i0).2 ⟨hi1, hi2⟩, hi3⟩)) ε hε0
  intro r hr
  obtain ⟨s0, hs0⟩ := List.exists_mem_of_ne_nil c hnone
  have h3 := hsv.layers
  have hS0 : 0 ≤ S := (hl.nonneg i0 hi1 hi2 ⟨0, by omega⟩).trans (hS i0 hi1 hi2 ⟨0, by omega⟩)
  have hL0 : 0 ≤ L := (euclid_nonneg _ _).trans (hL s0 hs0)
  have hdis0 : 0 ≤ displacementError S L δ E := by unfold displacementError; positivity
  have hB0 : 0 ≤ M.borderError a0.layers a0.lo a0.hi S (L + E) δ := by
    have := M.u_nonneg
    unfold Machine.borderError
    positivity
  have hdepth : ∀ i, 1 ≤ i → i ≤ n → ∀ s ∈ c, |lineDepth a0.cam (place s) a0.lo a0.hi (smoke i) -
      lineDepth a0.cam (rpos (benchId phys s)) a0.lo a0.hi (smoke i)| ≤ displacementError S L δ E := by
    intro i h1 h2 s hs
    refine (C129_depth a0.cam (place s) (rpos (benchId phys s)) a0.lo a0.hi hsv.domain (smoke i) S (fun k => ⟨hl.nonneg i h1 h2 k, hS i h1 h2 k⟩) δ hδ
      hcam).trans ?_
    unfold displacementError
    have h0 : 0 ≤ euclid a0.cam (place s) := euclid_nonneg _ _
    apply mul_le_mul
    · exact mul_le_mul_of_nonneg_left (hnear s hs) hS0
    · have := div_le_div_of_nonneg_right (hL s hs) hδ.le
      linarith
    · have := div_nonneg h0 hδ.le
      linarith
    · exact mul_nonneg hS0 hE0
  have hnoisy := ((bench_light phys c hcm hl).displaced hsv.domain hδ hE0 hcam hS
    (fun x hx => by
      obtain ⟨s, hs, rfl⟩ := List.mem_map.1 hx
      rw [benchFun_of phys _ _ s (hcm s hs)]
      exact hL s hs)
    (pos := rpos) (ε := E) (fun x hx => by
      obtain ⟨s, hs, rfl⟩ := List.mem_map.1 hx
      rw [benchFun_of phys _ _ s (hcm s hs)]
      exact hnear s hs)
    (fun i h1 h2 x hx => by
      obtain ⟨s, hs, rfl⟩ := List.mem_map.1 hx
      rw [benchFun_of phys _ _ s (hcm s hs)]
      have := hthin i h1 h2 s hs
      linarith)).measured (u := u) (ε := 1 / 19999) (fun i h1 h2 x hx => by
      obtain ⟨s, hs, rfl⟩ := List.mem_map.1 hx
      simp only [benchFun_of phys _ _ s (hcm s hs)]
      exact f3 i h1 h2 s hs)
  have hnoisy2 := hnoisy.measured (u := fun i l => read (u i l)) (ε := 2 * M.w) (fun i h1 h2 x hx => by
    have hp := (hnoisy.light i h1 h2 x hx).pos (mul_pos (hnoisy.emits x hx) (Real.exp_pos _))
    have := hread (u i x)
    rw [abs_of_pos hp] at this
    exact within_of_err hw0 (by linarith) hp.le this)
  have hnoisy' : NoisyLight a (c.map (benchId phys)) rpos n (fun i l => read (u i l)) _ _ smoke :=
    ⟨hnoisy2.emits, hnoisy2.light, hnoisy2.clear, hnoisy2.reference, hnoisy2.nonneg, hnoisy2.thin⟩
  obtain ⟨found, r1, r2⟩ := M.C137_array a _ rpos hseen hlam n _ (γ + displacementError S L δ E + 1 / 19999 + 2 * M.w) (by positivity) _ smoke hnoisy'
    S (L + E) δ hS hLr hδ hcam hfita (by
      intro i h1 h2 x hx
      obtain ⟨s, hs, rfl⟩ := List.mem_map.1 hx
      have t1 := hthin i h1 h2 s hs
      have t2 := abs_le.1 (hdepth i h1 h2 s hs)
      show lineDepth a0.cam (rpos (benchId phys s)) a0.lo a0.hi (smoke i) + M.borderError a0.layers a0.lo a0.hi S (L + E) δ ≤ 23
      linarith [t2.1]) ε hε r hr
  refine ⟨found, r1, fun i h1 h2 => ?_⟩
  obtain ⟨q1, q2, q3⟩ := r2 i h1 h2
  rw [List.length_map] at q2 q3
  refine ⟨q1, fun s hs => ?_, q3⟩
  have t1 := q2 _ (List.mem_map_of_mem hs)
  have t2 := hdepth i h1 h2 s hs
  have t1' : |M.depthThrough a0.cam (rpos (benchId phys s)) a0.lo a0.hi (found i) - lineDepth a0.cam (rpos (benchId phys s)) a0.lo a0.hi (smoke i)| ≤
      104 / 100 * M.imageErr c.length (γ + displacementError S L δ E + 1 / 19999 + 2 * M.w + M.borderError a0.layers a0.lo a0.hi S (L + E) δ)
              a0.lam ε (smoke i) + 1260 * M.u + 460 * M.w + M.borderError a0.layers a0.lo a0.hi S (L + E) δ := t1
  rw [abs_sub_comm] at t2
  exact (abs_sub_le _ (lineDepth a0.cam (rpos (benchId phys s)) a0.lo a0.hi (smoke i)) _).trans (add_le_add t1' t2)

theorem column_origin (x : ℕ) (hx : x ≤ 4) : euclid (0, 0, 0) (0, 0, 4 - (x : ℝ)) ≤ 4 := by
  have hx' : (x : ℝ) ≤ 4 := by exact_mod_cast hx
  have h0 : (0 : ℝ) ≤ x := by positivity
  unfold euclid
  rw [Real.sqrt_le_left (by norm_num)]
  simp only
  nlinarith

theorem column_fits : double.Fits columnAnalysis 2 (27 / 5 + (0 + 1 / 10 ^ 6 + 1 / 10 ^ 9)) 1 := by
  have h1 := roundDouble_exact (-1) 0 (by norm_num)
  have h2 := roundDouble_exact 5 0 (by norm_num)
  norm_num at h1 h2
  have hu : double.u = (1 / 2) ^ 53 := rfl
  have hw : double.w = (1 / 2) ^ 53 := rfl
  refine ⟨h1, h2, ?_, ?_, ?_, ?_⟩
  · rw [hu]
    norm_num
  · show 2 * double.u * ((3 : ℕ) : ℝ) + 28 * double.u + 9 * double.w ≤ 1 / 10
    rw [hu, hw]
    norm_num
  · show (2 * double.u * ((3 : ℕ) : ℝ) + 28 * double.u + 9 * double.w) * _ ≤ 8 / 10 ^ 7
    rw [hu, hw]
    norm_num
  · show 24 * double.u * (|(-1 : ℝ)| + |(5 : ℝ)|) ≤ 1
    rw [hu]
    norm_num

/-- The size of the error for the column. -/
theorem column_error :
    104 / 100 * double.imageErr (n := 3) 5 (1 / 10 + displacementError (1 / 5) (27 / 5) 1 (0 + 1 / 10 ^ 6 + 1 / 10 ^ 9) + 1 / 19999 + 2 * double.w +
    double.borderError 3 (-1) 5 (1 / 5) (27 / 5 + (0 + 1 / 10 ^ 6 + 1 / 10 ^ 9)) 1) 1 (1 / 10 ^ 10) (columnSmoke 2) + 1260 * double.u + 460 * double.w +
    double.borderError 3 (-1) 5 (1 / 5) (27 / 5 + (0 + 1 / 10 ^ 6 + 1 / 10 ^ 9)) 1 +
    displacementError (1 / 5) (27 / 5) 1 (0 + 1 / 10 ^ 6 + 1 / 10 ^ 9) ≤ 1 / 2 := by
  have hsm : columnSmoke 2 = fun _ => Real.log 2 / 5 := by simp [columnSmoke]
  have hbend : bending (n := 3) (columnSmoke 2) = 0 := by
    rw [hsm]
    exact (bending_eq_zero _).2 ⟨Real.log 2 / 5, 0, fun _ => by simp⟩
  have himg : ∀ γ' : ℝ, 0 ≤ γ' → γ' ≤ 101 / 1000 → double.imageErr (n := 3) 5 γ' 1 (1 / 10 ^ 10) (columnSmoke 2) ≤ 46 / 100 := by
    intro γ' h0 h1
    unfold Machine.imageErr
    rw [hbend]
    have e1 : Real.sqrt (1 / 10 ^ 10) = 1 / 10 ^ 5 := by
      rw [show (1 / 10 ^ 10 : ℝ) = (1 / 10 ^ 5) ^ 2 by norm_num]
      exact Real.sqrt_sq (by norm_num)
    rw [e1]
    have e2 : Real.sqrt (((5 : ℕ) : ℝ) * (2 * γ' + 640 * double.u + 250 * double.w) ^ 2 + (1 + 3 * double.u) * 1 * 0) ≤ 455 / 1000 := by
      rw [Real.sqrt_le_left (by norm_num)]
      have hd : 640 * double.u + 250 * double.w ≤ 1 / 10 ^ 6 := by unfold double; norm_num
      have hd0 : 0 ≤ 640 * double.u + 250 * double.w := by unfold double; positivity
      have : (2 * γ' + 640 * double.u + 250 * double.w) ^ 2 ≤ (203 / 1000) ^ 2 := pow_le_pow_left₀ (by linarith) (by linarith) 2
      push_cast
      linarith
    linarith
  have := himg (1 / 10 + displacementError (1 / 5) (27 / 5) 1 (0 + 1 / 10 ^ 6 + 1 / 10 ^ 9) + 1 / 19999 + 2 * double.w +
    double.borderError 3 (-1) 5 (1 / 5) (27 / 5 + (0 + 1 / 10 ^ 6 + 1 / 10 ^ 9)) 1)
    (by unfold displacementError Machine.borderError double; positivity)
    (by unfold displacementError Machine.borderError double; norm_num)
  have hrest : 1260 * double.u + 460 * double.w + double.borderError 3 (-1) 5 (1 / 5) (27 / 5 + (0 + 1 / 10 ^ 6 + 1 / 10 ^ 9)) 1 +
      displacementError (1 / 5) (27 / 5) 1 (0 + 1 / 10 ^ 6 + 1 / 10 ^ 9) ≤ 1 / 1000 := by
    unfold displacementError Machine.borderError double
    norm_num
  linarith

/-- The result for the column in two photos with all calculations of the analysis in double precision and a solver that comes within 10⁻¹⁰ of
the minimum: the optical depths of the smoke are right up to 1/2. -/
theorem column_rounded_run : ∃ rows ids f, calculateCoordinates (fun _ => ⟨0, 1, 0⟩) 1 [((0, 0, 4), (0, 0, 0))]
      (runHistory firstMaxLoc (roundedMetric double) .empty [.step1 columnJob, .step2 (columnOptions "None")]) = .ok rows ∧
    textFrame stripDir 0 (fun i => (step3File ⟨1, none⟩ (infoFile stripInfos) "exp".toList 0 1 0 (columnPhoto i) none (natStr i)
      (runHistory firstMaxLoc (roundedMetric double) .empty [.step1 columnJob, .step2 (columnOptions "None")])).toOption) = .ok f ∧
    (∃ r, double.ArrayResult ((columnAnalysis.withFiles 0 ids rows).readBy roundDouble) (1 / 10 ^ 10) (readData roundDouble (frameData f "sum_col_val" 0)) r) ∧
    ∀ r, double.ArrayResult ((columnAnalysis.withFiles 0 ids rows).readBy roundDouble) (1 / 10 ^ 10) (readData roundDouble (frameData f "sum_col_val" 0)) r →
      ∃ (pos : ℕ → P3) (found : ℕ → Fin 3 → ℝ), (∀ x : ℕ, x ≤ 4 → euclid (0, 0, 4 - (x : ℝ)) (pos x) ≤ 2 / 10 ^ 6) ∧ r = .ok [found 1, found 2] ∧
        ∀ x : ℕ, x ≤ 4 → |double.depthThrough (5, 0, 2) (pos x) (-1) 5 (found 2) - lineDepth (5, 0, 2) (0, 0, 4 - (x : ℝ)) (-1) 5 (columnSmoke 2)| ≤ 1 / 2 := by
  obtain ⟨rows, ids, c1, c2, c3⟩ := C137_bench_to_smoke firstMaxLoc isMaxLoc_firstMaxLoc (roundedMetric double) columnJob (fun p => p.1 / 3) {0, 1, 2, 3, 4}
    columnPeak column_bench [[0, 1, 2, 3, 4]] column_arrays (by decide) column_corner id column_numbered (columnOptions "None") (by decide +kernel) rfl rfl [] _
    (Or.inl rfl) (fun _ => ⟨0, 1, 0⟩) [((0, 0, 4), (0, 0, 0))]
    (by simp) stripDir 0 2 rfl (by norm_num) rfl stripInfos strip_infos (by decide) "exp".toList (by decide +kernel) 1 columnPhoto column_photographed _
    (fun i _ _ => rfl) 0 [0, 1, 2, 3, 4] rfl (0, 0, 4) (0, 0, 0) rfl double
  obtain ⟨f, f1, f2⟩ := c3 none rfl (by simp)
  refine ⟨rows, ids, f, c1, f1, ?_⟩
  obtain ⟨pos, p1, p2⟩ := f2 columnAnalysis _ 0 (1 / 10 ^ 9) _ column_bench_surveyed le_rfl (by norm_num) (by unfold columnAnalysis; norm_num) rfl
    (by
      intro x hx
      have h4 := column_le x hx
      have hx' : (x : ℝ) ≤ 4 := by exact_mod_cast h4
      have h0 : (0 : ℝ) ≤ x := by positivity
      have := (column_distance x h4).1
      refine ⟨⟨?_, ?_⟩, ?_⟩
      · show (-1 : ℝ) + _ ≤ 4 - (x : ℝ)
        norm_num
        linarith
      · show 4 - (x : ℝ) + _ < 5
        norm_num
        linarith
      · show _ < euclid (5, 0, 2) (0, 0, 4 - (x : ℝ))
        norm_num
        linarith)
    roundDouble roundDouble_err
    (by
      intro x hx
      have := column_origin x (column_le x hx)
      show (1 / 2 : ℝ) ^ 53 * _ ≤ _
      norm_num
      linarith)
  obtain ⟨hex, hall⟩ := p2 (1 / 10) (fun _ => 1000) columnSmoke (1 / 5) (27 / 5) 1 (by norm_num) column_bench_light (by norm_num)
      ⟨1, by decide, by unfold columnAnalysis; norm_num, by unfold columnAnalysis; norm_num⟩ (fun i _ _ j => columnSmoke_le i j)
      (fun x hx => (column_distance x (column_le x hx)).2) column_fits
      (by
        intro i _ _ x hx
        show lineDepth (5, 0, 2) (0, 0, 4 - (x : ℝ)) (-1) 5 (columnSmoke i) + _ + _ ≤ 23
        have := columnSmoke_depth i x (column_le x hx)
        unfold displacementError Machine.borderError double columnAnalysis
        norm_num
        linarith) (1 / 10 ^ 10) (by norm_num)
  refine ⟨hex (by norm_num), ?_⟩
  intro r hr
  obtain ⟨found, e, hfound⟩ := hall r hr
  refine ⟨pos, found, ?_, by rw [e]; rfl, ?_⟩
  · intro x hx
    refine (p1 x (by simp; omega)).trans (by norm_num)
  · obtain ⟨_, hb2, _⟩ := hfound 2 (by norm_num) le_rfl
    intro x hx
    exact (hb2 x (by simp; omega)).trans column_error

end Ledsa
