import Verif.Props.RayGeometry
import Mathlib.Algebra.Order.Chebyshev

/-!
# The coefficients of arrays that determine linear profiles (C145)

From photos, positions and settings to the error of the coefficients themselves, for two LEDs on different sides of a border between layers.
-/

namespace Ledsa

/-- C129 for coefficients of any sign. -/
theorem depth_displaced (cam p q : P3) {lo hi : ℝ} (h : lo < hi) {n : ℕ} {δ : ℝ} (hδ : 0 < δ) (hcam : CameraClear lo hi n δ cam.2.2)
    (x : Fin n → ℝ) : |lineDepth cam p lo hi x - lineDepth cam q lo hi x| ≤ euclid p q * (1 + euclid cam p / δ) * ∑ k, |x k| := by
  have e : ∀ p : P3, lineDepth cam p lo hi x = ∑ k, lineDepth cam p lo hi (onlyLayer k) * x k := by
    intro p
    rw [lineDepth_rayIn]
    exact Finset.sum_congr rfl fun k _ => by rw [lineDepth_only]
  rw [e p, e q, ← Finset.sum_sub_distrib, Finset.mul_sum]
  refine (Finset.abs_sum_le_sum_abs _ _).trans (Finset.sum_le_sum fun k _ => ?_)
  rw [← sub_mul, abs_mul]
  refine mul_le_mul_of_nonneg_right ?_ (abs_nonneg _)
  have := C129_depth cam p q lo hi h (onlyLayer k) 1 (fun i => by unfold onlyLayer; split_ifs <;> norm_num) δ hδ hcam
  rwa [one_mul] at this

theorem sq_absSum_le {n : ℕ} (x : Fin n → ℝ) : (∑ k, |x k|) ^ 2 ≤ n * normSq x := by
  have := sq_sum_le_card_mul_sum_sq (s := Finset.univ) (f := fun k => |x k|)
  simpa [normSq] using this

theorem sum_map_eq {ι : Type} (l : List ι) (f : ι → ℝ) : ∑ i : Fin l.length, f l[i] = (l.map f).sum := by
  induction l with
  | nil => simp
  | cons a t ih =>
    rw [List.map_cons, List.sum_cons, ← ih]
    exact Fin.sum_univ_succ _

/-- The optical depths of the lines of sight and the bending together control a profile, with constant `K`. -/
def Conditioned {ι : Type} (leds : List ι) (cam : P3) (pos : ι → P3) (lo hi : ℝ) (n : ℕ) (lam K : ℝ) : Prop :=
  0 < K ∧ ∀ x : Fin n → ℝ, ∑ j, x j ^ 2 ≤ K * ((leds.map fun l => lineDepth cam (pos l) lo hi x ^ 2).sum + lam * bending x)

/-- **C145.** There is such a constant exactly for arrays that determine linear profiles. -/
theorem C145_conditioned_iff {ι : Type} (leds : List ι) (cam : P3) (place : ι → P3) {lo hi : ℝ} {n : ℕ} (hn : 3 ≤ n) {lam : ℝ} (hlam : 0 < lam) :
    (∃ K, Conditioned leds cam place lo hi n lam K) ↔ RaysDetermine leds cam place lo hi n := by
  constructor
  · rintro ⟨K, _, hobs⟩ σ τ hσ hτ he
    obtain ⟨a, b, hσ⟩ := hσ
    obtain ⟨a', b', hτ⟩ := hτ
    have h1 := hobs fun j => σ j - τ j
    have e1 : bending (fun j => σ j - τ j) = 0 := by
      unfold bending
      refine Finset.sum_eq_zero fun i _ => ?_
      simp only [hσ, hτ]
      push_cast
      ring
    have e2 : (leds.map fun l => lineDepth cam (place l) lo hi (fun j => σ j - τ j) ^ 2).sum = 0 := by
      apply List.sum_eq_zero
      intro y hy
      obtain ⟨l, hl, rfl⟩ := List.mem_map.1 hy
      rw [lineDepth_sub, he l hl]
      ring
    rw [e1, e2, mul_zero, add_zero, mul_zero] at h1
    have h2 := (Finset.sum_eq_zero_iff_of_nonneg fun j _ => sq_nonneg (σ j - τ j)).1
      (le_antisymm h1 (Finset.sum_nonneg fun j _ => sq_nonneg _))
    funext j
    have := pow_eq_zero_iff (two_ne_zero) |>.1 (h2 j (Finset.mem_univ j))
    linarith
  · intro hdet
    set D : Fin leds.length → Fin n → ℝ := fun i k => lineDepth cam (place leds[i]) lo hi (onlyLayer k) with hD
    have hdep : ∀ i x, depth x (D i) = lineDepth cam (place leds[i]) lo hi x := by
      intro i x
      unfold depth
      rw [lineDepth_rayIn, hD]
      exact Finset.sum_congr rfl fun k _ => by simp only; rw [lineDepth_only]
    obtain ⟨K, hK, hobs⟩ := observable_rows D hn hlam fun τ haff hz =>
      hdet τ (fun _ => 0) haff ⟨0, 0, fun _ => by simp⟩ fun l hl => by
        obtain ⟨i, hi', rfl⟩ := List.getElem_of_mem hl
        have := hz ⟨i, hi'⟩
        rw [hdep] at this
        rw [lineDepth_zero]
        exact this
    refine ⟨K, hK, fun x => ?_⟩
    have := hobs x
    simp only [hdep] at this
    rw [sum_map_eq leds fun l => lineDepth cam (place l) lo hi x ^ 2] at this
    exact this

/-- The positions of the LEDs are known well enough for an array with constant `K`. -/
def Precise (m n : ℕ) (K L δ ε : ℝ) : Prop := 4 * K * m * n * (1 + L / δ) ^ 2 * ε ^ 2 ≤ 1

/-- The constant for positions nearby. -/
theorem Conditioned.nearby {ι : Type} {leds : List ι} {cam : P3} {place : ι → P3} {lo hi : ℝ} (h : lo < hi) {n : ℕ}
    {lam K : ℝ} (hc : Conditioned leds cam place lo hi n lam K) (hlam : 0 ≤ lam) {δ L ε : ℝ} (hδ : 0 < δ) (hcam : CameraClear lo hi n δ cam.2.2)
    (hL0 : 0 ≤ L) (hL : ∀ l ∈ leds, euclid cam (place l) ≤ L) (hε : 0 ≤ ε) (hp : Precise leds.length n K L δ ε)
    {pos : ι → P3} (hpos : ∀ l ∈ leds, euclid (place l) (pos l) ≤ ε) : Conditioned leds cam pos lo hi n lam (4 * K) := by
  obtain ⟨hK, hobs⟩ := hc
  refine ⟨by positivity, fun x => ?_⟩
  have hobs' := hobs x
  change normSq x ≤ _ at hobs'
  change normSq x ≤ _
  unfold Precise at hp
  set G := 1 + L / δ with hG
  have hterm : ∀ l ∈ leds, lineDepth cam (place l) lo hi x ^ 2 ≤
      2 * lineDepth cam (pos l) lo hi x ^ 2 + 2 * (ε ^ 2 * G ^ 2 * (n * normSq x)) := by
    intro l hl
    have h1 := depth_displaced cam (place l) (pos l) h hδ hcam x
    have h2 : euclid (place l) (pos l) * (1 + euclid cam (place l) / δ) ≤ ε * G := by
      refine mul_le_mul (hpos l hl) ?_ (by have := euclid_nonneg cam (place l); positivity) hε
      rw [hG]
      have := hL l hl
      gcongr
    have h3 : |lineDepth cam (place l) lo hi x - lineDepth cam (pos l) lo hi x| ≤ ε * G * ∑ k, |x k| :=
      h1.trans (mul_le_mul_of_nonneg_right h2 (Finset.sum_nonneg fun _ _ => abs_nonneg _))
    have h4 : (lineDepth cam (place l) lo hi x - lineDepth cam (pos l) lo hi x) ^ 2 ≤ (ε * G * ∑ k, |x k|) ^ 2 := by
      rw [← sq_abs]
      exact pow_le_pow_left₀ (abs_nonneg _) h3 2
    have h5 : (ε * G * ∑ k, |x k|) ^ 2 ≤ ε ^ 2 * G ^ 2 * (n * normSq x) := by
      rw [mul_pow, mul_pow]
      exact mul_le_mul_of_nonneg_left (sq_absSum_le x) (by positivity)
    nlinarith [sq_nonneg (lineDepth cam (place l) lo hi x - 2 * lineDepth cam (pos l) lo hi x)]
  have hsum : (leds.map fun l => lineDepth cam (place l) lo hi x ^ 2).sum ≤
      2 * (leds.map fun l => lineDepth cam (pos l) lo hi x ^ 2).sum + leds.length * (2 * (ε ^ 2 * G ^ 2 * (n * normSq x))) := by
    refine (List.sum_le_sum hterm).trans (le_of_eq ?_)
    rw [List.sum_map_add, List.sum_map_mul_left]
    simp
  have hN : 0 ≤ normSq x := Finset.sum_nonneg fun _ _ => sq_nonneg _
  have hbend := bending_nonneg x
  have h6 : K * (leds.length * (2 * (ε ^ 2 * G ^ 2 * (n * normSq x)))) ≤ normSq x / 2 := by
    have : K * (leds.length * (2 * (ε ^ 2 * G ^ 2 * (n * normSq x)))) = 4 * K * leds.length * n * G ^ 2 * ε ^ 2 * (normSq x / 2) := by ring
    rw [this]
    exact mul_le_of_le_one_left (by positivity) hp
  have h8 : K * ((leds.map fun l => lineDepth cam (place l) lo hi x ^ 2).sum + lam * bending x) ≤
      K * (2 * (leds.map fun l => lineDepth cam (pos l) lo hi x ^ 2).sum +
        leds.length * (2 * (ε ^ 2 * G ^ 2 * (n * normSq x))) + lam * bending x) := by
    gcongr
  have h9 : 0 ≤ K * (lam * bending x) := by positivity
  nlinarith

/-- **C145.** The linear analysis of an array that determines linear profiles has one result only, whatever was measured. -/
theorem C145_unique (a : ArrayAnalysis) (leds : List ℕ) (pos : ℕ → P3) (h : SeenArray a leds pos) (hlam : 0 < a.lam)
    (hdet : RaysDetermine leds a.cam pos a.lo a.hi a.layers) (data : ImgData ℝ) (r r' : Except PyErr (List (Fin a.layers → ℝ)))
    (hr : a.ResultOf (a.inputOf (.ok data)) r) (hr' : a.ResultOf (a.inputOf (.ok data)) r') : r = r' := by
  obtain ⟨ds, hin, hds⟩ := seenArray_distances a leds pos h
  rw [hin] at hr hr'
  unfold ArrayAnalysis.ResultOf at hr hr'
  cases hrel : (if a.parallel then poolRel data (refIntensities a.ref data) else serialRel data (refIntensities a.ref data)) with
  | error e =>
    rw [hrel] at hr hr'
    exact hr.trans hr'.symm
  | ok rels =>
    rw [hrel] at hr hr'
    simp only [Except.map] at hr hr'
    have hM : (leds.map fun l => some (ds l)).mapM id = some (leds.map ds) := by
      have := mapM_option_some (fun x : Option (List ℝ) => x) (fun x => x.getD []) (leds.map fun l => some (ds l)) fun x hx => by
        obtain ⟨l, _, rfl⟩ := List.mem_map.1 hx
        rfl
      rw [List.map_map] at this
      exact this
    have hD : DeterminesAffine (n := a.layers) (distEntry (leds.map ds)) := by
      intro σ τ hσ hτ he
      refine hdet σ τ hσ hτ fun l hl => ?_
      obtain ⟨i, hi', rfl⟩ := List.getElem_of_mem hl
      have hlt : i < (leds.map ds).length := by rw [List.length_map]; exact hi'
      have := he ⟨i, hlt⟩
      unfold depth distEntry at this
      simp only [Fin.getElem_fin, List.getElem_map] at this
      rw [← (hds _ (List.getElem_mem hi')).2, ← (hds _ (List.getElem_mem hi')).2]
      exact this
    have huniq : ∀ rel x y, LinearImage a.layers (leds.map fun l => some (ds l)) a.lam rel x →
        LinearImage a.layers (leds.map fun l => some (ds l)) a.lam rel y → x = y := by
      intro rel x y hx hy
      unfold LinearImage at hx hy
      rw [hM] at hx hy
      simp only at hx hy
      split_ifs at hx hy with hlen
      · obtain ⟨σ, rfl, hσ⟩ := hx
        obtain ⟨τ, rfl, hτ⟩ := hy
        rw [(C43_unique_solution h.layers _ hD a.lam hlam _).unique hσ hτ]
      · rw [hx, hy]
    obtain ⟨rs, f1, rfl⟩ := hr
    obtain ⟨rs', f2, rfl⟩ := hr'
    have : rs = rs' := by
      clear hrel hin
      induction f1 generalizing rs' with
      | nil => cases f2; rfl
      | cons hx _ ih =>
        cases f2 with
        | cons hy f2 => rw [huniq _ _ _ hx hy, ih _ f2]
    rw [this]

/-- Two LEDs of the list on different sides of a border between layers, at the places given. -/
def AcrossBorder {ι : Type} (leds : List ι) (place : ι → P3) (lo hi : ℝ) (n : ℕ) : Prop :=
  ∃ k, 1 ≤ k ∧ k < n ∧ ∃ s ∈ leds, ∃ s' ∈ leds, (place s).2.2 < lo + k * ((hi - lo) / n) ∧ lo + k * ((hi - lo) / n) < (place s').2.2

theorem across_determines {ι : Type} (leds : List ι) (cam : P3) (place : ι → P3) {lo hi : ℝ} (h : lo < hi) {n : ℕ}
    (hr : ∀ l ∈ leds, RayInDomain cam (place l) lo hi) (ha : AcrossBorder leds place lo hi n) : RaysDetermine leds cam place lo hi n := by
  obtain ⟨k, h1, h2, s, hs, s', hs', b1, b2⟩ := ha
  exact C145_across_border leds cam place h hr k h1 h2 s s' hs hs' b1 b2

/-- **C145.** The whole program, error of the coefficients: for every history of steps 1 and 2, all photos and all smoke, the coefficients
found are as near to the true ones as light, positions, rounding and bending of the smoke allow, with the constant of the array. -/
theorem C145_history {D : Type} [LinearOrder D] [Add D] [Mul D] (maxLoc : Image ℚ → ℕ × ℕ) (m : Metric D) (h : List ExtCmd) (t : LedTable) (arrays : List (List ℕ))
    (groups : Option (List (List ℤ))) (hs : Stage.ofHistory maxLoc m h = .matched t arrays groups) (o : Step3Options)
    (ho : FitOptions arrays groups o) (fit : List P3 → Plane) (edges : List (P3 × P3)) (he : arrays.length ≤ edges.length)
    (hp : EndsMeasured t arrays arrays.length)
    (hdis : ((List.range (wantedCount arrays groups)).map (wantedLeds arrays groups)).flatten.Nodup)
    (h4 : 4 ≤ ((List.range (wantedCount arrays groups)).map (wantedLeds arrays groups)).flatten.length)
    (w : HdfWorld) (ch n : ℕ) (hcount : w.count w.cwd = .ok (n : ℤ)) (hn : 0 < n) (hw : w.cache = none)
    (infos : List InfoRow) (hi : GoodInfos infos) (hlen : n ≤ infos.length) (root : Str) (hroot : '\n' ∉ root)
    (R : ℕ) (img : ℕ → Image ℚ) (hph : ∀ i, Photographed t arrays R (img i)) (files : ℕ → Option Str)
    (hf : ∀ i, 1 ≤ i → i ≤ n → files i =
      (step3File o (infoFile infos) root ch R 0 (img i) none (natStr i) (runHistory maxLoc m .empty h)).toOption)
    (k : ℕ) (hk : k < wantedCount arrays groups) (hasc : (wantedLeds arrays groups k).Pairwise (· < ·)) :
    ∃ rows ids, calculateCoordinates fit arrays.length edges (runHistory maxLoc m .empty h) = .ok rows ∧
      loadIndexFile ((runHistory maxLoc m .empty h).index (indexFileName k (indexSuffix groups))) = .ok (ids.map (Nat.cast : ℕ → ℤ)) ∧
      ∀ (c : Option (List (ℕ × List ℚ × ℚ × ℚ))), w.coord w.cwd = c.map asCoord → (∀ c', c = some c' → List.Forall₂ SameRow rows c') →
      ∃ f, textFrame w ch files = .ok f ∧
      ∀ (a0 : ArrayAnalysis) (truth : ℕ → P3) (η : ℝ), SurveyedLeds a0 t arrays edges (wantedLeds arrays groups k) truth η → 0 ≤ η → 0 ≤ a0.lam →
      ∀ (v : ℕ → ℕ → ℝ), (∀ i x a j old p, IsMember arrays x a j old → (old, p) ∈ t →
          v i x = ((∑ q ∈ area (img i) p.1 p.2 R, (img i).px q.1 q.2 : ℚ) : ℝ)) →
      ∀ (γ : ℝ) (emit : ℕ → ℝ) (smoke : ℕ → Fin a0.layers → ℝ) (S L δ K : ℝ),
        Conditioned (wantedLeds arrays groups k) a0.cam truth a0.lo a0.hi a0.layers a0.lam K → 0 ≤ L →
        Precise (wantedLeds arrays groups k).length a0.layers K L δ (η + 1 / 10 ^ 6) →
        NoisyLight a0 (wantedLeds arrays groups k) truth n v γ emit smoke → 0 < δ → CameraClear a0.lo a0.hi a0.layers δ a0.cam.2.2 →
        (∀ i, 1 ≤ i → i ≤ n → ∀ j, smoke i j ≤ S) → (∀ x ∈ wantedLeds arrays groups k, euclid a0.cam (truth x) ≤ L) →
        (∀ i, 1 ≤ i → i ≤ n → ∀ x ∈ wantedLeds arrays groups k,
          lineDepth a0.cam (truth x) a0.lo a0.hi (smoke i) + displacementError S L δ (η + 1 / 10 ^ 6) ≤ 23) →
      ∀ r, (a0.withFiles k ids rows).ResultOf ((a0.withFiles k ids rows).inputOf (frameData f "sum_col_val" k)) r →
        ∃ found : ℕ → Fin a0.layers → ℝ, r = .ok ((firstImgs n).map found) ∧ ∀ i, 1 ≤ i → i ≤ n →
          ∑ j, (found i j - smoke i j) ^ 2 ≤
            4 * K * ((wantedLeds arrays groups k).length * (2 * (γ + displacementError S L δ (η + 1 / 10 ^ 6)) + 2 / 19999) ^ 2 +
              a0.lam * bending (smoke i)) := by
  obtain ⟨rows, ids, g1, g2, g3⟩ := C131_photos_to_smoke maxLoc m h t arrays groups hs o ho fit edges he hp hdis h4 w ch n hcount hn hw infos hi hlen
    root hroot R img hph files hf k hk hasc
  refine ⟨rows, ids, g1, g2, fun c hc hcr => ?_⟩
  obtain ⟨f, f1, f2⟩ := g3 c hc hcr
  refine ⟨f, f1, fun a0 truth η hsv hη hlam v hv γ emit smoke S L δ K hcond hL0 hprec hl hδ hcam hS hL hthin r hr => ?_⟩
  obtain ⟨pos, p1, p2⟩ := f2 a0 truth η hsv hη hlam
  obtain ⟨found, r1, r2⟩ := p2 v hv γ emit smoke S L δ hl hδ hcam hS hL hthin r hr
  refine ⟨found, r1, fun i h1 h2 => ?_⟩
  obtain ⟨hK, hst⟩ := hcond.nearby hsv.domain hlam hδ hcam hL0 hL (by positivity) hprec (pos := pos) fun x hx => (p1 x hx).2
  have := hst fun j => found i j - smoke i j
  simp only [lineDepth_sub] at this
  exact this.trans (mul_le_mul_of_nonneg_left (r2 i h1 h2).2 hK.le)

/-- **C145.** The same from the bench. -/
theorem C145_bench {ι D : Type} [LinearOrder D] [Add D] [Mul D] [DecidableEq ι] (maxLoc : Image ℚ → ℕ × ℕ) (hmax : IsMaxLoc maxLoc) (m : Metric D) (j : Step1Job) (spot : ℕ × ℕ → ι) (spots : Finset ι)
    (peak : ι → ℕ × ℕ) (hb : BenchPhoto maxLoc j spot spots peak) (phys : List (List ι)) (hp : BenchArrays m spots peak phys) (h4 : 4 ≤ phys.flatten.length)
    (hcorner : ∀ c ∈ phys, ∀ f l, c.head? = some f → c.getLast? = some l → (peak f).1 * (peak l).2 ≠ (peak f).2 * (peak l).1)
    (number : ι → ℕ) (hn : NumberedBy (j.table maxLoc) spots peak number) (o : Step2Options)
    (ho : edgeIndices o.edges = phys.map (endNumbers number)) (hig : o.ignore = "None".toList) (hg : o.groups = none)
    (pre h : List ExtCmd) (hh : h = pre ++ [.step1 j, .step2 o] ∨ h = pre ++ [.steps12 j o])
    (fit : List P3 → Plane) (edges : List (P3 × P3)) (he : phys.length ≤ edges.length)
    (w : HdfWorld) (ch n : ℕ) (hcount : w.count w.cwd = .ok (n : ℤ)) (hn0 : 0 < n) (hw : w.cache = none)
    (infos : List InfoRow) (hi : GoodInfos infos) (hlen : n ≤ infos.length) (root : Str) (hroot : '\n' ∉ root)
    (R : ℕ) (img : ℕ → Image ℚ) (hph : ∀ i, PhotographedBench peak phys R (img i)) (files : ℕ → Option Str)
    (hf : ∀ i, 1 ≤ i → i ≤ n → files i =
      (step3File ⟨phys.length, none⟩ (infoFile infos) root ch R 0 (img i) none (natStr i) (runHistory maxLoc m .empty h)).toOption)
    (k : ℕ) (c : List ι) (hk : phys[k]? = some c) (T B : P3) (hTB : edges[k]? = some (T, B)) :
    ∃ rows ids, calculateCoordinates fit phys.length edges (runHistory maxLoc m .empty h) = .ok rows ∧
      loadIndexFile ((runHistory maxLoc m .empty h).index (indexFileName k [])) = .ok (ids.map (Nat.cast : ℕ → ℤ)) ∧
      ∀ (cf : Option (List (ℕ × List ℚ × ℚ × ℚ))), w.coord w.cwd = cf.map asCoord → (∀ c', cf = some c' → List.Forall₂ SameRow rows c') →
      ∃ f, textFrame w ch files = .ok f ∧
      ∀ (a0 : ArrayAnalysis) (place : ι → P3) (η : ℝ), SurveyedBench a0 peak c T B place η → 0 ≤ η → 0 ≤ a0.lam →
      ∀ (γ : ℝ) (emit : ι → ℝ) (smoke : ℕ → Fin a0.layers → ℝ) (S L δ K : ℝ),
        Conditioned c a0.cam place a0.lo a0.hi a0.layers a0.lam K → 0 ≤ L → Precise c.length a0.layers K L δ (η + 1 / 10 ^ 6) →
        BenchLight a0 c place n (fun i s => lightAround (img i) (peak s) R) γ emit smoke → 0 < δ → CameraClear a0.lo a0.hi a0.layers δ a0.cam.2.2 →
        (∀ i, 1 ≤ i → i ≤ n → ∀ j, smoke i j ≤ S) → (∀ s ∈ c, euclid a0.cam (place s) ≤ L) →
        (∀ i, 1 ≤ i → i ≤ n → ∀ s ∈ c,
          lineDepth a0.cam (place s) a0.lo a0.hi (smoke i) + displacementError S L δ (η + 1 / 10 ^ 6) ≤ 23) →
      ∀ r, (a0.withFiles k ids rows).ResultOf ((a0.withFiles k ids rows).inputOf (frameData f "sum_col_val" k)) r →
        ∃ found : ℕ → Fin a0.layers → ℝ, r = .ok ((firstImgs n).map found) ∧ ∀ i, 1 ≤ i → i ≤ n →
          ∑ j, (found i j - smoke i j) ^ 2 ≤
            4 * K * (c.length * (2 * (γ + displacementError S L δ (η + 1 / 10 ^ 6)) + 2 / 19999) ^ 2 + a0.lam * bending (smoke i)) := by
  obtain ⟨rows, ids, g1, g2, g3⟩ := C135_bench_to_smoke maxLoc hmax m j spot spots peak hb phys hp h4 hcorner number hn o ho hig hg pre h hh
    fit edges he w ch n hcount hn0 hw infos hi hlen root hroot R img hph files hf k c hk T B hTB
  refine ⟨rows, ids, g1, g2, fun cf hc hcr => ?_⟩
  obtain ⟨f, f1, f2⟩ := g3 cf hc hcr
  refine ⟨f, f1, fun a0 place η hsv hη hlam γ emit smoke S L δ K hcond hL0 hprec hl hδ hcam hS hL hthin r hr => ?_⟩
  obtain ⟨pos, p1, p2⟩ := f2 a0 place η hsv hη hlam
  obtain ⟨found, r1, r2⟩ := p2 γ emit smoke S L δ hl hδ hcam hS hL hthin r hr
  refine ⟨found, r1, fun i h1 h2 => ?_⟩
  obtain ⟨hK, hst⟩ := hcond.nearby hsv.domain hlam hδ hcam hL0 hL (by positivity) hprec (pos := pos) fun x hx => p1 x hx
  have := hst fun j => found i j - smoke i j
  simp only [lineDepth_sub] at this
  exact this.trans (mul_le_mul_of_nonneg_left (r2 i h1 h2).2 hK.le)

/-! ### A case of C145: the column of five LEDs -/

theorem column_ray (x : ℕ) (hx : x ≤ 4) : RayInDomain (5, 0, 2) (0, 0, 4 - (x : ℝ)) (-1) 5 := by
  have h : (x : ℝ) ≤ 4 := by exact_mod_cast hx
  have h0 : (0 : ℝ) ≤ x := by positivity
  refine ⟨by simp, by norm_num, by constructor <;> simp only <;> linarith, by norm_num⟩

theorem column_across : AcrossBorder [0, 1, 2, 3, 4] (fun (x : ℕ) => ((0, 0, 4 - (x : ℝ)) : P3)) (-1) 5 3 :=
  ⟨1, by norm_num, by norm_num, 4, by simp, 0, by simp, by norm_num, by norm_num⟩

/-- C145_across_border, C145_determined_iff: the column determines linear profiles. -/
theorem column_determines : RaysDetermine [0, 1, 2, 3, 4] (5, 0, 2) (fun (x : ℕ) => ((0, 0, 4 - (x : ℝ)) : P3)) (-1) 5 3 :=
  across_determines _ _ _ (by norm_num) (fun x hx => column_ray x (column_le x hx)) column_across

/-- C145_determined_iff: two LEDs beside each other at the height of the camera do not. -/
example : ¬ RaysDetermine [0, 1] (5, 0, 2) (fun (x : ℕ) => ((0, (x : ℝ), 2) : P3)) (-1) 5 3 := by
  rw [C145_determined_iff _ _ _ (by norm_num) (by norm_num) fun x _ => ⟨by simp, by norm_num, by norm_num, by norm_num⟩]
  rintro ⟨⟨l, _, l', _, h⟩, _⟩
  exact h rfl

theorem column_profile (z : ℝ) (hz : RayInDomain (5, 0, 2) (0, 0, z) (-1) 5) (x : Fin 3 → ℝ) :
    lineDepth (5, 0, 2) (0, 0, z) (-1) 5 x = euclid (5, 0, 2) (0, 0, z) * (x 0 + (x 1 - x 0) * above 1 2 z + (x 2 - x 1) * above 3 2 z) := by
  have e : x = fun j => (x 0 * fromLayer 3 0 j + (x 1 - x 0) * fromLayer 3 1 j) + (x 2 - x 1) * fromLayer 3 2 j := by
    funext j
    fin_cases j <;> simp [fromLayer]
  conv_lhs => rw [e]
  rw [lineDepth_add _ _ _ _ (fun j => x 0 * fromLayer 3 0 j + (x 1 - x 0) * fromLayer 3 1 j), lineDepth_add _ _ _ _ (fun j => x 0 * fromLayer 3 0 j),
    lineDepth_mul, lineDepth_mul, lineDepth_mul, lineDepth_above (by norm_num) (by norm_num) hz, lineDepth_above (by norm_num) (by norm_num) hz,
    lineDepth_above (by norm_num) (by norm_num) hz, border_zero, above_lowest hz, show border (-1) 5 3 1 = 1 by unfold border; norm_num,
    show border (-1) 5 3 2 = 3 by unfold border; norm_num]
  ring

/-- The constant of the column. -/
theorem column_conditioned : Conditioned [0, 1, 2, 3, 4] (5, 0, 2) (fun (x : ℕ) => ((0, 0, 4 - (x : ℝ)) : P3)) (-1) 5 3 1 (1 / 3) := by
  refine ⟨by norm_num, fun x => ?_⟩
  have r0 := column_profile (4 - ((0 : ℕ) : ℝ)) (column_ray 0 (by norm_num)) x
  have r2 := column_profile (4 - ((2 : ℕ) : ℝ)) (column_ray 2 (by norm_num)) x
  have r4 := column_profile (4 - ((4 : ℕ) : ℝ)) (column_ray 4 (by norm_num)) x
  have a0 : above 1 2 (4 - ((0 : ℕ) : ℝ)) = 1 ∧ above 3 2 (4 - ((0 : ℕ) : ℝ)) = 1 / 2 := by unfold above; norm_num
  have a2 : above 1 2 (4 - ((2 : ℕ) : ℝ)) = 1 ∧ above 3 2 (4 - ((2 : ℕ) : ℝ)) = 0 := by unfold above; norm_num
  have a4 : above 1 2 (4 - ((4 : ℕ) : ℝ)) = 1 / 2 ∧ above 3 2 (4 - ((4 : ℕ) : ℝ)) = 0 := by unfold above; norm_num
  rw [a0.1, a0.2] at r0
  rw [a2.1, a2.2] at r2
  rw [a4.1, a4.2] at r4
  have q0 : euclid (5, 0, 2) (0, 0, 4 - ((0 : ℕ) : ℝ)) ^ 2 = 29 := by unfold euclid; rw [Real.sq_sqrt (by norm_num)]; norm_num
  have q2 : euclid (5, 0, 2) (0, 0, 4 - ((2 : ℕ) : ℝ)) ^ 2 = 25 := by unfold euclid; rw [Real.sq_sqrt (by norm_num)]; norm_num
  have q4 : euclid (5, 0, 2) (0, 0, 4 - ((4 : ℕ) : ℝ)) ^ 2 = 29 := by unfold euclid; rw [Real.sq_sqrt (by norm_num)]; norm_num
  have hb := bending_nonneg x
  rw [Fin.sum_univ_three]
  simp only [List.map_cons, List.map_nil, List.sum_cons, List.sum_nil]
  rw [r0, r2, r4, mul_pow, mul_pow, mul_pow, q0, q2, q4]
  have s1 := sq_nonneg (lineDepth (5, 0, 2) (0, 0, 4 - ((1 : ℕ) : ℝ)) (-1) 5 x)
  have s3 := sq_nonneg (lineDepth (5, 0, 2) (0, 0, 4 - ((3 : ℕ) : ℝ)) (-1) 5 x)
  nlinarith [sq_nonneg (x 0 + x 1), sq_nonneg (x 1 + x 2), sq_nonneg (x 0 + 3 * x 1), sq_nonneg (x 2 + 3 * x 1), sq_nonneg (x 1)]

/-- C145_bench: the coefficients of the column in smoke, all hypotheses met. -/
theorem column_coefficients : ∃ rows ids f, calculateCoordinates (fun _ => ⟨0, 1, 0⟩) 1 [((0, 0, 4), (0, 0, 0))]
      (runHistory firstMaxLoc (roundedMetric double) .empty [.step1 columnJob, .step2 (columnOptions "None")]) = .ok rows ∧
    textFrame stripDir 0 (fun i => (step3File ⟨1, none⟩ (infoFile stripInfos) "exp".toList 0 1 0 (columnPhoto i) none (natStr i)
      (runHistory firstMaxLoc (roundedMetric double) .empty [.step1 columnJob, .step2 (columnOptions "None")])).toOption) = .ok f ∧
    ∀ r, (columnAnalysis.withFiles 0 ids rows).ResultOf ((columnAnalysis.withFiles 0 ids rows).inputOf (frameData f "sum_col_val" 0)) r →
      ∃ found : ℕ → Fin 3 → ℝ, r = .ok [found 1, found 2] ∧ ∑ j, (found 2 j - Real.log 2 / 5) ^ 2 ≤ 3 / 10 := by
  obtain ⟨rows, ids, c1, c2, c3⟩ := C145_bench firstMaxLoc isMaxLoc_firstMaxLoc (roundedMetric double) columnJob (fun p => p.1 / 3) {0, 1, 2, 3, 4} columnPeak
    column_bench [[0, 1, 2, 3, 4]] column_arrays (by decide) column_corner id column_numbered (columnOptions "None") (by decide +kernel) rfl rfl [] _
    (Or.inl rfl) (fun _ => ⟨0, 1, 0⟩) [((0, 0, 4), (0, 0, 0))]
    (by simp) stripDir 0 2 rfl (by norm_num) rfl stripInfos strip_infos (by decide) "exp".toList (by decide +kernel) 1 columnPhoto column_photographed _
    (fun i _ _ => rfl) 0 [0, 1, 2, 3, 4] rfl (0, 0, 4) (0, 0, 0) rfl
  obtain ⟨f, f1, f2⟩ := c3 none rfl (by simp)
  refine ⟨rows, ids, f, c1, f1, fun r hr => ?_⟩
  obtain ⟨found, e, hfound⟩ := f2 columnAnalysis _ 0 column_bench_surveyed le_rfl (by unfold columnAnalysis; norm_num) (1 / 10) (fun _ => 1000) columnSmoke
      (1 / 5) (27 / 5) 1 (1 / 3) column_conditioned (by norm_num)
      (by show Precise 5 3 (1 / 3) (27 / 5) 1 (0 + 1 / 10 ^ 6); unfold Precise; norm_num) column_bench_light (by norm_num)
      ⟨1, by decide, by unfold columnAnalysis; norm_num, by unfold columnAnalysis; norm_num⟩ (fun i _ _ j => columnSmoke_le i j)
      (fun x hx => (column_distance x (column_le x hx)).2)
      (by
        intro i _ _ x hx
        show lineDepth (5, 0, 2) (0, 0, 4 - (x : ℝ)) (-1) 5 (columnSmoke i) + _ ≤ 23
        have := columnSmoke_depth i x (column_le x hx)
        unfold displacementError
        norm_num
        linarith) r hr
  refine ⟨found, by rw [e]; rfl, ?_⟩
  have hsm : columnSmoke 2 = fun _ => Real.log 2 / 5 := by simp [columnSmoke]
  have hb := hfound 2 (by norm_num) le_rfl
  have hbend : bending (n := 3) (columnSmoke 2) = 0 := by
    rw [hsm]
    exact (bending_eq_zero _).2 ⟨Real.log 2 / 5, 0, fun _ => by simp⟩
  have hb3 : ∑ j : Fin 3, (found 2 j - columnSmoke 2 j) ^ 2 ≤ 4 * (1 / 3) *
      (((5 : ℕ) : ℝ) * (2 * (1 / 10 + displacementError (1 / 5) (27 / 5) 1 (0 + 1 / 10 ^ 6)) + 2 / 19999) ^ 2 + 1 * bending (n := 3) (columnSmoke 2)) := hb
  rw [hbend, hsm] at hb3
  refine hb3.trans ?_
  unfold displacementError
  norm_num

end Ledsa
