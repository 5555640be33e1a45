import Verif.Props.WholeRun
import Verif.Props.Arrays

/-! From the LED arrays on the bench to the smoke: all steps of the program, with the hypotheses only about the bench and the photos (C135). -/

namespace Ledsa

variable {ι D : Type} [LinearOrder D] [Add D] [Mul D]

/-! ### The numbers of the LEDs -/

/-- The position of an LED in the arrays written one after another: its number in all files after step 2. -/
def benchId [DecidableEq ι] (phys : List (List ι)) (s : ι) : ℕ := phys.flatten.idxOf s

theorem benchId_of [DecidableEq ι] (phys : List (List ι)) (hnd : phys.flatten.Nodup) (k i : ℕ) (s : ι) (h : (phys[k]?).bind (fun c => c[i]?) = some s) :
    benchId phys s = (phys.take k).flatten.length + i := by
  have h1 := flatten_offset phys k i s h
  obtain ⟨h2, h3⟩ := List.getElem?_eq_some_iff.1 h1
  unfold benchId
  rw [← h3, hnd.idxOf_getElem]

theorem benchId_get [DecidableEq ι] (phys : List (List ι)) (s : ι) (h : s ∈ phys.flatten) : phys.flatten[benchId phys s]? = some s := by
  unfold benchId
  exact List.getElem?_idxOf h

theorem benchId_block [DecidableEq ι] (phys : List (List ι)) (hnd : phys.flatten.Nodup) (number : ι → ℕ) (k : ℕ) (c : List ι) (hk : phys[k]? = some c) :
    blockOf (phys.map fun c => c.map number) k = c.map (benchId phys) := by
  unfold blockOf
  rw [← List.map_take, ← List.map_flatten, List.length_map, List.getElem?_map, hk]
  simp only [Option.map_some, Option.getD_some, List.length_map]
  apply List.ext_getElem?
  intro i
  by_cases hi : i < c.length
  · rw [List.getElem?_range' hi, List.getElem?_map, List.getElem?_eq_getElem hi, Option.map_some,
      benchId_of phys hnd k i c[i] (by rw [hk, Option.bind_some, List.getElem?_eq_getElem hi])]
    congr 1
    omega
  · rw [List.getElem?_eq_none (by rw [List.length_range']; omega), List.getElem?_eq_none (by rw [List.length_map]; omega)]

theorem benchMember [DecidableEq ι] (phys : List (List ι)) (hnd : phys.flatten.Nodup) (number : ι → ℕ) (x k i old : ℕ)
    (h : IsMember (phys.map fun c => c.map number) x k i old) :
    ∃ c s, phys[k]? = some c ∧ s ∈ c ∧ old = number s ∧ x = benchId phys s := by
  obtain ⟨h1, h2⟩ := h
  unfold member at h2
  rw [List.getElem?_map] at h2
  cases hk : phys[k]? with
  | none => rw [hk] at h2; cases h2
  | some c =>
    rw [hk] at h2
    simp only [Option.map_some, Option.bind_some, List.getElem?_map] at h2
    obtain ⟨s, hs, hso⟩ := Option.map_eq_some_iff.1 h2
    refine ⟨c, s, rfl, List.mem_of_getElem? hs, hso.symm, ?_⟩
    rw [benchId_of phys hnd k i s (by rw [hk]; exact hs), h1, ← List.map_take, ← List.map_flatten, List.length_map]

/-! ### C135 -/

/-- The LED array `c` with measured ends `T`, `B` on the bench: its LEDs are at `place`, at most `η` from the point of the line from `T` to `B` that
divides it as the pixel of the LED divides the line between the pixels of the first and the last LED; layers and camera such that the rays are inside the
domain with this error and the rounding of the coordinates file. -/
structure SurveyedBench (a : ArrayAnalysis) (peak : ι → ℕ × ℕ) (c : List ι) (T B : P3) (place : ι → P3) (η : ℝ) : Prop where
  layers : 3 ≤ a.layers
  domain : a.lo < a.hi
  camera : a.lo ≤ a.cam.2.2 ∧ a.cam.2.2 ≤ a.hi
  seen : ∀ f l, c.head? = some f → c.getLast? = some l → ∀ s ∈ c, ∀ q : ℝ,
    IsFraction (realPix (intPix (peak f))) (realPix (intPix (peak l))) (realPix (intPix (peak s))) q → euclid (place s) (lerp3 T B q) ≤ η
  inside : ∀ s ∈ c, a.lo + (η + 1 / 10 ^ 6) ≤ (place s).2.2 ∧ (place s).2.2 + (η + 1 / 10 ^ 6) < a.hi
  apart : ∀ s ∈ c, η + 1 / 10 ^ 6 < euclid a.cam (place s)

/-- The light of the LEDs `c` in `N` photos: `v i s` is what LED `s` sends through `smoke i`, up to the factor `exp γ`; the reference photos are taken
without smoke. -/
structure BenchLight (a : ArrayAnalysis) (c : List ι) (place : ι → P3) (N : ℕ) (v : ℕ → ι → ℝ) (γ : ℝ) (emit : ι → ℝ)
    (smoke : ℕ → Fin a.layers → ℝ) : Prop where
  emits : ∀ s ∈ c, 0 < emit s
  light : ∀ i, 1 ≤ i → i ≤ N → ∀ s ∈ c, Within γ (v i s) (emit s * Real.exp (-lineDepth a.cam (place s) a.lo a.hi (smoke i)))
  clear : ∀ i, 1 ≤ i → i ≤ N → a.ref.selects i = true → smoke i = fun _ => 0
  reference : ∃ i, 1 ≤ i ∧ i ≤ N ∧ a.ref.selects i = true
  nonneg : ∀ i, 1 ≤ i → i ≤ N → ∀ k, 0 ≤ smoke i k
  thin : ∀ i, 1 ≤ i → i ≤ N → ∀ s ∈ c, lineDepth a.cam (place s) a.lo a.hi (smoke i) ≤ 23

/-- Photos in which the LEDs of the arrays can be measured. -/
structure PhotographedBench (peak : ι → ℕ × ℕ) (phys : List (List ι)) (R : ℕ) (img : Image ℚ) : Prop where
  radius : 0 < R
  leds : ∀ s ∈ phys.flatten, R ≤ (peak s).1 ∧ R ≤ (peak s).2 ∧ (peak s).1 < img.h ∧ (peak s).2 < img.w
  pixels : ∀ i j, i < img.h → j < img.w → ∃ v : ℕ, img.px i j = v

/-- The light of an LED in a photo: the pixel values in the square around its brightest pixel. -/
def lightAround (img : Image ℚ) (peak : ℕ × ℕ) (R : ℕ) : ℝ := ((∑ q ∈ area img peak.1 peak.2 R, img.px q.1 q.2 : ℚ) : ℝ)

/-- A function of the LEDs as function of their numbers. -/
def benchFun {α : Type} (phys : List (List ι)) (f : ι → α) (d : α) (x : ℕ) : α := ((phys.flatten[x]?).map f).getD d

theorem benchFun_of {α : Type} [DecidableEq ι] (phys : List (List ι)) (f : ι → α) (d : α) (s : ι) (hs : s ∈ phys.flatten) :
    benchFun phys f d (benchId phys s) = f s := by
  unfold benchFun
  simp only [benchId_get phys s hs, Option.map_some, Option.getD_some]

theorem bench_light [DecidableEq ι] (phys : List (List ι)) (c : List ι) (hc : ∀ s ∈ c, s ∈ phys.flatten) {a : ArrayAnalysis} {place : ι → P3} {N : ℕ}
    {v : ℕ → ι → ℝ} {γ : ℝ} {emit : ι → ℝ} {smoke : ℕ → Fin a.layers → ℝ} (h : BenchLight a c place N v γ emit smoke) :
    NoisyLight a (c.map (benchId phys)) (benchFun phys place (0, 0, 0)) N (fun i => benchFun phys (v i) 0) γ (benchFun phys emit 0) smoke := by
  refine ⟨?_, ?_, h.clear, h.reference, h.nonneg, ?_⟩
  · intro x hx
    obtain ⟨s, hs, rfl⟩ := List.mem_map.1 hx
    rw [benchFun_of phys _ _ s (hc s hs)]
    exact h.emits s hs
  · intro i h1 h2 x hx
    obtain ⟨s, hs, rfl⟩ := List.mem_map.1 hx
    simp only [benchFun_of phys _ _ s (hc s hs)]
    exact h.light i h1 h2 s hs
  · intro i h1 h2 x hx
    obtain ⟨s, hs, rfl⟩ := List.mem_map.1 hx
    rw [benchFun_of phys _ _ s (hc s hs)]
    exact h.thin i h1 h2 s hs

/-- Values that are right up to a factor give light with a larger error. -/
theorem NoisyLight.measured {a : ArrayAnalysis} {leds : List ℕ} {pos : ℕ → P3} {N : ℕ} {v u : ℕ → ℕ → ℝ} {γ ε : ℝ} {emit : ℕ → ℝ}
    {smoke : ℕ → Fin a.layers → ℝ} (h : NoisyLight a leds pos N v γ emit smoke)
    (hu : ∀ i, 1 ≤ i → i ≤ N → ∀ l ∈ leds, Within ε (u i l) (v i l)) : NoisyLight a leds pos N u (γ + ε) emit smoke :=
  ⟨h.emits, fun i h1 h2 l hl => (h.light i h1 h2 l hl).trans (hu i h1 h2 l hl), h.clear, h.reference, h.nonneg, h.thin⟩

theorem ray_displaced {cam p q : P3} {lo hi D : ℝ} (hc : lo ≤ cam.2.2 ∧ cam.2.2 ≤ hi) (hin : lo + D ≤ p.2.2 ∧ p.2.2 + D < hi)
    (hap : D < euclid cam p) (hd : euclid p q ≤ D) : RayInDomain cam q lo hi := by
  have hz := abs_le.1 ((height_le_euclid p q).trans hd)
  refine ⟨?_, hc, ⟨by linarith [hz.1, hz.2], by linarith [hz.1, hz.2]⟩, ?_⟩
  · rintro rfl
    have : euclid p cam = euclid cam p := by
      unfold euclid
      congr 1
      ring
    linarith
  · rintro ⟨_, h⟩
    linarith [hz.1]

theorem bench_seen [DecidableEq ι] (phys : List (List ι)) (rows : List CoordRow) (c : List ι) (k : ℕ) (pos : ℕ → P3) (place : ι → P3) {a0 : ArrayAnalysis}
    {peak : ι → ℕ × ℕ} {T B : P3} {η : ℝ} (hasc : (c.map (benchId phys)).Pairwise (· < ·)) (hne : c ≠ [])
    (hsv : SurveyedBench a0 peak c T B place η) (hpos : ∀ s ∈ c, (rows.map (·.pos))[benchId phys s]? = some (pos (benchId phys s)) ∧
      euclid (place s) (pos (benchId phys s)) ≤ η + 1 / 10 ^ 6) :
    SeenArray (a0.withFiles k (c.map (benchId phys)).reverse rows) (c.map (benchId phys)) pos := by
  refine ⟨rfl, hasc, by simpa using hne, ?_, hsv.layers, hsv.domain, ?_⟩
  · intro x hx
    obtain ⟨s, hs, rfl⟩ := List.mem_map.1 hx
    exact (hpos s hs).1
  · intro x hx
    obtain ⟨s, hs, rfl⟩ := List.mem_map.1 hx
    exact ray_displaced hsv.camera (hsv.inside s hs) (hsv.apart s hs) (hpos s hs).2

/-- The run up to the analysis: the positions and the values of the LEDs of array `k` of the bench as the analysis reads them. -/
theorem C135_measured [DecidableEq ι] (maxLoc : Image ℚ → ℕ × ℕ) (hmax : IsMaxLoc maxLoc) (m : Metric D) (j : Step1Job) (spot : ℕ × ℕ → ι) (spots : Finset ι)
    (peak : ι → ℕ × ℕ) (hb : BenchPhoto maxLoc j spot spots peak) (phys : List (List ι)) (hp : BenchArrays m spots peak phys) (h4 : 4 ≤ phys.flatten.length)
    (hcorner : ∀ c ∈ phys, ∀ f l, c.head? = some f → c.getLast? = some l → (peak f).1 * (peak l).2 ≠ (peak f).2 * (peak l).1)
    (number : ι → ℕ) (hn : NumberedBy (j.table maxLoc) spots peak number) (o : Step2Options)
    (ho : edgeIndices o.edges = phys.map (endNumbers number)) (hig : o.ignore = "None".toList) (hg : o.groups = none)
    (pre h : List ExtCmd) (hh : h = pre ++ [.step1 j, .step2 o] ∨ h = pre ++ [.steps12 j o])
    (fit : List P3 → Plane) (edges : List (P3 × P3)) (he : phys.length ≤ edges.length)
    (w : HdfWorld) (ch n : ℕ) (hcount : w.count w.cwd = .ok (n : ℤ)) (hn0 : 0 < n) (hw : w.cache = none)
    (infos : List InfoRow) (hi : GoodInfos infos) (hlen : n ≤ infos.length) (root : Str) (hroot : '\n' ∉ root)
    (R : ℕ) (img : ℕ → Image ℚ) (hph : ∀ i, PhotographedBench peak phys R (img i)) (files : ℕ → Option Str)
    (hf : ∀ i, 1 ≤ i → i ≤ n → files i =
      (step3File ⟨phys.length, none⟩ (infoFile infos) root ch R 0 (img i) none (natStr i) (runHistory maxLoc m .empty h)).toOption)
    (k : ℕ) (c : List ι) (hk : phys[k]? = some c) (T B : P3) (hTB : edges[k]? = some (T, B)) :
    (c.map (benchId phys)).Pairwise (· < ·) ∧ c ≠ [] ∧
    ∃ rows, calculateCoordinates fit phys.length edges (runHistory maxLoc m .empty h) = .ok rows ∧
      loadIndexFile ((runHistory maxLoc m .empty h).index (indexFileName k [])) =
        .ok ((c.map (benchId phys)).reverse.map (Nat.cast : ℕ → ℤ)) ∧
      (∀ (a0 : ArrayAnalysis) (place : ι → P3) (η : ℝ), SurveyedBench a0 peak c T B place η →
        ∃ pos : ℕ → P3, ∀ s ∈ c, (rows.map (·.pos))[benchId phys s]? = some (pos (benchId phys s)) ∧
          euclid (place s) (pos (benchId phys s)) ≤ η + 1 / 10 ^ 6) ∧
      ∀ (cf : Option (List (ℕ × List ℚ × ℚ × ℚ))), w.coord w.cwd = cf.map asCoord → (∀ c', cf = some c' → List.Forall₂ SameRow rows c') →
      ∃ f u, textFrame w ch files = .ok f ∧ frameData f "sum_col_val" k = .ok (tableOf (firstImgs n) (c.map (benchId phys)) u) ∧
      ∀ i, 1 ≤ i → i ≤ n → ∀ s ∈ c, Within (1 / 19999) (u i (benchId phys s)) (lightAround (img i) (peak s) R) := by
  have hnd := hp.nodup
  have hig' : ignoredLeds o.ignore = [] := by
    rw [hig]
    unfold ignoredLeds
    rw [if_pos rfl]
  have hall : ∀ l : List ℕ, l.filter (fun (x : ℕ) => (x : ℤ) ∉ ignoredLeds o.ignore) = l := by
    intro l
    rw [hig']
    simp
  obtain ⟨s0, hs0⟩ := List.exists_mem_of_ne_nil phys.flatten (by rintro hc; rw [hc] at h4; simp at h4)
  have hst : Stage.ofHistory maxLoc m h = .matched (j.table maxLoc) (phys.map fun c => c.map number) none := by
    have := C134_bench_partial maxLoc hmax m j spot spots peak hb phys hp number hn o ho ⟨s0, hs0, by rw [hig']; simp⟩ pre
    simp only [hall, hg] at this
    rcases hh with rfl | rfl
    · exact this.1
    · exact this.2
  set t := j.table maxLoc with ht
  set arrays := phys.map fun c => c.map number with harr
  obtain ⟨number', n1, n2, n3, _⟩ := C134_numbered maxLoc hmax j spot spots peak hb
  have hids : (t.map (·.1)).Nodup := by rw [ht, n3]; exact List.nodup_range
  have hrow : ∀ s ∈ phys.flatten, (number s, intPix (peak s)) ∈ t := fun s hs => (hn _).2 ⟨s, hp.visible s hs, rfl⟩
  have hpix : ∀ s ∈ phys.flatten, ∀ p, (number s, p) ∈ t → p = intPix (peak s) := by
    intro s hs p hpt
    exact (Prod.ext_iff.1 (List.inj_on_of_nodup_map hids hpt (hrow s hs) rfl)).2
  have hcm : ∀ k c, phys[k]? = some c → ∀ s ∈ c, s ∈ phys.flatten := fun k c hk s hs => List.mem_flatten.2 ⟨c, List.mem_of_getElem? hk, hs⟩
  have hwc : wantedCount arrays none = phys.length := by simp [wantedCount, harr]
  have hkl : k < phys.length := (List.getElem?_eq_some_iff.1 hk).1
  have hblock : ∀ k c, phys[k]? = some c → wantedLeds arrays none k = c.map (benchId phys) := fun k c hk => benchId_block phys hnd number k c hk
  have hW : (List.range (wantedCount arrays none)).map (wantedLeds arrays none) = phys.map fun c => c.map (benchId phys) := by
    rw [hwc]
    apply List.ext_getElem?
    intro i
    by_cases hi : i < phys.length
    · rw [List.getElem?_map, List.getElem?_map, List.getElem?_range hi, List.getElem?_eq_getElem hi]
      simp only [Option.map_some]
      rw [hblock i phys[i] (List.getElem?_eq_getElem hi)]
    · rw [List.getElem?_eq_none (by simpa using hi), List.getElem?_eq_none (by simpa using hi)]
  have hidinj : ∀ s ∈ phys.flatten, ∀ s' ∈ phys.flatten, benchId phys s = benchId phys s' → s = s' := by
    intro s hs s' hs' h
    have h1 := benchId_get phys s hs
    rw [h, benchId_get phys s' hs'] at h1
    exact (Option.some.inj h1).symm
  have hends : EndsMeasured t arrays arrays.length := by
    intro i hi
    rw [harr, List.length_map] at hi
    have hc := List.getElem_mem hi
    have h2 := hp.two _ hc
    obtain ⟨f, hf⟩ : ∃ f, (phys[i]).head? = some f := by
      cases hc' : phys[i] with
      | nil => rw [hc'] at h2; simp at h2
      | cons x l => exact ⟨x, rfl⟩
    obtain ⟨l, hl⟩ : ∃ l, (phys[i]).getLast? = some l := by
      cases hl' : (phys[i]).getLast? with
      | none => rw [List.getLast?_eq_none_iff] at hl'; rw [hl'] at h2; simp at h2
      | some x => exact ⟨x, rfl⟩
    refine ⟨(phys[i]).map number, number f, number l, intPix (peak f), intPix (peak l), ?_, ?_, ?_, ?_, ?_, ?_⟩
    · rw [harr, List.getElem?_map, List.getElem?_eq_getElem hi]; rfl
    · rw [List.head?_map, hf]; rfl
    · rw [List.getLast?_map, hl]; rfl
    · exact hrow f (List.mem_flatten.2 ⟨_, hc, List.mem_of_mem_head? hf⟩)
    · exact hrow l (List.mem_flatten.2 ⟨_, hc, List.mem_of_getLast? hl⟩)
    · have := hcorner _ hc f l hf hl
      unfold intPix
      intro he
      apply this
      simp only at he
      exact_mod_cast he
  have hphot : ∀ i, Photographed t arrays R (img i) := by
    intro i
    refine ⟨(hph i).radius, ?_, (hph i).pixels⟩
    intro old p hold hpt
    rw [harr, ← List.map_flatten] at hold
    obtain ⟨s, hs, rfl⟩ := List.mem_map.1 hold
    rw [hpix s hs p hpt]
    obtain ⟨b1, b2, b3, b4⟩ := (hph i).leds s hs
    unfold intPix
    simp only
    exact ⟨by exact_mod_cast b1, by exact_mod_cast b2, by exact_mod_cast b3, by exact_mod_cast b4⟩
  have hasc : (wantedLeds arrays none k).Pairwise (· < ·) := by
    show (blockOf arrays k).Pairwise (· < ·)
    unfold blockOf
    exact List.pairwise_lt_range'
  obtain ⟨hnone, rows, g1, g2, g3, g4⟩ := C131_measured maxLoc m h t arrays none hst ⟨phys.length, none⟩
    ⟨rfl, by simp [harr]⟩ fit edges (by simpa [harr] using he) hends
    (by
      rw [hW, ← List.map_flatten]
      exact List.Nodup.map_on (fun x hx y hy hxy => hidinj x hx y hy hxy) hnd)
    (by rw [hW, ← List.map_flatten, List.length_map]; exact h4)
    w ch n hcount hn0 hw infos hi hlen root hroot R img hphot files hf k (by rw [hwc]; exact hkl)
    hasc
  have hal : ((arrays.length : ℕ) : ℤ) = (phys.length : ℕ) := by rw [harr, List.length_map]
  rw [hal] at g1
  have hcmk := hcm k c hk
  rw [hblock k c hk] at hnone hasc g2 g3 g4
  refine ⟨hasc, fun hc => hnone (by rw [hc]; rfl), rows, g1, g2, ?_, ?_⟩
  · intro a0 place η hsv
    -- values per number
    set truth : ℕ → P3 := fun x => ((phys.flatten[x]?).map place).getD (0, 0, 0) with htruth
    have htr : ∀ s ∈ phys.flatten, truth (benchId phys s) = place s := by
      intro s hs
      rw [htruth]
      simp only [benchId_get phys s hs, Option.map_some, Option.getD_some]
    have hsv' : SurveyedLeds a0 t arrays edges (c.map (benchId phys)) truth η := by
      refine ⟨hsv.layers, hsv.domain, hsv.camera, ?_, ?_, ?_⟩
      · intro k' ak T' B' fN lN pf pl e1 e2 e3 e4 e5 e6 x hx i old p q hm hpt hq
        obtain ⟨s, hs, rfl⟩ := List.mem_map.1 hx
        obtain ⟨c', s', m1, m2, m3, m4⟩ := benchMember phys hnd number _ k' i old hm
        have hss : s = s' := hidinj s (hcmk s hs) s' (hcm k' c' m1 s' m2) m4
        subst hss
        have hkk : k' = k := by
          apply blockOf_disjoint arrays k' k (benchId phys s)
          · rw [benchId_block phys hnd number k' c' m1]
            exact List.mem_map_of_mem m2
          · rw [benchId_block phys hnd number k c hk]
            exact List.mem_map_of_mem hs
        subst hkk
        rw [hTB] at e2
        injection e2 with e2
        injection e2 with e2 e2'
        subst e2 e2'
        rw [harr, List.getElem?_map, hk] at e1
        simp only [Option.map_some, Option.some.injEq] at e1
        subst e1
        rw [List.head?_map] at e3
        rw [List.getLast?_map] at e4
        obtain ⟨f', hf', rfl⟩ := Option.map_eq_some_iff.1 e3
        obtain ⟨l', hl', rfl⟩ := Option.map_eq_some_iff.1 e4
        have hf'' := hcmk f' (List.mem_of_mem_head? hf')
        have hl'' := hcmk l' (List.mem_of_getLast? hl')
        rw [hpix f' hf'' pf e5, hpix l' hl'' pl e6] at hq
        rw [m3] at hpt
        rw [hpix s (hcmk s hs) p hpt] at hq
        rw [htr s (hcmk s hs)]
        exact hsv.seen f' l' hf' hl' s hs q hq
      · intro x hx
        obtain ⟨s, hs, rfl⟩ := List.mem_map.1 hx
        rw [htr s (hcmk s hs)]
        exact hsv.inside s hs
      · intro x hx
        obtain ⟨s, hs, rfl⟩ := List.mem_map.1 hx
        rw [htr s (hcmk s hs)]
        exact hsv.apart s hs
    obtain ⟨pos, p1⟩ := g3 a0 truth η hsv'
    refine ⟨pos, fun s hs => ?_⟩
    have := p1 _ (List.mem_map_of_mem hs)
    rwa [htr s (hcmk s hs)] at this
  · intro cf hcf hcr
    obtain ⟨f, u, f1, f2, f3⟩ := g4 cf hcf hcr
    refine ⟨f, u, f1, f2, fun i h1 h2 s hs => ?_⟩
    obtain ⟨k', i', old, p, hm, hpt, hw⟩ := f3 i h1 h2 _ (List.mem_map_of_mem hs)
    obtain ⟨c', s', m1, m2, m3, m4⟩ := benchMember phys hnd number _ k' i' old hm
    have hs' := hcm k' c' m1 s' m2
    have hss : s = s' := hidinj s (hcmk s hs) s' hs' m4
    subst hss
    rw [m3] at hpt
    rw [hpix s hs' p hpt] at hw
    exact hw

/-- **C135.** From the bench to the smoke: the user photographs LED arrays (nearly straight ones with exact or rounded distances: C134_exact, C134_rounded), runs step 1, gives the numbers of the first and last LEDs for
step 2 and the measured positions of these LEDs for the coordinates, runs step 3 for all photos, and the analysis of array `k`. Whatever numbers step 1
gives, the found coefficients of array `k` of the analysis reproduce the optical depths of the smoke along the lines of sight from the camera to the LEDs of
array `k` on the bench. -/
theorem C135_bench_to_smoke [DecidableEq ι] (maxLoc : Image ℚ → ℕ × ℕ) (hmax : IsMaxLoc maxLoc) (m : Metric D) (j : Step1Job) (spot : ℕ × ℕ → ι) (spots : Finset ι)
    (peak : ι → ℕ × ℕ) (hb : BenchPhoto maxLoc j spot spots peak) (phys : List (List ι)) (hp : BenchArrays m spots peak phys) (h4 : 4 ≤ phys.flatten.length)
    (hcorner : ∀ c ∈ phys, ∀ f l, c.head? = some f → c.getLast? = some l → (peak f).1 * (peak l).2 ≠ (peak f).2 * (peak l).1)
    (number : ι → ℕ) (hn : NumberedBy (j.table maxLoc) spots peak number) (o : Step2Options)
    (ho : edgeIndices o.edges = phys.map (endNumbers number)) (hig : o.ignore = "None".toList) (hg : o.groups = none)
    (pre h : List ExtCmd) (hh : h = pre ++ [.step1 j, .step2 o] ∨ h = pre ++ [.steps12 j o])
    (fit : List P3 → Plane) (edges : List (P3 × P3)) (he : phys.length ≤ edges.length)
    (w : HdfWorld) (ch n : ℕ) (hcount : w.count w.cwd = .ok (n : ℤ)) (hn0 : 0 < n) (hw : w.cache = none)
    (infos : List InfoRow) (hi : GoodInfos infos) (hlen : n ≤ infos.length) (root : Str) (hroot : '\n' ∉ root)
    (R : ℕ) (img : ℕ → Image ℚ) (hph : ∀ i, PhotographedBench peak phys R (img i)) (files : ℕ → Option Str)
    (hf : ∀ i, 1 ≤ i → i ≤ n → files i =
      (step3File ⟨phys.length, none⟩ (infoFile infos) root ch R 0 (img i) none (natStr i) (runHistory maxLoc m .empty h)).toOption)
    (k : ℕ) (c : List ι) (hk : phys[k]? = some c) (T B : P3) (hTB : edges[k]? = some (T, B)) :
    ∃ rows ids, calculateCoordinates fit phys.length edges (runHistory maxLoc m .empty h) = .ok rows ∧
      loadIndexFile ((runHistory maxLoc m .empty h).index (indexFileName k [])) = .ok (ids.map (Nat.cast : ℕ → ℤ)) ∧
      ∀ (cf : Option (List (ℕ × List ℚ × ℚ × ℚ))), w.coord w.cwd = cf.map asCoord → (∀ c', cf = some c' → List.Forall₂ SameRow rows c') →
      ∃ f, textFrame w ch files = .ok f ∧
      ∀ (a0 : ArrayAnalysis) (place : ι → P3) (η : ℝ), SurveyedBench a0 peak c T B place η → 0 ≤ η → 0 ≤ a0.lam →
      ∃ pos : ι → P3, (∀ s ∈ c, euclid (place s) (pos s) ≤ η + 1 / 10 ^ 6) ∧
      ∀ (γ : ℝ) (emit : ι → ℝ) (smoke : ℕ → Fin a0.layers → ℝ) (S L δ : ℝ),
        BenchLight a0 c place n (fun i s => lightAround (img i) (peak s) R) γ emit smoke → 0 < δ → CameraClear a0.lo a0.hi a0.layers δ a0.cam.2.2 →
        (∀ i, 1 ≤ i → i ≤ n → ∀ j, smoke i j ≤ S) → (∀ s ∈ c, euclid a0.cam (place s) ≤ L) →
        (∀ i, 1 ≤ i → i ≤ n → ∀ s ∈ c,
          lineDepth a0.cam (place s) a0.lo a0.hi (smoke i) + displacementError S L δ (η + 1 / 10 ^ 6) ≤ 23) →
      ∀ r, (a0.withFiles k ids rows).ResultOf ((a0.withFiles k ids rows).inputOf (frameData f "sum_col_val" k)) r →
        ∃ found : ℕ → Fin a0.layers → ℝ, r = .ok ((firstImgs n).map found) ∧ ∀ i, 1 ≤ i → i ≤ n → (∀ j, 0 ≤ found i j) ∧
          (c.map fun s =>
              (lineDepth a0.cam (pos s) a0.lo a0.hi (found i) - lineDepth a0.cam (pos s) a0.lo a0.hi (smoke i)) ^ 2).sum +
            a0.lam * bending (fun j => found i j - smoke i j) ≤
            c.length * (2 * (γ + displacementError S L δ (η + 1 / 10 ^ 6)) + 2 / 19999) ^ 2 + a0.lam * bending (smoke i) := by
  obtain ⟨hasc, hnone, rows, g1, g2, g3, g4⟩ := C135_measured maxLoc hmax m j spot spots peak hb phys hp h4 hcorner number hn o ho hig hg pre h hh
    fit edges he w ch n hcount hn0 hw infos hi hlen root hroot R img hph files hf k c hk T B hTB
  refine ⟨rows, _, g1, g2, ?_⟩
  intro cf hcf hcr
  obtain ⟨f, u, f1, f2, f3⟩ := g4 cf hcf hcr
  refine ⟨f, f1, ?_⟩
  intro a0 place η hsv hη hlam
  obtain ⟨pos, hpos⟩ := g3 a0 place η hsv
  refine ⟨fun s => pos (benchId phys s), fun s hs => (hpos s hs).2, ?_⟩
  intro γ emit smoke S L δ hl hδ hcam hS hL hthin r hr
  have hcm : ∀ s ∈ c, s ∈ phys.flatten := fun s hs => List.mem_flatten.2 ⟨c, List.mem_of_getElem? hk, hs⟩
  have hseen := bench_seen phys rows c k pos place (a0 := a0) hasc hnone hsv fun s hs => hpos s hs
  have hnoisy := ((bench_light phys c hcm hl).displaced hsv.domain hδ (by positivity) hcam hS
    (fun x hx => by
      obtain ⟨s, hs, rfl⟩ := List.mem_map.1 hx
      rw [benchFun_of phys _ _ s (hcm s hs)]
      exact hL s hs)
    (pos := pos) (ε := η + 1 / 10 ^ 6) (fun x hx => by
      obtain ⟨s, hs, rfl⟩ := List.mem_map.1 hx
      rw [benchFun_of phys _ _ s (hcm s hs)]
      exact (hpos s hs).2)
    (fun i h1 h2 x hx => by
      obtain ⟨s, hs, rfl⟩ := List.mem_map.1 hx
      rw [benchFun_of phys _ _ s (hcm s hs)]
      exact hthin i h1 h2 s hs)).measured (u := u) (ε := 1 / 19999) (fun i h1 h2 x hx => by
      obtain ⟨s, hs, rfl⟩ := List.mem_map.1 hx
      simp only [benchFun_of phys _ _ s (hcm s hs)]
      exact f3 i h1 h2 s hs)
  have hnoisy' : NoisyLight (a0.withFiles k (c.map (benchId phys)).reverse rows) (c.map (benchId phys)) pos n u _ _ smoke :=
    ⟨hnoisy.emits, hnoisy.light, hnoisy.clear, hnoisy.reference, hnoisy.nonneg, hnoisy.thin⟩
  rw [f2] at hr
  obtain ⟨found, r1, r2⟩ := noisy_result (a0.withFiles k _ rows) _ pos hseen hlam n u _ _ smoke hnoisy' r hr
  refine ⟨found, r1, fun i h1 h2 => ?_⟩
  obtain ⟨q1, q2⟩ := r2 i h1 h2
  rw [List.map_map, List.length_map] at q2
  refine ⟨q1, ?_⟩
  have e : 2 * (γ + displacementError S L δ (η + 1 / 10 ^ 6) + 1 / 19999) =
      2 * (γ + displacementError S L δ (η + 1 / 10 ^ 6)) + 2 / 19999 := by ring
  rw [e] at q2
  exact q2

/-! A case of C135: the column of five LEDs as a bench. -/

/-- The brightest pixels of the column. -/
def columnPeak (s : ℕ) : ℕ × ℕ := (2 + 3 * s, 3)

theorem column_lit (p : ℕ × ℕ) : Lit columnImage 1 p ↔ p = (2, 3) ∨ p = (5, 3) ∨ p = (8, 3) ∨ p = (11, 3) ∨ p = (14, 3) := by
  obtain ⟨i, j⟩ := p
  unfold Lit Image.Inside columnImage
  simp only [Prod.mk.injEq]
  constructor
  · rintro ⟨_, h⟩
    split at h
    · split_ifs at h <;> first | tauto | norm_num at h
    · norm_num at h
  · rintro (⟨rfl, rfl⟩ | ⟨rfl, rfl⟩ | ⟨rfl, rfl⟩ | ⟨rfl, rfl⟩ | ⟨rfl, rfl⟩) <;> norm_num

theorem column_bench : BenchPhoto firstMaxLoc columnJob (fun p => p.1 / 3) {0, 1, 2, 3, 4} columnPeak := by
  refine BenchSpots.unique firstMaxLoc isMaxLoc_firstMaxLoc ⟨by decide, by decide, by unfold columnJob; norm_num, ?_, by decide⟩ _ ?_
  · apply C132_distances
    · intro p hp
      rcases (column_lit p).1 hp with rfl | rfl | rfl | rfl | rfl <;> decide
    · intro s hs
      simp only [Finset.mem_insert, Finset.mem_singleton] at hs
      rcases hs with rfl | rfl | rfl | rfl | rfl
      · exact ⟨(2, 3), (column_lit _).2 (by simp), by decide⟩
      · exact ⟨(5, 3), (column_lit _).2 (by simp), by decide⟩
      · exact ⟨(8, 3), (column_lit _).2 (by simp), by decide⟩
      · exact ⟨(11, 3), (column_lit _).2 (by simp), by decide⟩
      · exact ⟨(14, 3), (column_lit _).2 (by simp), by decide⟩
    · intro p hp
      rcases (column_lit p).1 hp with rfl | rfl | rfl | rfl | rfl <;> decide
    · intro p q hp hq h
      rcases (column_lit p).1 hp with rfl | rfl | rfl | rfl | rfl <;> rcases (column_lit q).1 hq with rfl | rfl | rfl | rfl | rfl <;>
        revert h <;> decide
    · intro p q hp hq h
      rcases (column_lit p).1 hp with rfl | rfl | rfl | rfl | rfl <;> rcases (column_lit q).1 hq with rfl | rfl | rfl | rfl | rfl <;>
        revert h <;> decide
  · intro p hp
    rcases (column_lit p).1 hp.1 with rfl | rfl | rfl | rfl | rfl <;> decide

theorem column_straight : StraightArrays {0, 1, 2, 3, 4} columnPeak [[0, 1, 2, 3, 4]] 3 := by
  refine ⟨by decide, by decide, by decide, ?_⟩
  intro c hc
  rw [List.mem_singleton] at hc
  subst hc
  refine ⟨(1, 0), 3, 0, 3, ⟨by norm_num, by norm_num, ?_, ?_, ?_⟩, by norm_num, by norm_num, le_rfl⟩
  · intro a _
    unfold across intPix columnPeak
    norm_num
  · intro pre a b post h
    have hb : b = a + 1 := by
      match pre, h with
      | [], h => simp only [List.nil_append, List.cons.injEq] at h; omega
      | [_], h => simp only [List.cons_append, List.nil_append, List.cons.injEq] at h; omega
      | [_, _], h => simp only [List.cons_append, List.nil_append, List.cons.injEq] at h; omega
      | [_, _, _], h => simp only [List.cons_append, List.nil_append, List.cons.injEq] at h; omega
      | [_, _, _, _], h => simp at h
      | _ :: _ :: _ :: _ :: _ :: _, h => simp at h
    subst hb
    unfold along intPix columnPeak
    push_cast
    linarith
  · intro pre a b post h e he hne
    simp only [Finset.mem_insert, Finset.mem_singleton] at he
    simp only [List.mem_cons, List.not_mem_nil, or_false] at hne
    exact absurd he hne

theorem column_numbered : NumberedBy (columnJob.table firstMaxLoc) {0, 1, 2, 3, 4} columnPeak id := by
  intro e
  rw [column_table]
  unfold columnPeak columnTable intPix
  simp only [List.mem_cons, List.not_mem_nil, or_false, Finset.mem_insert, Finset.mem_singleton, exists_eq_or_imp, exists_eq_left]
  norm_num

theorem column_le : ∀ x ∈ [0, 1, 2, 3, 4], x ≤ 4 := by decide

theorem strip_infos : GoodInfos stripInfos := by
  refine ⟨?_, by unfold CsvSafe; decide, by decide⟩
  intro k hk
  match k, hk with
  | 0, _ => rfl
  | 1, _ => rfl

theorem column_photographed (i : ℕ) : PhotographedBench columnPeak [[0, 1, 2, 3, 4]] 1 (columnPhoto i) := by
  refine ⟨by decide, ?_, ?_⟩
  · intro s hs
    have := column_le s (by simpa using hs)
    simp only [columnPeak, columnPhoto]
    omega
  · intro r c _ _
    simp only [columnPhoto]
    split
    · split
      · exact ⟨500, by norm_num⟩
      · exact ⟨1000, by norm_num⟩
    · exact ⟨0, by norm_num⟩

theorem column_arrays : BenchArrays (roundedMetric double) {0, 1, 2, 3, 4} columnPeak [[0, 1, 2, 3, 4]] :=
  C134_rounded double firstMaxLoc isMaxLoc_firstMaxLoc columnJob _ _ _ column_bench _ 3 column_straight (by
    unfold double columnJob columnImage
    norm_num)

theorem column_corner : ∀ c ∈ [[0, 1, 2, 3, 4]], ∀ f l, c.head? = some f → c.getLast? = some l →
    (columnPeak f).1 * (columnPeak l).2 ≠ (columnPeak f).2 * (columnPeak l).1 := by
  intro c hc f l hf hl
  rw [List.mem_singleton] at hc
  subst hc
  obtain rfl : 0 = f := by simpa using hf
  obtain rfl : 4 = l := by simpa using hl
  decide

theorem column_rows : ∀ s ∈ [0, 1, 2, 3, 4], (s, intPix (columnPeak s)) ∈ columnTable := by decide

theorem column_bench_surveyed :
    SurveyedBench columnAnalysis columnPeak ([0, 1, 2, 3, 4] : List ℕ) (0, 0, 4) (0, 0, 0) (fun (x : ℕ) => (0, 0, 4 - (x : ℝ))) 0 := by
  have hs := column_surveyed
  refine ⟨hs.layers, hs.domain, hs.camera, ?_, hs.inside, hs.apart⟩
  intro f l hf hl s hsm q hq
  refine hs.seen [0, 1, 2, 3, 4] f l _ _ rfl hf hl (column_rows f (List.mem_of_mem_head? hf)) (column_rows l (List.mem_of_getLast? hl)) s s s _ q ?_
    (column_rows s hsm) hq
  have := column_le s hsm
  refine ⟨by simp, ?_⟩
  unfold member
  interval_cases s <;> rfl

theorem column_bench_light : BenchLight columnAnalysis ([0, 1, 2, 3, 4] : List ℕ) (fun (x : ℕ) => (0, 0, 4 - (x : ℝ))) 2
    (fun i (s : ℕ) => lightAround (columnPhoto i) (columnPeak s) 1) (1 / 10) (fun _ => 1000) columnSmoke := by
  have hn := column_noisy
  refine ⟨hn.emits, ?_, hn.clear, hn.reference, hn.nonneg, hn.thin⟩
  intro i h1 h2 s hs
  have e : lightAround (columnPhoto i) (columnPeak s) 1 = if i = 2 then 500 else 1000 := by
    unfold lightAround
    have := column_light i s _ (column_rows s hs)
    have e2 : (∑ q ∈ area (columnPhoto i) (columnPeak s).1 (columnPeak s).2 1, (columnPhoto i).px q.1 q.2 : ℚ) = if i = 2 then 500 else 1000 := this
    rw [e2]
    split <;> norm_num
  rw [e]
  exact hn.light i h1 h2 s hs

theorem log_two_le : Real.log 2 ≤ 1 := by
  rw [Real.log_le_iff_le_exp (by norm_num)]
  linarith [Real.add_one_le_exp (1 : ℝ)]

theorem columnSmoke_le (i : ℕ) (j : Fin columnAnalysis.layers) : columnSmoke i j ≤ 1 / 5 := by
  have := log_two_le
  unfold columnSmoke
  split
  · linarith
  · norm_num

theorem columnSmoke_depth (i x : ℕ) (hx : x ≤ 4) : lineDepth (5, 0, 2) (0, 0, 4 - (x : ℝ)) (-1) 5 (columnSmoke i) ≤ 2 := by
  have hlog0 : 0 < Real.log 2 := Real.log_pos (by norm_num)
  have hlog1 := log_two_le
  obtain ⟨d1, d2⟩ := column_distance x hx
  unfold columnSmoke
  split
  · rw [column_depth _ _ hx]
    nlinarith
  · rw [column_depth _ _ hx]
    norm_num

/-- The result for the column in two photos: the optical depths in smoke are right up to 1/2. -/
theorem column_bench_run : ∃ rows ids f, calculateCoordinates (fun _ => ⟨0, 1, 0⟩) 1 [((0, 0, 4), (0, 0, 0))]
      (runHistory firstMaxLoc (roundedMetric double) .empty [.step1 columnJob, .step2 (columnOptions "None")]) = .ok rows ∧
    textFrame stripDir 0 (fun i => (step3File ⟨1, none⟩ (infoFile stripInfos) "exp".toList 0 1 0 (columnPhoto i) none (natStr i)
      (runHistory firstMaxLoc (roundedMetric double) .empty [.step1 columnJob, .step2 (columnOptions "None")])).toOption) = .ok f ∧
    ∀ r, (columnAnalysis.withFiles 0 ids rows).ResultOf ((columnAnalysis.withFiles 0 ids rows).inputOf (frameData f "sum_col_val" 0)) r →
      ∃ (pos : ℕ → P3) (found : ℕ → Fin 3 → ℝ), (∀ x : ℕ, x ≤ 4 → euclid (0, 0, 4 - (x : ℝ)) (pos x) ≤ 1 / 10 ^ 6) ∧ r = .ok [found 1, found 2] ∧
        ∀ x : ℕ, x ≤ 4 → |lineDepth (5, 0, 2) (pos x) (-1) 5 (found 2) - lineDepth (5, 0, 2) (pos x) (-1) 5 (columnSmoke 2)| ≤ 1 / 2 := by
  obtain ⟨rows, ids, c1, c2, c3⟩ := C135_bench_to_smoke firstMaxLoc isMaxLoc_firstMaxLoc (roundedMetric double) columnJob (fun p => p.1 / 3) {0, 1, 2, 3, 4} columnPeak
    column_bench [[0, 1, 2, 3, 4]] column_arrays (by decide) column_corner id column_numbered (columnOptions "None") (by decide +kernel) rfl rfl [] _
    (Or.inl rfl) (fun _ => ⟨0, 1, 0⟩) [((0, 0, 4), (0, 0, 0))]
    (by simp) stripDir 0 2 rfl (by norm_num) rfl stripInfos strip_infos (by decide) "exp".toList (by decide +kernel) 1 columnPhoto column_photographed _
    (fun i _ _ => rfl) 0 [0, 1, 2, 3, 4] rfl (0, 0, 4) (0, 0, 0) rfl
  obtain ⟨f, f1, f2⟩ := c3 none rfl (by simp)
  refine ⟨rows, ids, f, c1, f1, ?_⟩
  obtain ⟨pos, p1, p2⟩ := f2 columnAnalysis _ 0 column_bench_surveyed le_rfl (by unfold columnAnalysis; norm_num)
  intro r hr
  obtain ⟨found, e, hfound⟩ := p2 (1 / 10) (fun _ => 1000) columnSmoke (1 / 5) (27 / 5) 1 column_bench_light (by norm_num)
      ⟨1, by decide, by unfold columnAnalysis; norm_num, by unfold columnAnalysis; norm_num⟩ (fun i _ _ j => columnSmoke_le i j)
      (fun x hx => (column_distance x (column_le x hx)).2)
      (by
        intro i _ _ x hx
        show lineDepth (5, 0, 2) (0, 0, 4 - (x : ℝ)) (-1) 5 (columnSmoke i) + _ ≤ 23
        have := columnSmoke_depth i x (column_le x hx)
        unfold displacementError
        norm_num
        linarith) r hr
  refine ⟨pos, found, ?_, by rw [e]; rfl, ?_⟩
  · intro x hx
    have := p1 x (by simp; omega)
    simpa using this
  · obtain ⟨_, hb2⟩ := hfound 2 (by norm_num) le_rfl
    have hsm : columnSmoke 2 = fun _ => Real.log 2 / 5 := by simp [columnSmoke]
    have hbend : bending (n := 3) (columnSmoke 2) = 0 := by
      rw [hsm]
      exact (bending_eq_zero _).2 ⟨Real.log 2 / 5, 0, fun _ => by simp⟩
    have hnn := bending_nonneg (n := 3) fun k => found 2 k - columnSmoke 2 k
    have hb3 : ([0, 1, 2, 3, 4].map fun x => (lineDepth (5, 0, 2) (pos x) (-1) 5 (found 2) -
        lineDepth (5, 0, 2) (pos x) (-1) 5 (columnSmoke 2)) ^ 2).sum + 1 * bending (n := 3) (fun k => found 2 k - columnSmoke 2 k) ≤
        ((5 : ℕ) : ℝ) * (2 * (1 / 10 + displacementError (1 / 5) (27 / 5) 1 (0 + 1 / 10 ^ 6)) + 2 / 19999) ^ 2 +
          1 * bending (n := 3) (columnSmoke 2) := hb2
    rw [hbend] at hb3
    unfold displacementError at hb3
    intro x hx
    have hone : (lineDepth (5, 0, 2) (pos x) (-1) 5 (found 2) - lineDepth (5, 0, 2) (pos x) (-1) 5 (columnSmoke 2)) ^ 2 ≤ (1 / 2) ^ 2 := by
      have hx5 : x ∈ [0, 1, 2, 3, 4] := by simp; omega
      have := List.single_le_sum (l := [0, 1, 2, 3, 4].map fun x => (lineDepth (5, 0, 2) (pos x) (-1) 5 (found 2) -
        lineDepth (5, 0, 2) (pos x) (-1) 5 (columnSmoke 2)) ^ 2) (by
          intro y hy
          obtain ⟨z, _, rfl⟩ := List.mem_map.1 hy
          exact sq_nonneg _) _ (List.mem_map_of_mem hx5)
      refine this.trans ?_
      norm_num at hb3 ⊢
      linarith
    exact abs_le_of_sq_le_sq hone (by norm_num)

end Ledsa
