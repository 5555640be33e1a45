import Verif.Model.EndToEnd
import Verif.Props.RoundedRun
import Verif.Props.Batch

/-! From the LED arrays on the bench to the numbers that post-processing shows: all parts of the program in one statement (C142). -/

namespace Ledsa

variable {ι D : Type} [LinearOrder D] [Add D] [Mul D]

theorem ofFn_range {K : Type} (n : ℕ) (σ : Fin n → K) (g : ℕ → K) (h : ∀ l (hl : l < n), g l = σ ⟨l, hl⟩) : List.ofFn σ = (List.range n).map g := by
  apply List.ext_getElem
  · simp
  · intro i h1 h2
    rw [List.getElem_ofFn, List.getElem_map, List.getElem_range, h i (by simpa using h1)]

theorem experimentTimes_forall₂ (l : List InfoRow) : ∀ ts, experimentTimes l = .ok ts → List.Forall₂ (fun r t => pyInt r.expTime = .ok t) l ts := by
  induction l with
  | nil =>
    intro ts h
    unfold experimentTimes at h
    rw [List.mapM_nil] at h
    cases h
    exact .nil
  | cons r l ih =>
    intro ts h
    unfold experimentTimes at h
    rw [List.mapM_cons] at h
    simp only [bind, Except.bind] at h
    split at h
    · cases h
    · rename_i x hx
      split at h
      · cases h
      · rename_i v hv
        cases h
        exact .cons hx (ih v hv)

/-- What post-processing shows for channel, LED array, time and layer, whichever way it is asked for. -/
def Shows {K : Type} (t : ExtTable K) (lo hi : ℚ) (layers : ℕ) (c a : ℕ) (time : ℤ) (l : ℕ) (x : K) : Prop :=
  ∃ (byArray : Grid ℤ ℕ K) (byLayer : Grid ℤ ℤ K) (byTime : Grid ℕ ℤ K) (i : ℕ),
    t.atArray id c a = .ok byArray ∧ t.atLayer id c l = .ok byLayer ∧ (∀ h, InLayer lo hi layers l h → t.atHeight id lo hi layers c h = .ok byLayer) ∧
    t.atTime id c time = .ok byTime ∧
    (byArray.index[i]? = some time ∧ ∃ v, (l, v) ∈ byArray.cols ∧ v[i]? = some (some x)) ∧
    (byLayer.index[i]? = some time ∧ ∃ v, ((a : ℤ), v) ∈ byLayer.cols ∧ v[i]? = some (some x)) ∧
    (byTime.index[l]? = some l ∧ ∃ v, ((a : ℤ), v) ∈ byTime.cols ∧ v[l]? = some (some x))

/-- **C142.** From the bench to the numbers shown. The bench is photographed, the LEDs are detected, matched and measured in all photos and
channels, the positions are interpolated, the analysis command runs over any LED arrays and channels in floating point and saves its files, and
post-processing reads them in any order. Then for every photo, channel, LED array and layer a coefficient is shown, the same for every kind of request,
it is not negative, and the optical depths of the coefficients shown for a photo are those of the smoke in front of the LEDs of the array on the bench. -/
theorem C142_end_to_end_partial [DecidableEq ι] (maxLoc : Image ℚ → ℕ × ℕ) (hmax : IsMaxLoc maxLoc) (m : Metric D) (j : Step1Job) (spot : ℕ × ℕ → ι)
    (spots : Finset ι) (peak : ι → ℕ × ℕ) (hb : BenchPhoto maxLoc j spot spots peak) (phys : List (List ι)) (hp : BenchArrays m spots peak phys)
    (h4 : 4 ≤ phys.flatten.length)
    (hcorner : ∀ c ∈ phys, ∀ f l, c.head? = some f → c.getLast? = some l → (peak f).1 * (peak l).2 ≠ (peak f).2 * (peak l).1)
    (number : ι → ℕ) (hn : NumberedBy (j.table maxLoc) spots peak number) (o : Step2Options)
    (ho : edgeIndices o.edges = phys.map (endNumbers number)) (hig : o.ignore = "None".toList) (hg : o.groups = none)
    (pre h : List ExtCmd) (hh : h = pre ++ [.step1 j, .step2 o] ∨ h = pre ++ [.steps12 j o])
    (fit : List P3 → Plane) (edges : List (P3 × P3)) (he : phys.length ≤ edges.length)
    (infos : List InfoRow) (hi : GoodInfos infos) (hn0 : infos ≠ [])
    (w : ℕ → HdfWorld) (hcount : ∀ ch, (w ch).count (w ch).cwd = .ok (infos.length : ℤ)) (hw : ∀ ch, (w ch).cache = none)
    (root : Str) (hroot : '\n' ∉ root)
    (R : ℕ) (img : ℕ → ℕ → Image ℚ) (hph : ∀ ch i, PhotographedBench peak phys R (img ch i)) (files : ℕ → ℕ → Option Str)
    (hf : ∀ ch i, 1 ≤ i → i ≤ infos.length → files ch i =
      (step3File ⟨phys.length, none⟩ (infoFile infos) root ch R 0 (img ch i) none (natStr i) (runHistory maxLoc m .empty h)).toOption)
    (M : Machine) (a0 : ArrayAnalysis) (place : ι → P3) (η ρ E : ℝ)
    (hsv : ∀ (k : ℕ) (c : List ι) (T B : P3), phys[k]? = some c → edges[k]? = some (T, B) → SurveyedBench a0 peak c T B place η)
    (hη : 0 ≤ η) (hρ : 0 ≤ ρ) (hlam : 0 ≤ a0.lam) (hE : E = η + 1 / 10 ^ 6 + ρ)
    (hin : ∀ s ∈ phys.flatten, (a0.lo + E ≤ (place s).2.2 ∧ (place s).2.2 + E < a0.hi) ∧ E < euclid a0.cam (place s))
    (read : ℝ → ℝ) (hread : ∀ x, |read x - x| ≤ M.w * |x|) (hfar : ∀ s ∈ phys.flatten, M.w * (euclid (0, 0, 0) (place s) + (η + 1 / 10 ^ 6)) ≤ ρ)
    (γ : ℝ) (emit : ℕ → ι → ℝ) (smoke : ℕ → ℕ → Fin a0.layers → ℝ) (S L δ : ℝ) (hγ : 0 ≤ γ)
    (hl : ∀ ch, ∀ c ∈ phys, BenchLight a0 c place infos.length (fun i s => lightAround (img ch i) (peak s) R) γ (emit ch) (smoke ch))
    (hδ : 0 < δ) (hcam : CameraClear a0.lo a0.hi a0.layers δ a0.cam.2.2)
    (hS : ∀ ch i, 1 ≤ i → i ≤ infos.length → ∀ j, smoke ch i j ≤ S) (hL : ∀ s ∈ phys.flatten, euclid a0.cam (place s) ≤ L)
    (hfit : M.Fits a0 infos.length (L + E) δ)
    (hthin : ∀ ch i, 1 ≤ i → i ≤ infos.length → ∀ s ∈ phys.flatten, lineDepth a0.cam (place s) a0.lo a0.hi (smoke ch i) +
      2 * displacementError S L δ E + M.borderError a0.layers a0.lo a0.hi S (L + E) δ ≤ 23)
    (ε : ℝ) (hε : 0 ≤ ε) :
    ∃ (rows : List CoordRow) (ids : ℕ → List ℕ), calculateCoordinates fit phys.length edges (runHistory maxLoc m .empty h) = .ok rows ∧
      (∀ k < phys.length, loadIndexFile ((runHistory maxLoc m .empty h).index (indexFileName k [])) = .ok ((ids k).map (Nat.cast : ℕ → ℤ))) ∧
      ∀ (cf : Option (List (ℕ × List ℚ × ℚ × ℚ))), (∀ ch, (w ch).coord (w ch).cwd = cf.map asCoord) → (∀ c', cf = some c' → List.Forall₂ SameRow rows c') →
      ∃ f : ℕ → DataTable, (∀ ch, textFrame (w ch) ch (files ch) = .ok (f ch)) ∧
      (0 < ε → ∀ k < phys.length, ∀ ch, ∃ r, M.Calculates ((a0.withFiles k (ids k) rows).readBy read) ε (readData read (frameData (f ch) "sum_col_val" k)) r) ∧
      ∀ (job : BatchJob ℝ) (pairs : List (ℕ × ℕ)), job.layers = a0.layers → (∀ x, job.skip x = false) → experimentTimes infos = .ok job.times →
        job.times.Nodup → pairs.Nodup → (∀ p ∈ pairs, p.1 < phys.length) →
        (∀ p ∈ pairs, M.Calculates ((a0.withFiles p.1 (ids p.1) rows).readBy read) ε (readData read (frameData (f p.2) "sum_col_val" p.1))
          (job.analyse p.1 p.2)) →
      ∀ (dir : Str), PlainPath dir job.solver job.property → ∀ globbed, Globbed dir (job.run pairs []).1 globbed →
      ∀ (lo hi : ℚ), (lo : ℝ) = a0.lo → (hi : ℝ) = a0.hi → pairs ≠ [] →
        (job.run pairs []).2 = none ∧
        ∃ t, allExtcos globbed = .ok t ∧ ∀ p ∈ pairs, ∀ c, phys[p.1]? = some c → ∀ (i : ℕ) (row : InfoRow) (time : ℤ), infos[i]? = some row → pyInt row.expTime = .ok time →
          ∃ (x : Fin a0.layers → ℝ) (pos : ι → P3), (∀ l : Fin a0.layers, Shows t lo hi a0.layers p.2 p.1 time l (x l)) ∧ (∀ l, 0 ≤ x l) ∧
            (∀ s ∈ c, euclid (place s) (pos s) ≤ E) ∧
            (∀ s ∈ c, |M.depthThrough a0.cam (pos s) a0.lo a0.hi x - lineDepth a0.cam (place s) a0.lo a0.hi (smoke p.2 (i + 1))| ≤
              104 / 100 * M.imageErr c.length (γ + displacementError S L δ E + 1 / 19999 + 2 * M.w + M.borderError a0.layers a0.lo a0.hi S (L + E) δ)
                a0.lam ε (smoke p.2 (i + 1)) + 1260 * M.u + 460 * M.w + M.borderError a0.layers a0.lo a0.hi S (L + E) δ + displacementError S L δ E) ∧
            a0.lam * bending (fun j => x j - smoke p.2 (i + 1) j) ≤
              101 / 100 * M.imageErr c.length (γ + displacementError S L δ E + 1 / 19999 + 2 * M.w + M.borderError a0.layers a0.lo a0.hi S (L + E) δ)
                a0.lam ε (smoke p.2 (i + 1)) ^ 2 := by
  have hlen : 0 < infos.length := List.length_pos_of_ne_nil hn0
  have hend : ∀ k < phys.length, ∃ c T B, phys[k]? = some c ∧ edges[k]? = some (T, B) := fun k hk =>
    ⟨phys[k], (edges[k]'(by omega)).1, (edges[k]'(by omega)).2, List.getElem?_eq_getElem hk, List.getElem?_eq_getElem (by omega)⟩
  have main := fun (k : ℕ) (ch : ℕ) (c : List ι) (T B : P3) (hk : phys[k]? = some c) (hTB : edges[k]? = some (T, B)) =>
    C137_bench_to_smoke maxLoc hmax m j spot spots peak hb phys hp h4 hcorner number hn o ho hig hg pre h hh fit edges he (w ch) ch infos.length
      (hcount ch) hlen (hw ch) infos hi le_rfl root hroot R (img ch) (hph ch) (files ch) (hf ch) k c hk T B hTB M
  have hflat : ∀ (k : ℕ) (c : List ι), phys[k]? = some c → ∀ s ∈ c, s ∈ phys.flatten := fun k c hk s hs => List.mem_flatten.2 ⟨c, List.mem_of_getElem? hk, hs⟩
  have hphys : 0 < phys.length := by
    cases phys with
    | nil => simp at h4
    | cons => simp
  -- coordinates and index files
  obtain ⟨rows, hrows⟩ : ∃ rows, calculateCoordinates fit phys.length edges (runHistory maxLoc m .empty h) = .ok rows := by
    obtain ⟨c, T, B, hk, hTB⟩ := hend 0 hphys
    obtain ⟨rows, _, g1, _⟩ := main 0 0 c T B hk hTB
    exact ⟨rows, g1⟩
  have hids : ∀ k, ∃ ids : List ℕ, k < phys.length →
      loadIndexFile ((runHistory maxLoc m .empty h).index (indexFileName k [])) = .ok (ids.map (Nat.cast : ℕ → ℤ)) := by
    intro k
    by_cases hk : k < phys.length
    · obtain ⟨c, T, B, hkc, hTB⟩ := hend k hk
      obtain ⟨_, ids, _, g2, _⟩ := main k 0 c T B hkc hTB
      exact ⟨ids, fun _ => g2⟩
    · exact ⟨[], fun h => absurd h hk⟩
  choose ids hids using hids
  refine ⟨rows, ids, hrows, hids, ?_⟩
  intro cf hcf hcr
  -- the same for every channel and array
  have main2 : ∀ (k ch : ℕ) (c : List ι) (T B : P3), phys[k]? = some c → edges[k]? = some (T, B) → ∃ f, textFrame (w ch) ch (files ch) = .ok f ∧
      ∃ pos : ι → P3, (∀ s ∈ c, euclid (place s) (pos s) ≤ E) ∧
        (0 < ε → ∃ r, M.ArrayResult ((a0.withFiles k (ids k) rows).readBy read) ε (readData read (frameData f "sum_col_val" k)) r) ∧
        ∀ r, M.ArrayResult ((a0.withFiles k (ids k) rows).readBy read) ε (readData read (frameData f "sum_col_val" k)) r →
        ∃ found : ℕ → Fin a0.layers → ℝ, r = .ok ((firstImgs infos.length).map found) ∧ ∀ i, 1 ≤ i → i ≤ infos.length → (∀ j, 0 ≤ found i j) ∧
          (∀ s ∈ c, |M.depthThrough a0.cam (pos s) a0.lo a0.hi (found i) - lineDepth a0.cam (place s) a0.lo a0.hi (smoke ch i)| ≤
            104 / 100 * M.imageErr c.length (γ + displacementError S L δ E + 1 / 19999 + 2 * M.w + M.borderError a0.layers a0.lo a0.hi S (L + E) δ)
              a0.lam ε (smoke ch i) + 1260 * M.u + 460 * M.w + M.borderError a0.layers a0.lo a0.hi S (L + E) δ + displacementError S L δ E) ∧
          a0.lam * bending (fun j => found i j - smoke ch i j) ≤
            101 / 100 * M.imageErr c.length (γ + displacementError S L δ E + 1 / 19999 + 2 * M.w + M.borderError a0.layers a0.lo a0.hi S (L + E) δ)
              a0.lam ε (smoke ch i) ^ 2 := by
    intro k ch c T B hk hTB
    obtain ⟨rows', ids', g1, g2, g3⟩ := main k ch c T B hk hTB
    rw [hrows, Except.ok.injEq] at g1
    subst g1
    have hkl : k < phys.length := (List.getElem?_eq_some_iff.1 hk).1
    rw [hids k hkl, Except.ok.injEq] at g2
    have g2' := List.map_injective_iff.2 Nat.cast_injective g2
    subst g2'
    obtain ⟨f, f1, f2⟩ := g3 cf (hcf ch) hcr
    obtain ⟨pos, p1, p2⟩ := f2 a0 place η ρ E (hsv k c T B hk hTB) hη hρ hlam hE (fun s hs => hin s (hflat k c hk s hs)) read hread
      (fun s hs => hfar s (hflat k c hk s hs))
    obtain ⟨q1, q2⟩ := p2 γ (emit ch) (smoke ch) S L δ hγ (hl ch c (List.mem_of_getElem? hk)) hδ hcam (hS ch) (fun s hs => hL s (hflat k c hk s hs)) hfit
      (fun i h1 h2 s hs => hthin ch i h1 h2 s (hflat k c hk s hs)) ε hε
    exact ⟨f, f1, pos, p1, q1, q2⟩
  have hframe : ∀ ch, ∃ f, textFrame (w ch) ch (files ch) = .ok f := by
    intro ch
    obtain ⟨c, T, B, hk, hTB⟩ := hend 0 hphys
    obtain ⟨f, f1, _⟩ := main2 0 ch c T B hk hTB
    exact ⟨f, f1⟩
  choose f hframe using hframe
  have main3 : ∀ (k ch : ℕ) (c : List ι), phys[k]? = some c → 
      ∃ pos : ι → P3, (∀ s ∈ c, euclid (place s) (pos s) ≤ E) ∧
        (0 < ε → ∃ r, M.ArrayResult ((a0.withFiles k (ids k) rows).readBy read) ε (readData read (frameData (f ch) "sum_col_val" k)) r) ∧
        ∀ r, M.ArrayResult ((a0.withFiles k (ids k) rows).readBy read) ε (readData read (frameData (f ch) "sum_col_val" k)) r →
        ∃ found : ℕ → Fin a0.layers → ℝ, r = .ok ((firstImgs infos.length).map found) ∧ ∀ i, 1 ≤ i → i ≤ infos.length → (∀ j, 0 ≤ found i j) ∧
          (∀ s ∈ c, |M.depthThrough a0.cam (pos s) a0.lo a0.hi (found i) - lineDepth a0.cam (place s) a0.lo a0.hi (smoke ch i)| ≤
            104 / 100 * M.imageErr c.length (γ + displacementError S L δ E + 1 / 19999 + 2 * M.w + M.borderError a0.layers a0.lo a0.hi S (L + E) δ)
              a0.lam ε (smoke ch i) + 1260 * M.u + 460 * M.w + M.borderError a0.layers a0.lo a0.hi S (L + E) δ + displacementError S L δ E) ∧
          a0.lam * bending (fun j => found i j - smoke ch i j) ≤
            101 / 100 * M.imageErr c.length (γ + displacementError S L δ E + 1 / 19999 + 2 * M.w + M.borderError a0.layers a0.lo a0.hi S (L + E) δ)
              a0.lam ε (smoke ch i) ^ 2 := by
    intro k ch c hk
    obtain ⟨c', T, B, hk', hTB⟩ := hend k (List.getElem?_eq_some_iff.1 hk).1
    obtain ⟨f', f1, f2⟩ := main2 k ch c T B hk hTB
    rw [hframe ch, Except.ok.injEq] at f1
    subst f1
    exact f2
  refine ⟨f, hframe, ?_, ?_⟩
  · intro hε0 k hk ch
    obtain ⟨pos, _, q1, _⟩ := main3 k ch phys[k] (List.getElem?_eq_getElem hk)
    obtain ⟨r, hr⟩ := q1 hε0
    exact ⟨_, r, hr, rfl⟩
  intro job pairs hlay hskip htimes hnd hpn hpk hcalc dir hplain globbed hglob lo hi' hlo hhi hne
  have hft := experimentTimes_forall₂ infos _ htimes
  have htl : job.times.length = infos.length := hft.length_eq.symm
  have hall : ∀ p : ℕ × ℕ, ∃ found : ℕ → Fin a0.layers → ℝ, p ∈ pairs →
      job.analyse p.1 p.2 = .ok (((firstImgs infos.length).map found).map List.ofFn) ∧
      ∀ c, phys[p.1]? = some c → ∃ pos : ι → P3, (∀ s ∈ c, euclid (place s) (pos s) ≤ E) ∧ ∀ i, 1 ≤ i → i ≤ infos.length → (∀ j, 0 ≤ found i j) ∧
          (∀ s ∈ c, |M.depthThrough a0.cam (pos s) a0.lo a0.hi (found i) - lineDepth a0.cam (place s) a0.lo a0.hi (smoke p.2 i)| ≤
            104 / 100 * M.imageErr c.length (γ + displacementError S L δ E + 1 / 19999 + 2 * M.w + M.borderError a0.layers a0.lo a0.hi S (L + E) δ)
              a0.lam ε (smoke p.2 i) + 1260 * M.u + 460 * M.w + M.borderError a0.layers a0.lo a0.hi S (L + E) δ + displacementError S L δ E) ∧
          a0.lam * bending (fun j => found i j - smoke p.2 i j) ≤
            101 / 100 * M.imageErr c.length (γ + displacementError S L δ E + 1 / 19999 + 2 * M.w + M.borderError a0.layers a0.lo a0.hi S (L + E) δ)
              a0.lam ε (smoke p.2 i) ^ 2 := by
    intro p
    by_cases hpp : p ∈ pairs
    · obtain ⟨r, hr, hr'⟩ := hcalc p hpp
      have hk := List.getElem?_eq_getElem (hpk p hpp)
      obtain ⟨pos, p1, _, p2⟩ := main3 p.1 p.2 _ hk
      obtain ⟨found, e1, e2⟩ := p2 r hr
      refine ⟨found, fun _ => ⟨by rw [hr', e1]; rfl, ?_⟩⟩
      intro c hc
      rw [hk, Option.some.injEq] at hc
      subst hc
      exact ⟨pos, p1, e2⟩
    · exact ⟨fun _ _ => 0, fun h => absurd h hpp⟩
  choose found hfound using hall
  set time : ℕ → ℤ := fun i => (job.times[i]?).getD 0 with htime
  have htime' : ∀ i (hi : i < infos.length), time i = job.times[i]'(by omega) := by
    intro i hi
    simp only [htime, List.getElem?_eq_getElem (show i < job.times.length by omega), Option.getD_some]
  set coef : ℕ → ℕ → ℕ → ℕ → ℝ := fun c a i l => if hll : l < a0.layers then found (a, c) (i + 1) ⟨l, hll⟩ else 0 with hcoef
  have hgood : GoodBatch job pairs infos.length time coef := by
    refine ⟨hskip, ?_, ?_⟩
    · apply List.ext_getElem
      · simp [htl]
      · intro i h1 h2
        rw [List.getElem_map, List.getElem_range, htime' i (by omega)]
    · intro p hpp
      rw [(hfound p hpp).1]
      unfold coefRows firstImgs
      rw [List.map_map, List.map_map, hlay]
      congr 1
      apply List.map_congr_left
      intro i _
      apply ofFn_range
      intro l hll
      simp only [hcoef, dif_pos hll]
  have hdist : ∀ i < infos.length, ∀ k < i, time k ≠ time i := by
    intro i hi k hki he
    rw [htime' i hi, htime' k (by omega)] at he
    have := (List.Nodup.getElem_inj_iff hnd).1 he
    omega
  have hdom : lo < hi' := by
    obtain ⟨c, T, B, hk, hTB⟩ := hend 0 hphys
    have := (hsv 0 c T B hk hTB).domain
    rw [← hlo, ← hhi] at this
    exact_mod_cast this
  have h3 : 0 < a0.layers := by
    obtain ⟨c, T, B, hk, hTB⟩ := hend 0 hphys
    have := (hsv 0 c T B hk hTB).layers
    omega
  have shown := fun c a (hm : (a, c) ∈ pairs) i (hii : i < infos.length) l (hll : l < job.layers) hh hhh =>
    C141_shown_partial job dir hplain pairs hpn infos.length time hdist coef hgood globbed hglob lo hi' hdom c a hm i hii l hll hh hhh
  have hin1 : ∀ l, l < job.layers → InLayer lo hi' job.layers l (lo + (hi' - lo) * l / job.layers) := by
    intro l hll
    have hpos : (0 : ℚ) < job.layers := by
      have : 0 < job.layers := by omega
      exact_mod_cast this
    refine ⟨le_rfl, ?_⟩
    have : (hi' - lo) * l / job.layers < (hi' - lo) * (l + 1) / job.layers := by
      apply div_lt_div_of_pos_right _ hpos
      have : 0 < hi' - lo := by linarith
      nlinarith
    linarith
  obtain ⟨t, ht⟩ : ∃ t, allExtcos globbed = .ok t := by
    obtain ⟨p, hpp⟩ := List.exists_mem_of_ne_nil pairs hne
    obtain ⟨t, _, _, _, h1, _⟩ := shown p.2 p.1 hpp 0 hlen 0 (by omega) _ (hin1 0 (by omega))
    exact ⟨t, h1⟩
  refine ⟨?_, t, ht, ?_⟩
  · rw [C141_ends_iff]
    exact fun p hpp => ⟨_, hgood.one hpp⟩
  intro p hpp c hc i row tm hrow hrt
  obtain ⟨hil, hrow'⟩ := List.getElem?_eq_some_iff.1 hrow
  have htm' : job.times[i]'(by omega) = tm := by
    have := hft.get hil (by omega)
    simp only [List.get_eq_getElem] at this
    rw [hrow', hrt, Except.ok.injEq] at this
    exact this.symm
  obtain ⟨pos, p1, p2⟩ := (hfound p hpp).2 c hc
  obtain ⟨q1, q2, q3⟩ := p2 (i + 1) (by omega) (by omega)
  refine ⟨found p (i + 1), pos, ?_, q1, p1, q2, q3⟩
  intro l
  have hll : (l : ℕ) < job.layers := by rw [hlay]; exact l.2
  have htt : time i = tm := by rw [htime' i hil, htm']
  have hce : coef p.2 p.1 i l = found p (i + 1) l := by
    simp only [hcoef, dif_pos l.2]
  obtain ⟨t', byA, byL, byT, s1, s2, s3, s4, s5, s6, s7, s8⟩ := shown p.2 p.1 hpp i hil l hll _ (hin1 l hll)
  rw [ht, Except.ok.injEq] at s1
  subst s1
  rw [hce, htt] at s6 s7
  rw [hce] at s8
  rw [htt] at s5
  refine ⟨byA, byL, byT, i, s2, s3, ?_, s5, s6, s7, s8⟩
  intro h0 hh0
  obtain ⟨t', byA', byL', byT', r1, r2, r3, r4, _⟩ := shown p.2 p.1 hpp i hil l hll h0 (by rw [hlay]; exact hh0)
  rw [hlay] at r4
  rw [ht, Except.ok.injEq] at r1
  subst r1
  rw [s3, Except.ok.injEq] at r3
  subst r3
  exact r4

/-- The column of five LEDs in two photos and two channels: what is shown five seconds after the start has the optical depths of the smoke up to 1/2. -/
theorem column_shown : ∃ (job : BatchJob ℝ) (t : ExtTable ℝ), job.times = [0, 5] ∧ (job.run [(0, 0), (0, 1)] []).2 = none ∧
    allExtcos ((job.run [(0, 0), (0, 1)] []).1.map fun f => ("dir".toList ++ '/' :: f.1, f.2)) = .ok t ∧
    ∀ ch ∈ [0, 1], ∃ (x : Fin 3 → ℝ) (pos : ℕ → P3), (∀ l : Fin 3, Shows t (-1) 5 3 ch 0 5 l (x l)) ∧ (∀ l, 0 ≤ x l) ∧
      (∀ s : ℕ, s ≤ 4 → euclid (0, 0, 4 - (s : ℝ)) (pos s) ≤ 2 / 10 ^ 6) ∧
      ∀ s : ℕ, s ≤ 4 → |double.depthThrough (5, 0, 2) (pos s) (-1) 5 x - lineDepth (5, 0, 2) (0, 0, 4 - (s : ℝ)) (-1) 5 (columnSmoke 2)| ≤ 1 / 2 := by
  have hone : ∀ (k : ℕ) (c : List ℕ), ([[0, 1, 2, 3, 4]] : List (List ℕ))[k]? = some c → k = 0 ∧ c = [0, 1, 2, 3, 4] := by
    intro k c hk
    obtain ⟨h1, h2⟩ := List.getElem?_eq_some_iff.1 hk
    have h0 : k = 0 := by simpa using h1
    subst h0
    exact ⟨rfl, h2.symm⟩
  have hmem : ∀ s ∈ ([[0, 1, 2, 3, 4]] : List (List ℕ)).flatten, s ≤ 4 := by decide
  obtain ⟨rows, ids, c1, c2, c3⟩ := C142_end_to_end_partial firstMaxLoc isMaxLoc_firstMaxLoc (roundedMetric double) columnJob (fun p => p.1 / 3) {0, 1, 2, 3, 4}
    columnPeak column_bench [[0, 1, 2, 3, 4]] column_arrays (by decide) column_corner id column_numbered (columnOptions "None") (by decide +kernel) rfl rfl [] _
    (Or.inl rfl) (fun _ => ⟨0, 1, 0⟩) [((0, 0, 4), (0, 0, 0))] (by simp) stripInfos strip_infos (by decide) (fun _ => stripDir) (fun _ => rfl) (fun _ => rfl)
    "exp".toList (by decide +kernel) 1 (fun _ => columnPhoto) (fun _ => column_photographed) _ (fun _ i _ _ => rfl) double columnAnalysis
    (fun x => (0, 0, 4 - (x : ℝ))) 0 (1 / 10 ^ 9) _
    (by
      intro k c T B hk hTB
      obtain ⟨rfl, rfl⟩ := hone k c hk
      simp only [List.getElem?_cons_zero, Option.some.injEq, Prod.mk.injEq] at hTB
      obtain ⟨rfl, rfl⟩ := hTB
      exact column_bench_surveyed)
    le_rfl (by norm_num) (by unfold columnAnalysis; norm_num) rfl
    (by
      intro x hx
      have h4 := hmem x hx
      have hx' : (x : ℝ) ≤ 4 := by exact_mod_cast h4
      have h0 : (0 : ℝ) ≤ x := by positivity
      have := (column_distance x h4).1
      refine ⟨⟨?_, ?_⟩, ?_⟩
      · show (-1 : ℝ) + _ ≤ 4 - (x : ℝ)
        norm_num
        linarith
      · show 4 - (x : ℝ) + _ < 5
        norm_num
        linarith
      · show _ < euclid (5, 0, 2) (0, 0, 4 - (x : ℝ))
        norm_num
        linarith)
    roundDouble roundDouble_err
    (by
      intro x hx
      have := column_origin x (hmem x hx)
      show (1 / 2 : ℝ) ^ 53 * _ ≤ _
      norm_num
      linarith)
    (1 / 10) (fun _ _ => 1000) (fun _ => columnSmoke) (1 / 5) (27 / 5) 1 (by norm_num)
    (by
      intro _ c hc
      rw [List.mem_singleton] at hc
      subst hc
      exact column_bench_light) (by norm_num)
    ⟨1, by decide, by unfold columnAnalysis; norm_num, by unfold columnAnalysis; norm_num⟩ (fun _ i _ _ j => columnSmoke_le i j)
    (fun x hx => (column_distance x (hmem x hx)).2) column_fits
    (by
      intro _ i _ _ x hx
      show lineDepth (5, 0, 2) (0, 0, 4 - (x : ℝ)) (-1) 5 (columnSmoke i) + _ + _ ≤ 23
      have := columnSmoke_depth i x (hmem x hx)
      unfold displacementError Machine.borderError double columnAnalysis
      norm_num
      linarith) (1 / 10 ^ 10) (by norm_num)
  obtain ⟨f, f1, f2, f3⟩ := c3 none (fun _ => rfl) (by simp)
  have hex := f2 (by norm_num) 0 (by decide)
  choose r hr using hex
  obtain ⟨g1, t, g2, g3⟩ := f3 ⟨"linear".toList, "sum_col_val".toList, 3, [0, 5], fun _ => false, fun _ ch => r ch⟩ [(0, 0), (0, 1)] rfl (fun _ => rfl)
    (show experimentTimes stripInfos = .ok [0, 5] by decide +kernel) (show ([0, 5] : List ℤ).Nodup by decide) (by decide) (by decide)
    (by
      intro p hp
      have h0 : p.1 = 0 := by
        rcases List.mem_cons.1 hp with rfl | hp
        · rfl
        · rw [List.mem_singleton] at hp
          rw [hp]
      rw [h0]
      exact hr p.2)
    "dir".toList ⟨Or.inl rfl, List.mem_cons_self, by decide +kernel, by decide +kernel⟩ _ (List.Perm.refl _) (-1) 5 (by norm_num [columnAnalysis])
    (by norm_num [columnAnalysis]) (by decide)
  refine ⟨_, t, rfl, g1, g2, ?_⟩
  intro ch hch
  have hp : ((0 : ℕ), ch) ∈ [((0 : ℕ), 0), (0, 1)] := by
    rcases List.mem_cons.1 hch with rfl | hch
    · exact List.mem_cons_self
    · rw [List.mem_singleton] at hch
      rw [hch]
      exact List.mem_cons_of_mem _ List.mem_cons_self
  obtain ⟨x, pos, s1, s2, s3, s4, _⟩ := g3 (0, ch) hp [0, 1, 2, 3, 4] rfl 1 _ 5 rfl (by decide +kernel)
  refine ⟨x, pos, s1, s2, ?_, ?_⟩
  · intro s hs
    exact (s3 s (by simp; omega)).trans (by norm_num)
  · intro s hs
    exact (s4 s (by simp; omega)).trans column_error

end Ledsa
