import Verif.Props.EndToEnd
import Verif.Props.NonlinearRun

/-! From the LED arrays on the bench to the smoke when LEDs are ignored and LED arrays are merged (C151). -/

namespace Ledsa

variable {ι D : Type} [LinearOrder D] [Add D] [Mul D]

/-! ### The LEDs that are measured -/

/-- The LED arrays on the bench without the LEDs whose numbers are in the option for ignored LEDs. -/
def keptArrays (number : ι → ℕ) (ignore : Str) (phys : List (List ι)) : List (List ι) :=
  phys.map fun c => c.filter fun s => (number s : ℤ) ∉ ignoredLeds ignore

/-- The LEDs of the `k`-th array of the analysis: an array of the bench, or those of a merge group one after another. -/
def benchGroup (kept : List (List ι)) (groups : Option (List (List ℤ))) (k : ℕ) : List ι :=
  match groups with
  | none => (kept[k]?).getD []
  | some gs => ((gs[k]?).getD []).flatMap fun (a : ℤ) => if 0 ≤ a then (kept[a.toNat]?).getD [] else []

/-- The number of arrays of the analysis. -/
def groupCount (kept : List (List ι)) (groups : Option (List (List ℤ))) : ℕ :=
  match groups with
  | none => kept.length
  | some gs => gs.length

/-- Merge groups a user can give: not empty, ascending indices of the arrays, and no array in two groups. -/
def GoodGroups (arrays : ℕ) (groups : Option (List (List ℤ))) : Prop :=
  ∀ gs, groups = some gs → gs.flatten.Nodup ∧ ∀ g ∈ gs, g ≠ [] ∧ g.Pairwise (· < ·) ∧ ∀ a ∈ g, 0 ≤ a ∧ a < arrays

theorem keptArrays_flatten (number : ι → ℕ) (ignore : Str) (phys : List (List ι)) :
    (keptArrays number ignore phys).flatten = phys.flatten.filter fun s => (number s : ℤ) ∉ ignoredLeds ignore := by
  unfold keptArrays
  rw [List.filter_flatten]

theorem keptArrays_number (number : ι → ℕ) (ignore : Str) (phys : List (List ι)) :
    (phys.map fun c => (c.map number).filter fun (x : ℕ) => (x : ℤ) ∉ ignoredLeds ignore) =
      (keptArrays number ignore phys).map fun c => c.map number := by
  unfold keptArrays
  rw [List.map_map]
  refine List.map_congr_left fun c _ => ?_
  rw [List.filter_map]
  rfl

theorem wantedLeds_bench [DecidableEq ι] (kept : List (List ι)) (hnd : kept.flatten.Nodup) (number : ι → ℕ) (groups : Option (List (List ℤ))) (k : ℕ) :
    wantedLeds (kept.map fun c => c.map number) groups k = (benchGroup kept groups k).map (benchId kept) := by
  have hb : ∀ a : ℕ, blockOf (kept.map fun c => c.map number) a = ((kept[a]?).getD []).map (benchId kept) := by
    intro a
    cases ha : kept[a]? with
    | none =>
      rw [blockOf_beyond _ _ (by rw [List.length_map]; exact List.getElem?_eq_none_iff.1 ha)]
      rfl
    | some c => exact benchId_block kept hnd number a c ha
  unfold wantedLeds benchGroup
  cases groups with
  | none => exact hb k
  | some gs =>
    simp only [List.map_flatMap]
    congr 1
    funext a
    split
    · exact hb _
    · rfl

theorem blockOf_lt (arrays : List (List ℕ)) (a b x y : ℕ) (hab : a < b) (hx : x ∈ blockOf arrays a) (hy : y ∈ blockOf arrays b) : x < y := by
  rw [mem_blockOf_iff] at hx hy
  have := take_flatten_mono arrays (a + 1) b hab
  omega

theorem wanted_ascending (arrays : List (List ℕ)) (groups : Option (List (List ℤ))) (hg : GoodGroups arrays.length groups) (k : ℕ) :
    (wantedLeds arrays groups k).Pairwise (· < ·) := by
  unfold wantedLeds
  cases groups with
  | none =>
    simp only
    unfold blockOf
    exact List.pairwise_lt_range'
  | some gs =>
    simp only
    cases hk : gs[k]? with
    | none => exact List.Pairwise.nil
    | some g =>
      obtain ⟨_, h2⟩ := hg gs rfl
      obtain ⟨_, h3, _⟩ := h2 g (List.mem_of_getElem? hk)
      rw [Option.getD_some, List.pairwise_flatMap]
      refine ⟨?_, h3.imp ?_⟩
      · intro a _
        split
        · unfold blockOf
          exact List.pairwise_lt_range'
        · exact List.Pairwise.nil
      · intro a b hab x hx y hy
        split at hx
        · split at hy
          · exact blockOf_lt arrays a.toNat b.toNat x y (by omega) hx hy
          · cases hy
        · cases hx

theorem wanted_distinct (arrays : List (List ℕ)) (groups : Option (List (List ℤ))) (hg : GoodGroups arrays.length groups) :
    ((List.range (wantedCount arrays groups)).map (wantedLeds arrays groups)).flatten.Nodup := by
  rw [List.nodup_flatten]
  constructor
  · intro l hl
    obtain ⟨k, _, rfl⟩ := List.mem_map.1 hl
    exact (wanted_ascending arrays groups hg k).imp (fun h => ne_of_lt h)
  · rw [List.pairwise_map]
    refine List.Pairwise.imp_of_mem ?_ (List.pairwise_lt_range (n := wantedCount arrays groups))
    intro a b ha hb hab x hxa hxb
    rw [List.mem_range] at ha hb
    unfold wantedLeds at hxa hxb
    cases groups with
    | none =>
      have := blockOf_disjoint arrays a b x hxa hxb
      omega
    | some gs =>
      simp only at hxa hxb
      obtain ⟨h1, _⟩ := hg gs rfl
      have ha' : a < gs.length := ha
      have hb' : b < gs.length := hb
      rw [List.getElem?_eq_getElem ha', Option.getD_some] at hxa
      rw [List.getElem?_eq_getElem hb', Option.getD_some] at hxb
      obtain ⟨p, hp, hxp⟩ := List.mem_flatMap.1 hxa
      obtain ⟨q, hq, hxq⟩ := List.mem_flatMap.1 hxb
      split at hxp
      · split at hxq
        · have hpq := blockOf_disjoint arrays p.toNat q.toNat x hxp hxq
          have : p = q := by omega
          subst this
          exact (List.pairwise_iff_getElem.1 (List.nodup_flatten.1 h1).2 a b ha' hb' hab) hp hq
        · cases hxq
      · cases hxp

theorem benchGroup_mem (kept : List (List ι)) (groups : Option (List (List ℤ))) (k : ℕ) (s : ι) (hs : s ∈ benchGroup kept groups k) :
    ∃ (a : ℕ) (c : List ι), kept[a]? = some c ∧ s ∈ c := by
  have hget : ∀ a : ℕ, s ∈ (kept[a]?).getD [] → ∃ (a : ℕ) (c : List ι), kept[a]? = some c ∧ s ∈ c := by
    intro a h
    cases ha : kept[a]? with
    | none => rw [ha] at h; cases h
    | some c => rw [ha] at h; exact ⟨a, c, ha, h⟩
  unfold benchGroup at hs
  cases groups with
  | none => exact hget k hs
  | some gs =>
    obtain ⟨a, _, ha⟩ := List.mem_flatMap.1 hs
    split at ha
    · exact hget _ ha
    · cases ha

theorem benchGroup_ne (kept : List (List ι)) (groups : Option (List (List ℤ))) (hg : GoodGroups kept.length groups) (hne : ∀ c ∈ kept, c ≠ [])
    (k : ℕ) (hk : k < groupCount kept groups) : benchGroup kept groups k ≠ [] := by
  unfold benchGroup
  cases groups with
  | none =>
    have hk' : k < kept.length := hk
    simp only [List.getElem?_eq_getElem hk', Option.getD_some]
    exact hne _ (List.getElem_mem hk')
  | some gs =>
    have hk' : k < gs.length := hk
    simp only [List.getElem?_eq_getElem hk', Option.getD_some]
    obtain ⟨h1, _, h3⟩ := (hg gs rfl).2 _ (List.getElem_mem hk')
    obtain ⟨a, ha⟩ := List.exists_mem_of_ne_nil _ h1
    obtain ⟨b1, b2⟩ := h3 a ha
    have hlt : a.toNat < kept.length := by omega
    obtain ⟨s, hs⟩ := List.exists_mem_of_ne_nil _ (hne _ (List.getElem_mem hlt))
    refine List.ne_nil_of_mem (a := s) (List.mem_flatMap.2 ⟨a, ha, ?_⟩)
    rw [if_pos b1, List.getElem?_eq_getElem hlt]
    exact hs

/-! ### C151 -/

/-- The LEDs `c` of an array of the analysis on the bench: they are at `place`, each at most `η` from the point that the measured ends of its own array
on the bench give for it, the ends being the first and the last LED that are not ignored; layers and camera such that the rays are inside the domain. -/
structure SurveyedGroup (a : ArrayAnalysis) (peak : ι → ℕ × ℕ) (kept : List (List ι)) (edges : List (P3 × P3)) (c : List ι) (place : ι → P3)
    (η : ℝ) : Prop where
  layers : 3 ≤ a.layers
  domain : a.lo < a.hi
  camera : a.lo ≤ a.cam.2.2 ∧ a.cam.2.2 ≤ a.hi
  seen : ∀ s ∈ c, ∀ (k : ℕ) (ck : List ι) (T B : P3) (f l : ι), kept[k]? = some ck → edges[k]? = some (T, B) → s ∈ ck → ck.head? = some f →
    ck.getLast? = some l → ∀ q : ℝ,
      IsFraction (realPix (intPix (peak f))) (realPix (intPix (peak l))) (realPix (intPix (peak s))) q → euclid (place s) (lerp3 T B q) ≤ η
  inside : ∀ s ∈ c, a.lo + (η + 1 / 10 ^ 6) ≤ (place s).2.2 ∧ (place s).2.2 + (η + 1 / 10 ^ 6) < a.hi
  apart : ∀ s ∈ c, η + 1 / 10 ^ 6 < euclid a.cam (place s)

/-- The run up to the analysis with ignored LEDs and merged arrays: the positions and the values of the LEDs of array `k` of the analysis as it reads
them. -/
theorem C151_measured [DecidableEq ι] (maxLoc : Image ℚ → ℕ × ℕ) (hmax : IsMaxLoc maxLoc) (m : Metric D) (j : Step1Job) (spot : ℕ × ℕ → ι) (spots : Finset ι)
    (peak : ι → ℕ × ℕ) (hb : BenchPhoto maxLoc j spot spots peak) (phys : List (List ι)) (hp : BenchArrays m spots peak phys)
    (number : ι → ℕ) (hn : NumberedBy (j.table maxLoc) spots peak number) (o : Step2Options)
    (ho : edgeIndices o.edges = phys.map (endNumbers number)) (kept : List (List ι)) (hkept : kept = keptArrays number o.ignore phys)
    (hgr : GoodGroups phys.length o.groups)
    (h4 : 4 ≤ ((List.range (groupCount kept o.groups)).map (benchGroup kept o.groups)).flatten.length)
    (hcorner : ∀ c ∈ kept, ∃ f l, c.head? = some f ∧ c.getLast? = some l ∧ (peak f).1 * (peak l).2 ≠ (peak f).2 * (peak l).1)
    (pre h : List ExtCmd) (hh : h = pre ++ [.step1 j, .step2 o] ∨ h = pre ++ [.steps12 j o])
    (fit : List P3 → Plane) (edges : List (P3 × P3)) (he : phys.length ≤ edges.length)
    (w : HdfWorld) (ch n : ℕ) (hcount : w.count w.cwd = .ok (n : ℤ)) (hn0 : 0 < n) (hw : w.cache = none)
    (infos : List InfoRow) (hi : GoodInfos infos) (hlen : n ≤ infos.length) (root : Str) (hroot : '\n' ∉ root)
    (R : ℕ) (img : ℕ → Image ℚ) (hph : ∀ i, PhotographedBench peak kept R (img i)) (files : ℕ → Option Str)
    (hf : ∀ i, 1 ≤ i → i ≤ n → files i =
      (step3File ⟨phys.length, o.groups⟩ (infoFile infos) root ch R 0 (img i) none (natStr i) (runHistory maxLoc m .empty h)).toOption)
    (k : ℕ) (hk : k < groupCount kept o.groups) (c : List ι) (hc : c = benchGroup kept o.groups k) :
    (c.map (benchId kept)).Pairwise (· < ·) ∧ c ≠ [] ∧ (∀ s ∈ c, s ∈ kept.flatten) ∧
    ∃ rows, calculateCoordinates fit phys.length edges (runHistory maxLoc m .empty h) = .ok rows ∧
      loadIndexFile ((runHistory maxLoc m .empty h).index (indexFileName k (indexSuffix o.groups))) =
        .ok ((c.map (benchId kept)).reverse.map (Nat.cast : ℕ → ℤ)) ∧
      (∀ (a0 : ArrayAnalysis) (place : ι → P3) (η : ℝ), SurveyedGroup a0 peak kept edges c place η →
        ∃ pos : ℕ → P3, ∀ s ∈ c, (rows.map (·.pos))[benchId kept s]? = some (pos (benchId kept s)) ∧
          euclid (place s) (pos (benchId kept s)) ≤ η + 1 / 10 ^ 6) ∧
      ∀ (cf : Option (List (ℕ × List ℚ × ℚ × ℚ))), w.coord w.cwd = cf.map asCoord → (∀ c', cf = some c' → List.Forall₂ SameRow rows c') →
      ∃ f u, textFrame w ch files = .ok f ∧ frameData f "sum_col_val" k = .ok (tableOf (firstImgs n) (c.map (benchId kept)) u) ∧
      ∀ i, 1 ≤ i → i ≤ n → ∀ s ∈ c, Within (1 / 19999) (u i (benchId kept s)) (lightAround (img i) (peak s) R) := by
  have hklen : kept.length = phys.length := by rw [hkept]; unfold keptArrays; rw [List.length_map]
  have hsub : ∀ s ∈ kept.flatten, s ∈ phys.flatten ∧ (number s : ℤ) ∉ ignoredLeds o.ignore := by
    intro s hs
    rw [hkept, keptArrays_flatten] at hs
    have := List.mem_filter.1 hs
    exact ⟨this.1, by simpa using this.2⟩
  have hnd : kept.flatten.Nodup := by
    rw [hkept, keptArrays_flatten]
    exact hp.nodup.filter _
  have hne : ∀ c ∈ kept, c ≠ [] := by
    rintro c hc rfl
    obtain ⟨f, l, h1, _⟩ := hcorner _ hc
    cases h1
  have hcm : ∀ k c, kept[k]? = some c → ∀ s ∈ c, s ∈ kept.flatten := fun k c hk s hs => List.mem_flatten.2 ⟨c, List.mem_of_getElem? hk, hs⟩
  have hcmk : ∀ s ∈ c, s ∈ kept.flatten := by
    intro s hs
    rw [hc] at hs
    obtain ⟨a, ca, h1, h2⟩ := benchGroup_mem kept o.groups k s hs
    exact hcm a ca h1 s h2
  have hcne : c ≠ [] := by
    rw [hc]
    exact benchGroup_ne kept o.groups (by rw [hklen]; exact hgr) hne k hk
  obtain ⟨s0, hs0⟩ := List.exists_mem_of_ne_nil c hcne
  have hst : Stage.ofHistory maxLoc m h = .matched (j.table maxLoc) (kept.map fun c => c.map number) o.groups := by
    have := C134_bench_partial maxLoc hmax m j spot spots peak hb phys hp number hn o ho ⟨s0, hsub s0 (hcmk s0 hs0)⟩ pre
    rw [keptArrays_number, ← hkept] at this
    rcases hh with rfl | rfl
    · exact this.1
    · exact this.2
  set t := j.table maxLoc with ht
  set arrays := kept.map fun c => c.map number with harr
  have hal : arrays.length = phys.length := by rw [harr, List.length_map, hklen]
  obtain ⟨number', n1, n2, n3, _⟩ := C134_numbered maxLoc hmax j spot spots peak hb
  have hids : (t.map (·.1)).Nodup := by rw [ht, n3]; exact List.nodup_range
  have hrow : ∀ s ∈ kept.flatten, (number s, intPix (peak s)) ∈ t := fun s hs => (hn _).2 ⟨s, hp.visible s (hsub s hs).1, rfl⟩
  have hpix : ∀ s ∈ kept.flatten, ∀ p, (number s, p) ∈ t → p = intPix (peak s) := by
    intro s hs p hpt
    exact (Prod.ext_iff.1 (List.inj_on_of_nodup_map hids hpt (hrow s hs) rfl)).2
  have hwc : wantedCount arrays o.groups = groupCount kept o.groups := by
    unfold wantedCount groupCount
    cases o.groups with
    | none => simp [harr]
    | some gs => rfl
  have hW : ∀ k, wantedLeds arrays o.groups k = (benchGroup kept o.groups k).map (benchId kept) := wantedLeds_bench kept hnd number o.groups
  have hidinj : ∀ s ∈ kept.flatten, ∀ s' ∈ kept.flatten, benchId kept s = benchId kept s' → s = s' := by
    intro s hs s' hs' h
    have h1 := benchId_get kept s hs
    rw [h, benchId_get kept s' hs'] at h1
    exact (Option.some.inj h1).symm
  have hends : EndsMeasured t arrays arrays.length := by
    intro i hi
    rw [harr, List.length_map] at hi
    have hci := List.getElem_mem hi
    obtain ⟨f, l, hf, hl, hdet⟩ := hcorner _ hci
    refine ⟨(kept[i]).map number, number f, number l, intPix (peak f), intPix (peak l), ?_, ?_, ?_, ?_, ?_, ?_⟩
    · rw [harr, List.getElem?_map, List.getElem?_eq_getElem hi]; rfl
    · rw [List.head?_map, hf]; rfl
    · rw [List.getLast?_map, hl]; rfl
    · exact hrow f (List.mem_flatten.2 ⟨_, hci, List.mem_of_mem_head? hf⟩)
    · exact hrow l (List.mem_flatten.2 ⟨_, hci, List.mem_of_getLast? hl⟩)
    · unfold intPix
      intro he
      apply hdet
      simp only at he
      exact_mod_cast he
  have hphot : ∀ i, Photographed t arrays R (img i) := by
    intro i
    refine ⟨(hph i).radius, ?_, (hph i).pixels⟩
    intro old p hold hpt
    rw [harr, ← List.map_flatten] at hold
    obtain ⟨s, hs, rfl⟩ := List.mem_map.1 hold
    rw [hpix s hs p hpt]
    obtain ⟨b1, b2, b3, b4⟩ := (hph i).leds s hs
    unfold intPix
    simp only
    exact ⟨by exact_mod_cast b1, by exact_mod_cast b2, by exact_mod_cast b3, by exact_mod_cast b4⟩
  have hgr' : GoodGroups arrays.length o.groups := by rw [hal]; exact hgr
  have hasc := wanted_ascending arrays o.groups hgr' k
  have hopt : FitOptions arrays o.groups ⟨phys.length, o.groups⟩ := by
    refine ⟨rfl, ?_⟩
    cases hgo : o.groups with
    | none => exact congrArg (Nat.cast : ℕ → ℤ) hal.symm
    | some gs =>
      intro k' hk'
      have := hW k'
      rw [hgo] at this
      rw [this]
      intro hc'
      rw [List.map_eq_nil_iff] at hc'
      refine benchGroup_ne kept (some gs) ?_ hne k' hk' hc'
      rw [hklen, ← hgo]
      exact hgr
  obtain ⟨hnone, rows, g1, g2, g3, g4⟩ := C131_measured maxLoc m h t arrays o.groups hst ⟨phys.length, o.groups⟩
    hopt fit edges (by rw [hal]; exact he) hends (wanted_distinct arrays o.groups hgr')
    (by
      have : (List.range (wantedCount arrays o.groups)).map (wantedLeds arrays o.groups) =
          ((List.range (groupCount kept o.groups)).map (benchGroup kept o.groups)).map fun c => c.map (benchId kept) := by
        rw [hwc, List.map_map]
        exact List.map_congr_left fun k _ => hW k
      rw [this, ← List.map_flatten, List.length_map]
      exact h4)
    w ch n hcount hn0 hw infos hi hlen root hroot R img hphot files hf k (by rw [hwc]; exact hk) hasc
  rw [hal] at g1
  rw [hW k, ← hc] at hasc g2 g3 g4
  refine ⟨hasc, hcne, hcmk, rows, g1, g2, ?_, ?_⟩
  · intro a0 place η hsv
    set truth : ℕ → P3 := benchFun kept place (0, 0, 0) with htruth
    have htr : ∀ s ∈ kept.flatten, truth (benchId kept s) = place s := fun s hs => benchFun_of kept place _ s hs
    have hsv' : SurveyedLeds a0 t arrays edges (c.map (benchId kept)) truth η := by
      refine ⟨hsv.layers, hsv.domain, hsv.camera, ?_, ?_, ?_⟩
      · intro k' ak T' B' fN lN pf pl e1 e2 e3 e4 e5 e6 x hx i old p q hm hpt hq
        obtain ⟨s, hs, rfl⟩ := List.mem_map.1 hx
        obtain ⟨c', s', m1, m2, m3, m4⟩ := benchMember kept hnd number _ k' i old hm
        have hss : s = s' := hidinj s (hcmk s hs) s' (hcm k' c' m1 s' m2) m4
        subst hss
        rw [harr, List.getElem?_map, m1] at e1
        simp only [Option.map_some, Option.some.injEq] at e1
        subst e1
        rw [List.head?_map] at e3
        rw [List.getLast?_map] at e4
        obtain ⟨f', hf', rfl⟩ := Option.map_eq_some_iff.1 e3
        obtain ⟨l', hl', rfl⟩ := Option.map_eq_some_iff.1 e4
        have hf'' := hcm k' c' m1 f' (List.mem_of_mem_head? hf')
        have hl'' := hcm k' c' m1 l' (List.mem_of_getLast? hl')
        rw [hpix f' hf'' pf e5, hpix l' hl'' pl e6] at hq
        rw [m3] at hpt
        rw [hpix s (hcmk s hs) p hpt] at hq
        rw [htr s (hcmk s hs)]
        exact hsv.seen s hs k' c' T' B' f' l' m1 e2 m2 hf' hl' q hq
      · intro x hx
        obtain ⟨s, hs, rfl⟩ := List.mem_map.1 hx
        rw [htr s (hcmk s hs)]
        exact hsv.inside s hs
      · intro x hx
        obtain ⟨s, hs, rfl⟩ := List.mem_map.1 hx
        rw [htr s (hcmk s hs)]
        exact hsv.apart s hs
    obtain ⟨pos, p1⟩ := g3 a0 truth η hsv'
    refine ⟨pos, fun s hs => ?_⟩
    have := p1 _ (List.mem_map_of_mem hs)
    rwa [htr s (hcmk s hs)] at this
  · intro cf hcf hcr
    obtain ⟨f, u, f1, f2, f3⟩ := g4 cf hcf hcr
    refine ⟨f, u, f1, f2, fun i h1 h2 s hs => ?_⟩
    obtain ⟨k', i', old, p, hm, hpt, hw⟩ := f3 i h1 h2 _ (List.mem_map_of_mem hs)
    obtain ⟨c', s', m1, m2, m3, m4⟩ := benchMember kept hnd number _ k' i' old hm
    have hs' := hcm k' c' m1 s' m2
    have hss : s = s' := hidinj s (hcmk s hs) s' hs' m4
    subst hss
    rw [m3] at hpt
    rw [hpix s hs' p hpt] at hw
    exact hw

theorem group_seen [DecidableEq ι] (kept : List (List ι)) (rows : List CoordRow) (c : List ι) (k : ℕ) (pos : ℕ → P3) (place : ι → P3) {a0 : ArrayAnalysis}
    {peak : ι → ℕ × ℕ} {edges : List (P3 × P3)} {η : ℝ} (hasc : (c.map (benchId kept)).Pairwise (· < ·)) (hne : c ≠ [])
    (hsv : SurveyedGroup a0 peak kept edges c place η) (hpos : ∀ s ∈ c, (rows.map (·.pos))[benchId kept s]? = some (pos (benchId kept s)) ∧
      euclid (place s) (pos (benchId kept s)) ≤ η + 1 / 10 ^ 6) :
    SeenArray (a0.withFiles k (c.map (benchId kept)).reverse rows) (c.map (benchId kept)) pos := by
  refine ⟨rfl, hasc, by simpa using hne, ?_, hsv.layers, hsv.domain, ?_⟩
  · intro x hx
    obtain ⟨s, hs, rfl⟩ := List.mem_map.1 hx
    exact (hpos s hs).1
  · intro x hx
    obtain ⟨s, hs, rfl⟩ := List.mem_map.1 hx
    exact ray_displaced hsv.camera (hsv.inside s hs) (hsv.apart s hs) (hpos s hs).2

/-- **C151.** From the bench to the smoke with ignored LEDs and merged arrays: the coefficients found for array `k` of the analysis reproduce the optical
depths of the smoke along the lines of sight to the LEDs of the arrays on the bench merged in it, without the ignored ones. -/
theorem C151_bench_to_smoke [DecidableEq ι] (maxLoc : Image ℚ → ℕ × ℕ) (hmax : IsMaxLoc maxLoc) (m : Metric D) (j : Step1Job) (spot : ℕ × ℕ → ι) (spots : Finset ι)
    (peak : ι → ℕ × ℕ) (hb : BenchPhoto maxLoc j spot spots peak) (phys : List (List ι)) (hp : BenchArrays m spots peak phys)
    (number : ι → ℕ) (hn : NumberedBy (j.table maxLoc) spots peak number) (o : Step2Options)
    (ho : edgeIndices o.edges = phys.map (endNumbers number)) (kept : List (List ι)) (hkept : kept = keptArrays number o.ignore phys)
    (hgr : GoodGroups phys.length o.groups)
    (h4 : 4 ≤ ((List.range (groupCount kept o.groups)).map (benchGroup kept o.groups)).flatten.length)
    (hcorner : ∀ c ∈ kept, ∃ f l, c.head? = some f ∧ c.getLast? = some l ∧ (peak f).1 * (peak l).2 ≠ (peak f).2 * (peak l).1)
    (pre h : List ExtCmd) (hh : h = pre ++ [.step1 j, .step2 o] ∨ h = pre ++ [.steps12 j o])
    (fit : List P3 → Plane) (edges : List (P3 × P3)) (he : phys.length ≤ edges.length)
    (w : HdfWorld) (ch n : ℕ) (hcount : w.count w.cwd = .ok (n : ℤ)) (hn0 : 0 < n) (hw : w.cache = none)
    (infos : List InfoRow) (hi : GoodInfos infos) (hlen : n ≤ infos.length) (root : Str) (hroot : '\n' ∉ root)
    (R : ℕ) (img : ℕ → Image ℚ) (hph : ∀ i, PhotographedBench peak kept R (img i)) (files : ℕ → Option Str)
    (hf : ∀ i, 1 ≤ i → i ≤ n → files i =
      (step3File ⟨phys.length, o.groups⟩ (infoFile infos) root ch R 0 (img i) none (natStr i) (runHistory maxLoc m .empty h)).toOption)
    (k : ℕ) (hk : k < groupCount kept o.groups) (c : List ι) (hc : c = benchGroup kept o.groups k) :
    ∃ rows ids, calculateCoordinates fit phys.length edges (runHistory maxLoc m .empty h) = .ok rows ∧
      loadIndexFile ((runHistory maxLoc m .empty h).index (indexFileName k (indexSuffix o.groups))) = .ok (ids.map (Nat.cast : ℕ → ℤ)) ∧
      ∀ (cf : Option (List (ℕ × List ℚ × ℚ × ℚ))), w.coord w.cwd = cf.map asCoord → (∀ c', cf = some c' → List.Forall₂ SameRow rows c') →
      ∃ f, textFrame w ch files = .ok f ∧
      ∀ (a0 : ArrayAnalysis) (place : ι → P3) (η : ℝ), SurveyedGroup a0 peak kept edges c place η → 0 ≤ η → 0 ≤ a0.lam →
      ∃ pos : ι → P3, (∀ s ∈ c, euclid (place s) (pos s) ≤ η + 1 / 10 ^ 6) ∧
      ∀ (γ : ℝ) (emit : ι → ℝ) (smoke : ℕ → Fin a0.layers → ℝ) (S L δ : ℝ),
        BenchLight a0 c place n (fun i s => lightAround (img i) (peak s) R) γ emit smoke → 0 < δ → CameraClear a0.lo a0.hi a0.layers δ a0.cam.2.2 →
        (∀ i, 1 ≤ i → i ≤ n → ∀ j, smoke i j ≤ S) → (∀ s ∈ c, euclid a0.cam (place s) ≤ L) →
        (∀ i, 1 ≤ i → i ≤ n → ∀ s ∈ c,
          lineDepth a0.cam (place s) a0.lo a0.hi (smoke i) + displacementError S L δ (η + 1 / 10 ^ 6) ≤ 23) →
      ∀ r, (a0.withFiles k ids rows).ResultOf ((a0.withFiles k ids rows).inputOf (frameData f "sum_col_val" k)) r →
        ∃ found : ℕ → Fin a0.layers → ℝ, r = .ok ((firstImgs n).map found) ∧ ∀ i, 1 ≤ i → i ≤ n → (∀ j, 0 ≤ found i j) ∧
          (c.map fun s =>
              (lineDepth a0.cam (pos s) a0.lo a0.hi (found i) - lineDepth a0.cam (pos s) a0.lo a0.hi (smoke i)) ^ 2).sum +
            a0.lam * bending (fun j => found i j - smoke i j) ≤
            c.length * (2 * (γ + displacementError S L δ (η + 1 / 10 ^ 6)) + 2 / 19999) ^ 2 + a0.lam * bending (smoke i) := by
  obtain ⟨hasc, hnone, hcm, rows, g1, g2, g3, g4⟩ := C151_measured maxLoc hmax m j spot spots peak hb phys hp number hn o ho kept hkept hgr h4 hcorner
    pre h hh fit edges he w ch n hcount hn0 hw infos hi hlen root hroot R img hph files hf k hk c hc
  refine ⟨rows, _, g1, g2, ?_⟩
  intro cf hcf hcr
  obtain ⟨f, u, f1, f2, f3⟩ := g4 cf hcf hcr
  refine ⟨f, f1, ?_⟩
  intro a0 place η hsv hη hlam
  obtain ⟨pos, hpos⟩ := g3 a0 place η hsv
  refine ⟨fun s => pos (benchId kept s), fun s hs => (hpos s hs).2, ?_⟩
  intro γ emit smoke S L δ hl hδ hcam hS hL hthin r hr
  have hseen := group_seen kept rows c k pos place (a0 := a0) hasc hnone hsv fun s hs => hpos s hs
  have hnoisy := ((bench_light kept c hcm hl).displaced hsv.domain hδ (by positivity) hcam hS
    (fun x hx => by
      obtain ⟨s, hs, rfl⟩ := List.mem_map.1 hx
      rw [benchFun_of kept _ _ s (hcm s hs)]
      exact hL s hs)
    (pos := pos) (ε := η + 1 / 10 ^ 6) (fun x hx => by
      obtain ⟨s, hs, rfl⟩ := List.mem_map.1 hx
      rw [benchFun_of kept _ _ s (hcm s hs)]
      exact (hpos s hs).2)
    (fun i h1 h2 x hx => by
      obtain ⟨s, hs, rfl⟩ := List.mem_map.1 hx
      rw [benchFun_of kept _ _ s (hcm s hs)]
      exact hthin i h1 h2 s hs)).measured (u := u) (ε := 1 / 19999) (fun i h1 h2 x hx => by
      obtain ⟨s, hs, rfl⟩ := List.mem_map.1 hx
      simp only [benchFun_of kept _ _ s (hcm s hs)]
      exact f3 i h1 h2 s hs)
  have hnoisy' : NoisyLight (a0.withFiles k (c.map (benchId kept)).reverse rows) (c.map (benchId kept)) pos n u _ _ smoke :=
    ⟨hnoisy.emits, hnoisy.light, hnoisy.clear, hnoisy.reference, hnoisy.nonneg, hnoisy.thin⟩
  rw [f2] at hr
  obtain ⟨found, r1, r2⟩ := noisy_result (a0.withFiles k _ rows) _ pos hseen hlam n u _ _ smoke hnoisy' r hr
  refine ⟨found, r1, fun i h1 h2 => ?_⟩
  obtain ⟨q1, q2⟩ := r2 i h1 h2
  rw [List.map_map, List.length_map] at q2
  refine ⟨q1, ?_⟩
  have e : 2 * (γ + displacementError S L δ (η + 1 / 10 ^ 6) + 1 / 19999) =
      2 * (γ + displacementError S L δ (η + 1 / 10 ^ 6)) + 2 / 19999 := by ring
  rw [e] at q2
  exact q2

/-- **C151**, the same with the analysis in floating point. -/
theorem C151_rounded [DecidableEq ι] (maxLoc : Image ℚ → ℕ × ℕ) (hmax : IsMaxLoc maxLoc) (m : Metric D) (j : Step1Job) (spot : ℕ × ℕ → ι) (spots : Finset ι)
    (peak : ι → ℕ × ℕ) (hb : BenchPhoto maxLoc j spot spots peak) (phys : List (List ι)) (hp : BenchArrays m spots peak phys)
    (number : ι → ℕ) (hn : NumberedBy (j.table maxLoc) spots peak number) (o : Step2Options)
    (ho : edgeIndices o.edges = phys.map (endNumbers number)) (kept : List (List ι)) (hkept : kept = keptArrays number o.ignore phys)
    (hgr : GoodGroups phys.length o.groups)
    (h4 : 4 ≤ ((List.range (groupCount kept o.groups)).map (benchGroup kept o.groups)).flatten.length)
    (hcorner : ∀ c ∈ kept, ∃ f l, c.head? = some f ∧ c.getLast? = some l ∧ (peak f).1 * (peak l).2 ≠ (peak f).2 * (peak l).1)
    (pre h : List ExtCmd) (hh : h = pre ++ [.step1 j, .step2 o] ∨ h = pre ++ [.steps12 j o])
    (fit : List P3 → Plane) (edges : List (P3 × P3)) (he : phys.length ≤ edges.length)
    (w : HdfWorld) (ch n : ℕ) (hcount : w.count w.cwd = .ok (n : ℤ)) (hn0 : 0 < n) (hw : w.cache = none)
    (infos : List InfoRow) (hi : GoodInfos infos) (hlen : n ≤ infos.length) (root : Str) (hroot : '\n' ∉ root)
    (R : ℕ) (img : ℕ → Image ℚ) (hph : ∀ i, PhotographedBench peak kept R (img i)) (files : ℕ → Option Str)
    (hf : ∀ i, 1 ≤ i → i ≤ n → files i =
      (step3File ⟨phys.length, o.groups⟩ (infoFile infos) root ch R 0 (img i) none (natStr i) (runHistory maxLoc m .empty h)).toOption)
    (k : ℕ) (hk : k < groupCount kept o.groups) (c : List ι) (hc : c = benchGroup kept o.groups k) (M : Machine) :
    ∃ rows ids, calculateCoordinates fit phys.length edges (runHistory maxLoc m .empty h) = .ok rows ∧
      loadIndexFile ((runHistory maxLoc m .empty h).index (indexFileName k (indexSuffix o.groups))) = .ok (ids.map (Nat.cast : ℕ → ℤ)) ∧
      ∀ (cf : Option (List (ℕ × List ℚ × ℚ × ℚ))), w.coord w.cwd = cf.map asCoord → (∀ c', cf = some c' → List.Forall₂ SameRow rows c') →
      ∃ f, textFrame w ch files = .ok f ∧
      ∀ (a0 : ArrayAnalysis) (place : ι → P3) (η ρ E : ℝ), SurveyedGroup a0 peak kept edges c place η → 0 ≤ η → 0 ≤ ρ → 0 ≤ a0.lam → E = η + 1 / 10 ^ 6 + ρ →
        (∀ s ∈ c, (a0.lo + E ≤ (place s).2.2 ∧ (place s).2.2 + E < a0.hi) ∧ E < euclid a0.cam (place s)) →
      ∀ (read : ℝ → ℝ), (∀ x, |read x - x| ≤ M.w * |x|) → (∀ s ∈ c, M.w * (euclid (0, 0, 0) (place s) + (η + 1 / 10 ^ 6)) ≤ ρ) →
      ∃ pos : ι → P3, (∀ s ∈ c, euclid (place s) (pos s) ≤ E) ∧
      ∀ (γ : ℝ) (emit : ι → ℝ) (smoke : ℕ → Fin a0.layers → ℝ) (S L δ : ℝ), 0 ≤ γ →
        BenchLight a0 c place n (fun i s => lightAround (img i) (peak s) R) γ emit smoke → 0 < δ → CameraClear a0.lo a0.hi a0.layers δ a0.cam.2.2 →
        (∀ i, 1 ≤ i → i ≤ n → ∀ j, smoke i j ≤ S) → (∀ s ∈ c, euclid a0.cam (place s) ≤ L) → M.Fits a0 n (L + E) δ →
        (∀ i, 1 ≤ i → i ≤ n → ∀ s ∈ c, lineDepth a0.cam (place s) a0.lo a0.hi (smoke i) +
          2 * displacementError S L δ E + M.borderError a0.layers a0.lo a0.hi S (L + E) δ ≤ 23) →
      ∀ ε, 0 ≤ ε →
        (0 < ε → ∃ r, M.ArrayResult ((a0.withFiles k ids rows).readBy read) ε (readData read (frameData f "sum_col_val" k)) r) ∧
      ∀ r, M.ArrayResult ((a0.withFiles k ids rows).readBy read) ε (readData read (frameData f "sum_col_val" k)) r →
        ∃ found : ℕ → Fin a0.layers → ℝ, r = .ok ((firstImgs n).map found) ∧ ∀ i, 1 ≤ i → i ≤ n → (∀ j, 0 ≤ found i j) ∧
          (∀ s ∈ c, |M.depthThrough a0.cam (pos s) a0.lo a0.hi (found i) - lineDepth a0.cam (place s) a0.lo a0.hi (smoke i)| ≤
            104 / 100 * M.imageErr c.length (γ + displacementError S L δ E + 1 / 19999 + 2 * M.w + M.borderError a0.layers a0.lo a0.hi S (L + E) δ)
              a0.lam ε (smoke i) + 1260 * M.u + 460 * M.w + M.borderError a0.layers a0.lo a0.hi S (L + E) δ + displacementError S L δ E) ∧
          a0.lam * bending (fun j => found i j - smoke i j) ≤
            101 / 100 * M.imageErr c.length (γ + displacementError S L δ E + 1 / 19999 + 2 * M.w + M.borderError a0.layers a0.lo a0.hi S (L + E) δ)
              a0.lam ε (smoke i) ^ 2 := by
  obtain ⟨hasc, hnone, hcm, rows, g1, g2, g3, g4⟩ := C151_measured maxLoc hmax m j spot spots peak hb phys hp number hn o ho kept hkept hgr h4 hcorner
    pre h hh fit edges he w ch n hcount hn0 hw infos hi hlen root hroot R img hph files hf k hk c hc
  refine ⟨rows, _, g1, g2, ?_⟩
  intro cf hcf hcr
  obtain ⟨f, u, f1, f2, f3⟩ := g4 cf hcf hcr
  refine ⟨f, f1, ?_⟩
  intro a0 place η ρ E hsv hη hρ hlam hE hin read hread hfar
  have hw0 := M.w_nonneg
  have hw1 := M.w_small
  obtain ⟨pos, hpos⟩ := g3 a0 place η hsv
  have hE0 : 0 ≤ E := by rw [hE]; positivity
  have hnear : ∀ s ∈ c, euclid (place s) (readPos read (pos (benchId kept s))) ≤ E := by
    intro s hs
    have h1 := (hpos s hs).2
    have h2 := M.read_position hread (pos (benchId kept s))
    have h3 := euclid_triangle (place s) (pos (benchId kept s)) (readPos read (pos (benchId kept s)))
    have h4 := euclid_triangle (0, 0, 0) (place s) (pos (benchId kept s))
    have h5 := mul_le_mul_of_nonneg_left (h4.trans (add_le_add le_rfl h1)) hw0
    have := hfar s hs
    rw [hE]
    linarith
  refine ⟨fun s => readPos read (pos (benchId kept s)), hnear, ?_⟩
  intro γ emit smoke S L δ hγ hl hδ hcam hS hL hfit hthin ε hε
  set rpos : ℕ → P3 := fun x => readPos read (pos x) with hrpos
  have hLr : ∀ x ∈ c.map (benchId kept), euclid a0.cam (rpos x) ≤ L + E := by
    intro x hx
    obtain ⟨s, hs, rfl⟩ := List.mem_map.1 hx
    exact (euclid_triangle a0.cam (place s) _).trans (add_le_add (hL s hs) (hnear s hs))
  set a := (a0.withFiles k (c.map (benchId kept)).reverse rows).readBy read with ha
  have hseen : SeenArray a (c.map (benchId kept)) rpos := by
    refine ⟨rfl, hasc, by simpa using hnone, ?_, hsv.layers, hsv.domain, ?_⟩
    · intro x hx
      obtain ⟨s, hs, rfl⟩ := List.mem_map.1 hx
      show ((rows.map (·.pos)).map (readPos read))[benchId kept s]? = _
      rw [List.getElem?_map, (hpos s hs).1]
      rfl
    · intro x hx
      obtain ⟨s, hs, rfl⟩ := List.mem_map.1 hx
      exact ray_displaced hsv.camera (hin s hs).1 (hin s hs).2 (hnear s hs)
  have hfita : M.Fits a n (L + E) δ := ⟨hfit.lo, hfit.hi, hfit.images, hfit.layers, hfit.far, hfit.borders⟩
  obtain ⟨i0, hi1, hi2, hi3⟩ := hl.reference
  rw [f2, readData_tableOf]
  constructor
  · intro hε0
    exact M.C137_exists a _ rpos hseen n _ (L + E) δ hLr hfita hn0
      (List.ne_nil_of_mem (List.mem_filter.2 ⟨(mem_firstImgs n i0).2 ⟨hi1, hi2⟩, hi3⟩)) ε hε0
  intro r hr
  obtain ⟨s0, hs0⟩ := List.exists_mem_of_ne_nil c hnone
  have h3 := hsv.layers
  have hS0 : 0 ≤ S := (hl.nonneg i0 hi1 hi2 ⟨0, by omega⟩).trans (hS i0 hi1 hi2 ⟨0, by omega⟩)
  have hL0 : 0 ≤ L := (euclid_nonneg _ _).trans (hL s0 hs0)
  have hdis0 : 0 ≤ displacementError S L δ E := by unfold displacementError; positivity
  have hB0 : 0 ≤ M.borderError a0.layers a0.lo a0.hi S (L + E) δ := by
    have := M.u_nonneg
    unfold Machine.borderError
    positivity
  have hdepth : ∀ i, 1 ≤ i → i ≤ n → ∀ s ∈ c, |lineDepth a0.cam (place s) a0.lo a0.hi (smoke i) -
      lineDepth a0.cam (rpos (benchId kept s)) a0.lo a0.hi (smoke i)| ≤ displacementError S L δ E := by
    intro i h1 h2 s hs
    refine (C129_depth a0.cam (place s) (rpos (benchId kept s)) a0.lo a0.hi hsv.domain (smoke i) S (fun k => ⟨hl.nonneg i h1 h2 k, hS i h1 h2 k⟩) δ hδ
      hcam).trans ?_
    unfold displacementError
    have h0 : 0 ≤ euclid a0.cam (place s) := euclid_nonneg _ _
    apply mul_le_mul
    · exact mul_le_mul_of_nonneg_left (hnear s hs) hS0
    · have := div_le_div_of_nonneg_right (hL s hs) hδ.le
      linarith
    · have := div_nonneg h0 hδ.le
      linarith
    · exact mul_nonneg hS0 hE0
  have hnoisy := ((bench_light kept c hcm hl).displaced hsv.domain hδ hE0 hcam hS
    (fun x hx => by
      obtain ⟨s, hs, rfl⟩ := List.mem_map.1 hx
      rw [benchFun_of kept _ _ s (hcm s hs)]
      exact hL s hs)
    (pos := rpos) (ε := E) (fun x hx => by
      obtain ⟨s, hs, rfl⟩ := List.mem_map.1 hx
      rw [benchFun_of kept _ _ s (hcm s hs)]
      exact hnear s hs)
    (fun i h1 h2 x hx => by
      obtain ⟨s, hs, rfl⟩ := List.mem_map.1 hx
      rw [benchFun_of kept _ _ s (hcm s hs)]
      have := hthin i h1 h2 s hs
      linarith)).measured (u := u) (ε := 1 / 19999) (fun i h1 h2 x hx => by
      obtain ⟨s, hs, rfl⟩ := List.mem_map.1 hx
      simp only [benchFun_of kept _ _ s (hcm s hs)]
      exact f3 i h1 h2 s hs)
  have hnoisy2 := hnoisy.measured (u := fun i l => read (u i l)) (ε := 2 * M.w) (fun i h1 h2 x hx => by
    have hp := (hnoisy.light i h1 h2 x hx).pos (mul_pos (hnoisy.emits x hx) (Real.exp_pos _))
    have := hread (u i x)
    rw [abs_of_pos hp] at this
    exact within_of_err hw0 (by linarith) hp.le this)
  have hnoisy' : NoisyLight a (c.map (benchId kept)) rpos n (fun i l => read (u i l)) _ _ smoke :=
    ⟨hnoisy2.emits, hnoisy2.light, hnoisy2.clear, hnoisy2.reference, hnoisy2.nonneg, hnoisy2.thin⟩
  obtain ⟨found, r1, r2⟩ := M.C137_array a _ rpos hseen hlam n _ (γ + displacementError S L δ E + 1 / 19999 + 2 * M.w) (by positivity) _ smoke hnoisy'
    S (L + E) δ hS hLr hδ hcam hfita (by
      intro i h1 h2 x hx
      obtain ⟨s, hs, rfl⟩ := List.mem_map.1 hx
      have t1 := hthin i h1 h2 s hs
      have t2 := abs_le.1 (hdepth i h1 h2 s hs)
      show lineDepth a0.cam (rpos (benchId kept s)) a0.lo a0.hi (smoke i) + M.borderError a0.layers a0.lo a0.hi S (L + E) δ ≤ 23
      linarith [t2.1]) ε hε r hr
  refine ⟨found, r1, fun i h1 h2 => ?_⟩
  obtain ⟨q1, q2, q3⟩ := r2 i h1 h2
  rw [List.length_map] at q2 q3
  refine ⟨q1, fun s hs => ?_, q3⟩
  have t1 := q2 _ (List.mem_map_of_mem hs)
  have t2 := hdepth i h1 h2 s hs
  have t1' : |M.depthThrough a0.cam (rpos (benchId kept s)) a0.lo a0.hi (found i) - lineDepth a0.cam (rpos (benchId kept s)) a0.lo a0.hi (smoke i)| ≤
      104 / 100 * M.imageErr c.length (γ + displacementError S L δ E + 1 / 19999 + 2 * M.w + M.borderError a0.layers a0.lo a0.hi S (L + E) δ)
              a0.lam ε (smoke i) + 1260 * M.u + 460 * M.w + M.borderError a0.layers a0.lo a0.hi S (L + E) δ := t1
  rw [abs_sub_comm] at t2
  exact (abs_sub_le _ (lineDepth a0.cam (rpos (benchId kept s)) a0.lo a0.hi (smoke i)) _).trans (add_le_add t1' t2)

/-- **C151**, the same with the nonlinear solver. -/
theorem C151_nonlinear [DecidableEq ι] (maxLoc : Image ℚ → ℕ × ℕ) (hmax : IsMaxLoc maxLoc) (m : Metric D) (j : Step1Job) (spot : ℕ × ℕ → ι) (spots : Finset ι)
    (peak : ι → ℕ × ℕ) (hb : BenchPhoto maxLoc j spot spots peak) (phys : List (List ι)) (hp : BenchArrays m spots peak phys)
    (number : ι → ℕ) (hn : NumberedBy (j.table maxLoc) spots peak number) (o : Step2Options)
    (ho : edgeIndices o.edges = phys.map (endNumbers number)) (kept : List (List ι)) (hkept : kept = keptArrays number o.ignore phys)
    (hgr : GoodGroups phys.length o.groups)
    (h4 : 4 ≤ ((List.range (groupCount kept o.groups)).map (benchGroup kept o.groups)).flatten.length)
    (hcorner : ∀ c ∈ kept, ∃ f l, c.head? = some f ∧ c.getLast? = some l ∧ (peak f).1 * (peak l).2 ≠ (peak f).2 * (peak l).1)
    (pre h : List ExtCmd) (hh : h = pre ++ [.step1 j, .step2 o] ∨ h = pre ++ [.steps12 j o])
    (fit : List P3 → Plane) (edges : List (P3 × P3)) (he : phys.length ≤ edges.length)
    (w : HdfWorld) (ch n : ℕ) (hcount : w.count w.cwd = .ok (n : ℤ)) (hn0 : 0 < n) (hw : w.cache = none)
    (infos : List InfoRow) (hi : GoodInfos infos) (hlen : n ≤ infos.length) (root : Str) (hroot : '\n' ∉ root)
    (R : ℕ) (img : ℕ → Image ℚ) (hph : ∀ i, PhotographedBench peak kept R (img i)) (files : ℕ → Option Str)
    (hf : ∀ i, 1 ≤ i → i ≤ n → files i =
      (step3File ⟨phys.length, o.groups⟩ (infoFile infos) root ch R 0 (img i) none (natStr i) (runHistory maxLoc m .empty h)).toOption)
    (k : ℕ) (hk : k < groupCount kept o.groups) (c : List ι) (hc : c = benchGroup kept o.groups k) :
    ∃ rows ids, calculateCoordinates fit phys.length edges (runHistory maxLoc m .empty h) = .ok rows ∧
      loadIndexFile ((runHistory maxLoc m .empty h).index (indexFileName k (indexSuffix o.groups))) = .ok (ids.map (Nat.cast : ℕ → ℤ)) ∧
      ∀ (cf : Option (List (ℕ × List ℚ × ℚ × ℚ))), w.coord w.cwd = cf.map asCoord → (∀ c', cf = some c' → List.Forall₂ SameRow rows c') →
      ∃ f, textFrame w ch files = .ok f ∧
      ∀ (a0 : ArrayAnalysis) (place : ι → P3) (η : ℝ), SurveyedGroup a0 peak kept edges c place η → 0 ≤ η →
      ∀ (o' : NonlinearOptions) (γ : ℝ) (emit : ι → ℝ) (smoke : ℕ → Fin a0.layers → ℝ) (S L δ s cc : ℝ),
        0 < o'.curv → 0 < s → CurveConditioned c a0.cam place a0.lo a0.hi a0.layers o'.curv s cc → 4 * |o'.pref| ≤ cc * a0.layers →
        0 ≤ L → 2 * s * ((η + 1 / 10 ^ 6) * (1 + L / δ)) ≤ cc * Real.sqrt c.length →
        BenchLight a0 c place n (fun i s => lightAround (img i) (peak s) R) γ emit smoke → 0 < δ → CameraClear a0.lo a0.hi a0.layers δ a0.cam.2.2 →
        (∀ i, 1 ≤ i → i ≤ n → ∀ j, smoke i j ≤ S) → S ≤ 10 → (∀ x ∈ c, euclid a0.cam (place x) ≤ L) →
        (∀ i, 1 ≤ i → i ≤ n → ∀ x ∈ c, lineDepth a0.cam (place x) a0.lo a0.hi (smoke i) + displacementError S L δ (η + 1 / 10 ^ 6) ≤ 23 ∧
          2 * s ≤ Real.exp (-(lineDepth a0.cam (place x) a0.lo a0.hi (smoke i) + displacementError S L δ (η + 1 / 10 ^ 6)))) →
        (∀ i, 1 ≤ i → i ≤ n → Faint c.length o' s (γ + displacementError S L δ (η + 1 / 10 ^ 6) + 1 / 19999) (smoke i)) →
      ∀ r, (a0.withFiles k ids rows).NonlinearResultOf o' ((a0.withFiles k ids rows).inputOf (frameData f "sum_col_val" k)) r →
        ∃ found : ℕ → Fin a0.layers → ℝ, r = .ok ((firstImgs n).map found) ∧ ∀ i, 1 ≤ i → i ≤ n → (∀ j, 0 ≤ found i j ∧ found i j ≤ 10) ∧
          ∑ j, |found i j - smoke i j| ≤
            8 / cc * ((Real.exp (2 * (γ + displacementError S L δ (η + 1 / 10 ^ 6) + 1 / 19999)) - 1) / Real.sqrt c.length +
              curvature c.length o'.curv (smoke i)) + 4 / cc * o'.tol := by
  obtain ⟨hasc, hnone, hcm, rows, g1, g2, g3, g4⟩ := C151_measured maxLoc hmax m j spot spots peak hb phys hp number hn o ho kept hkept hgr h4 hcorner
    pre h hh fit edges he w ch n hcount hn0 hw infos hi hlen root hroot R img hph files hf k hk c hc
  refine ⟨rows, _, g1, g2, ?_⟩
  intro cf hcf hcr
  obtain ⟨f, u, f1, f2, f3⟩ := g4 cf hcf hcr
  refine ⟨f, f1, ?_⟩
  intro a0 place η hsv hη o' γ emit smoke S L δ s cc hw0 hs0 hcon hpref hL0 hprec hl hδ hcam hS hS10 hL hthin hfaint r hr
  obtain ⟨pos, hpos⟩ := g3 a0 place η hsv
  have hcne : c ≠ [] := by
    rintro rfl
    exact hnone rfl
  have hseen := group_seen kept rows c k pos place (a0 := a0) hasc hnone hsv fun s hs => hpos s hs
  have hnoisy := ((bench_light kept c hcm hl).displaced hsv.domain hδ (by positivity) hcam hS
    (fun x hx => by
      obtain ⟨s, hs, rfl⟩ := List.mem_map.1 hx
      rw [benchFun_of kept _ _ s (hcm s hs)]
      exact hL s hs)
    (pos := pos) (ε := η + 1 / 10 ^ 6) (fun x hx => by
      obtain ⟨s, hs, rfl⟩ := List.mem_map.1 hx
      rw [benchFun_of kept _ _ s (hcm s hs)]
      exact (hpos s hs).2)
    (fun i h1 h2 x hx => by
      obtain ⟨s, hs, rfl⟩ := List.mem_map.1 hx
      rw [benchFun_of kept _ _ s (hcm s hs)]
      exact (hthin i h1 h2 s hs).1)).measured (u := u) (ε := 1 / 19999) (fun i h1 h2 x hx => by
      obtain ⟨s, hs, rfl⟩ := List.mem_map.1 hx
      simp only [benchFun_of kept _ _ s (hcm s hs)]
      exact f3 i h1 h2 s hs)
  have hnoisy' : NoisyLight (a0.withFiles k (c.map (benchId kept)).reverse rows) (c.map (benchId kept)) pos n u _ _ smoke :=
    ⟨hnoisy.emits, hnoisy.light, hnoisy.clear, hnoisy.reference, hnoisy.nonneg, hnoisy.thin⟩
  rw [f2] at hr
  have hnear0 := hcon.nearby hcne hsv.domain hs0 hδ hcam hL0 hL (by positivity) hprec (pos := fun s => pos (benchId kept s)) fun s hs => (hpos s hs).2
  have hnear : CurveConditioned (c.map (benchId kept)) a0.cam pos a0.lo a0.hi a0.layers o'.curv s (cc / 2) := by
    refine ⟨hnear0.1, fun x => ?_⟩
    have := hnear0.2 x
    unfold depthsLength at this ⊢
    rw [List.map_map, List.length_map]
    exact this
  have := C146_array (a0.withFiles k (c.map (benchId kept)).reverse rows) o' _ pos hseen hw0 s (cc / 2) hs0 hnear
    (by show 2 * |o'.pref| ≤ cc / 2 * a0.layers; linarith) n u _ _ smoke hnoisy' (fun i h1 h2 k => (hS i h1 h2 k).trans hS10)
    (fun i h1 h2 x hx => by
      obtain ⟨b, hb', rfl⟩ := List.mem_map.1 hx
      exact (hthin i h1 h2 b hb').2.trans (Real.exp_le_exp.2 (neg_le_neg
        (displaced_depth hsv.domain hδ hcam (smoke i) (hl.nonneg i h1 h2) (hS i h1 h2) (hL b hb') (hpos b hb').2))))
    (by rw [List.length_map]; exact hfaint) r hr
  obtain ⟨found, r1, r2⟩ := this
  refine ⟨found, r1, fun i h1 h2 => ⟨(r2 i h1 h2).1, (r2 i h1 h2).2.trans (le_of_eq ?_)⟩⟩
  rw [List.length_map, show 4 / (cc / 2) = 8 / cc by ring,
    show 2 / (cc / 2) = 4 / cc by ring]
  rfl

/-- **C151**, from the bench to the numbers shown: as C142, with ignored LEDs and merged arrays. -/
theorem C151_end_to_end_partial [DecidableEq ι] (maxLoc : Image ℚ → ℕ × ℕ) (hmax : IsMaxLoc maxLoc) (m : Metric D) (j : Step1Job) (spot : ℕ × ℕ → ι)
    (spots : Finset ι) (peak : ι → ℕ × ℕ) (hb : BenchPhoto maxLoc j spot spots peak) (phys : List (List ι)) (hp : BenchArrays m spots peak phys)
    (number : ι → ℕ) (hn : NumberedBy (j.table maxLoc) spots peak number) (o : Step2Options)
    (ho : edgeIndices o.edges = phys.map (endNumbers number)) (kept : List (List ι)) (hkept : kept = keptArrays number o.ignore phys)
    (hgr : GoodGroups phys.length o.groups)
    (h4 : 4 ≤ ((List.range (groupCount kept o.groups)).map (benchGroup kept o.groups)).flatten.length)
    (hcorner : ∀ c ∈ kept, ∃ f l, c.head? = some f ∧ c.getLast? = some l ∧ (peak f).1 * (peak l).2 ≠ (peak f).2 * (peak l).1)
    (pre h : List ExtCmd) (hh : h = pre ++ [.step1 j, .step2 o] ∨ h = pre ++ [.steps12 j o])
    (fit : List P3 → Plane) (edges : List (P3 × P3)) (he : phys.length ≤ edges.length)
    (infos : List InfoRow) (hi : GoodInfos infos) (hn0 : infos ≠ [])
    (w : ℕ → HdfWorld) (hcount : ∀ ch, (w ch).count (w ch).cwd = .ok (infos.length : ℤ)) (hw : ∀ ch, (w ch).cache = none)
    (root : Str) (hroot : '\n' ∉ root)
    (R : ℕ) (img : ℕ → ℕ → Image ℚ) (hph : ∀ ch i, PhotographedBench peak kept R (img ch i)) (files : ℕ → ℕ → Option Str)
    (hf : ∀ ch i, 1 ≤ i → i ≤ infos.length → files ch i =
      (step3File ⟨phys.length, o.groups⟩ (infoFile infos) root ch R 0 (img ch i) none (natStr i) (runHistory maxLoc m .empty h)).toOption)
    (M : Machine) (a0 : ArrayAnalysis) (place : ι → P3) (η ρ E : ℝ)
    (hsv : ∀ k < groupCount kept o.groups, SurveyedGroup a0 peak kept edges (benchGroup kept o.groups k) place η)
    (hη : 0 ≤ η) (hρ : 0 ≤ ρ) (hlam : 0 ≤ a0.lam) (hE : E = η + 1 / 10 ^ 6 + ρ)
    (hin : ∀ s ∈ kept.flatten, (a0.lo + E ≤ (place s).2.2 ∧ (place s).2.2 + E < a0.hi) ∧ E < euclid a0.cam (place s))
    (read : ℝ → ℝ) (hread : ∀ x, |read x - x| ≤ M.w * |x|) (hfar : ∀ s ∈ kept.flatten, M.w * (euclid (0, 0, 0) (place s) + (η + 1 / 10 ^ 6)) ≤ ρ)
    (γ : ℝ) (emit : ℕ → ι → ℝ) (smoke : ℕ → ℕ → Fin a0.layers → ℝ) (S L δ : ℝ) (hγ : 0 ≤ γ)
    (hl : ∀ ch, ∀ k < groupCount kept o.groups, BenchLight a0 (benchGroup kept o.groups k) place infos.length (fun i s => lightAround (img ch i) (peak s) R) γ (emit ch) (smoke ch))
    (hδ : 0 < δ) (hcam : CameraClear a0.lo a0.hi a0.layers δ a0.cam.2.2)
    (hS : ∀ ch i, 1 ≤ i → i ≤ infos.length → ∀ j, smoke ch i j ≤ S) (hL : ∀ s ∈ kept.flatten, euclid a0.cam (place s) ≤ L)
    (hfit : M.Fits a0 infos.length (L + E) δ)
    (hthin : ∀ ch i, 1 ≤ i → i ≤ infos.length → ∀ s ∈ kept.flatten, lineDepth a0.cam (place s) a0.lo a0.hi (smoke ch i) +
      2 * displacementError S L δ E + M.borderError a0.layers a0.lo a0.hi S (L + E) δ ≤ 23)
    (ε : ℝ) (hε : 0 ≤ ε) :
    ∃ (rows : List CoordRow) (ids : ℕ → List ℕ), calculateCoordinates fit phys.length edges (runHistory maxLoc m .empty h) = .ok rows ∧
      (∀ k < groupCount kept o.groups, loadIndexFile ((runHistory maxLoc m .empty h).index (indexFileName k (indexSuffix o.groups))) = .ok ((ids k).map (Nat.cast : ℕ → ℤ))) ∧
      ∀ (cf : Option (List (ℕ × List ℚ × ℚ × ℚ))), (∀ ch, (w ch).coord (w ch).cwd = cf.map asCoord) → (∀ c', cf = some c' → List.Forall₂ SameRow rows c') →
      ∃ f : ℕ → DataTable, (∀ ch, textFrame (w ch) ch (files ch) = .ok (f ch)) ∧
      (0 < ε → ∀ k < groupCount kept o.groups, ∀ ch, ∃ r, M.Calculates ((a0.withFiles k (ids k) rows).readBy read) ε (readData read (frameData (f ch) "sum_col_val" k)) r) ∧
      ∀ (job : BatchJob ℝ) (pairs : List (ℕ × ℕ)), job.layers = a0.layers → (∀ x, job.skip x = false) → experimentTimes infos = .ok job.times →
        job.times.Nodup → pairs.Nodup → (∀ p ∈ pairs, p.1 < groupCount kept o.groups) →
        (∀ p ∈ pairs, M.Calculates ((a0.withFiles p.1 (ids p.1) rows).readBy read) ε (readData read (frameData (f p.2) "sum_col_val" p.1))
          (job.analyse p.1 p.2)) →
      ∀ (dir : Str), PlainPath dir job.solver job.property → ∀ globbed, Globbed dir (job.run pairs []).1 globbed →
      ∀ (lo hi : ℚ), (lo : ℝ) = a0.lo → (hi : ℝ) = a0.hi → pairs ≠ [] →
        (job.run pairs []).2 = none ∧
        ∃ t, allExtcos globbed = .ok t ∧ ∀ p ∈ pairs, ∀ c, c = benchGroup kept o.groups p.1 → ∀ (i : ℕ) (row : InfoRow) (time : ℤ), infos[i]? = some row → pyInt row.expTime = .ok time →
          ∃ (x : Fin a0.layers → ℝ) (pos : ι → P3), (∀ l : Fin a0.layers, Shows t lo hi a0.layers p.2 p.1 time l (x l)) ∧ (∀ l, 0 ≤ x l) ∧
            (∀ s ∈ c, euclid (place s) (pos s) ≤ E) ∧
            (∀ s ∈ c, |M.depthThrough a0.cam (pos s) a0.lo a0.hi x - lineDepth a0.cam (place s) a0.lo a0.hi (smoke p.2 (i + 1))| ≤
              104 / 100 * M.imageErr c.length (γ + displacementError S L δ E + 1 / 19999 + 2 * M.w + M.borderError a0.layers a0.lo a0.hi S (L + E) δ)
                a0.lam ε (smoke p.2 (i + 1)) + 1260 * M.u + 460 * M.w + M.borderError a0.layers a0.lo a0.hi S (L + E) δ + displacementError S L δ E) ∧
            a0.lam * bending (fun j => x j - smoke p.2 (i + 1) j) ≤
              101 / 100 * M.imageErr c.length (γ + displacementError S L δ E + 1 / 19999 + 2 * M.w + M.borderError a0.layers a0.lo a0.hi S (L + E) δ)
                a0.lam ε (smoke p.2 (i + 1)) ^ 2 := by
  have hlen : 0 < infos.length := List.length_pos_of_ne_nil hn0
  have main := fun (k : ℕ) (ch : ℕ) (hk : k < groupCount kept o.groups) =>
    C151_rounded maxLoc hmax m j spot spots peak hb phys hp number hn o ho kept hkept hgr h4 hcorner pre h hh fit edges he (w ch) ch infos.length
      (hcount ch) hlen (hw ch) infos hi le_rfl root hroot R (img ch) (hph ch) (files ch) (hf ch) k hk (benchGroup kept o.groups k) rfl M
  have hflat : ∀ (k : ℕ), ∀ s ∈ benchGroup kept o.groups k, s ∈ kept.flatten := by
    intro k s hs
    obtain ⟨a, c, h1, h2⟩ := benchGroup_mem kept o.groups k s hs
    exact List.mem_flatten.2 ⟨c, List.mem_of_getElem? h1, h2⟩
  have hphys : 0 < groupCount kept o.groups := by
    rcases Nat.eq_zero_or_pos (groupCount kept o.groups) with h0 | h0
    · rw [h0] at h4
      simp at h4
    · exact h0
  -- coordinates and index files
  obtain ⟨rows, hrows⟩ : ∃ rows, calculateCoordinates fit phys.length edges (runHistory maxLoc m .empty h) = .ok rows := by
    obtain ⟨rows, _, g1, _⟩ := main 0 0 hphys
    exact ⟨rows, g1⟩
  have hids : ∀ k, ∃ ids : List ℕ, k < groupCount kept o.groups →
      loadIndexFile ((runHistory maxLoc m .empty h).index (indexFileName k (indexSuffix o.groups))) = .ok (ids.map (Nat.cast : ℕ → ℤ)) := by
    intro k
    by_cases hk : k < groupCount kept o.groups
    · obtain ⟨_, ids, _, g2, _⟩ := main k 0 hk
      exact ⟨ids, fun _ => g2⟩
    · exact ⟨[], fun h => absurd h hk⟩
  choose ids hids using hids
  refine ⟨rows, ids, hrows, hids, ?_⟩
  intro cf hcf hcr
  -- the same for every channel and array
  have main2 : ∀ (k ch : ℕ) (c : List ι), k < groupCount kept o.groups → c = benchGroup kept o.groups k → ∃ f, textFrame (w ch) ch (files ch) = .ok f ∧
      ∃ pos : ι → P3, (∀ s ∈ c, euclid (place s) (pos s) ≤ E) ∧
        (0 < ε → ∃ r, M.ArrayResult ((a0.withFiles k (ids k) rows).readBy read) ε (readData read (frameData f "sum_col_val" k)) r) ∧
        ∀ r, M.ArrayResult ((a0.withFiles k (ids k) rows).readBy read) ε (readData read (frameData f "sum_col_val" k)) r →
        ∃ found : ℕ → Fin a0.layers → ℝ, r = .ok ((firstImgs infos.length).map found) ∧ ∀ i, 1 ≤ i → i ≤ infos.length → (∀ j, 0 ≤ found i j) ∧
          (∀ s ∈ c, |M.depthThrough a0.cam (pos s) a0.lo a0.hi (found i) - lineDepth a0.cam (place s) a0.lo a0.hi (smoke ch i)| ≤
            104 / 100 * M.imageErr c.length (γ + displacementError S L δ E + 1 / 19999 + 2 * M.w + M.borderError a0.layers a0.lo a0.hi S (L + E) δ)
              a0.lam ε (smoke ch i) + 1260 * M.u + 460 * M.w + M.borderError a0.layers a0.lo a0.hi S (L + E) δ + displacementError S L δ E) ∧
          a0.lam * bending (fun j => found i j - smoke ch i j) ≤
            101 / 100 * M.imageErr c.length (γ + displacementError S L δ E + 1 / 19999 + 2 * M.w + M.borderError a0.layers a0.lo a0.hi S (L + E) δ)
              a0.lam ε (smoke ch i) ^ 2 := by
    intro k ch c hkl hc
    subst hc
    obtain ⟨rows', ids', g1, g2, g3⟩ := main k ch hkl
    rw [hrows, Except.ok.injEq] at g1
    subst g1
    rw [hids k hkl, Except.ok.injEq] at g2
    have g2' := List.map_injective_iff.2 Nat.cast_injective g2
    subst g2'
    obtain ⟨f, f1, f2⟩ := g3 cf (hcf ch) hcr
    obtain ⟨pos, p1, p2⟩ := f2 a0 place η ρ E (hsv k hkl) hη hρ hlam hE (fun s hs => hin s (hflat k s hs)) read hread
      (fun s hs => hfar s (hflat k s hs))
    obtain ⟨q1, q2⟩ := p2 γ (emit ch) (smoke ch) S L δ hγ (hl ch k hkl) hδ hcam (hS ch) (fun s hs => hL s (hflat k s hs)) hfit
      (fun i h1 h2 s hs => hthin ch i h1 h2 s (hflat k s hs)) ε hε
    exact ⟨f, f1, pos, p1, q1, q2⟩
  have hframe : ∀ ch, ∃ f, textFrame (w ch) ch (files ch) = .ok f := by
    intro ch
    obtain ⟨f, f1, _⟩ := main2 0 ch _ hphys rfl
    exact ⟨f, f1⟩
  choose f hframe using hframe
  have main3 : ∀ (k ch : ℕ) (c : List ι), k < groupCount kept o.groups → c = benchGroup kept o.groups k →
      ∃ pos : ι → P3, (∀ s ∈ c, euclid (place s) (pos s) ≤ E) ∧
        (0 < ε → ∃ r, M.ArrayResult ((a0.withFiles k (ids k) rows).readBy read) ε (readData read (frameData (f ch) "sum_col_val" k)) r) ∧
        ∀ r, M.ArrayResult ((a0.withFiles k (ids k) rows).readBy read) ε (readData read (frameData (f ch) "sum_col_val" k)) r →
        ∃ found : ℕ → Fin a0.layers → ℝ, r = .ok ((firstImgs infos.length).map found) ∧ ∀ i, 1 ≤ i → i ≤ infos.length → (∀ j, 0 ≤ found i j) ∧
          (∀ s ∈ c, |M.depthThrough a0.cam (pos s) a0.lo a0.hi (found i) - lineDepth a0.cam (place s) a0.lo a0.hi (smoke ch i)| ≤
            104 / 100 * M.imageErr c.length (γ + displacementError S L δ E + 1 / 19999 + 2 * M.w + M.borderError a0.layers a0.lo a0.hi S (L + E) δ)
              a0.lam ε (smoke ch i) + 1260 * M.u + 460 * M.w + M.borderError a0.layers a0.lo a0.hi S (L + E) δ + displacementError S L δ E) ∧
          a0.lam * bending (fun j => found i j - smoke ch i j) ≤
            101 / 100 * M.imageErr c.length (γ + displacementError S L δ E + 1 / 19999 + 2 * M.w + M.borderError a0.layers a0.lo a0.hi S (L + E) δ)
              a0.lam ε (smoke ch i) ^ 2 := by
    intro k ch c hk hc
    obtain ⟨f', f1, f2⟩ := main2 k ch c hk hc
    rw [hframe ch, Except.ok.injEq] at f1
    subst f1
    exact f2
  refine ⟨f, hframe, ?_, ?_⟩
  · intro hε0 k hk ch
    obtain ⟨pos, _, q1, _⟩ := main3 k ch _ hk rfl
    obtain ⟨r, hr⟩ := q1 hε0
    exact ⟨_, r, hr, rfl⟩
  intro job pairs hlay hskip htimes hnd hpn hpk hcalc dir hplain globbed hglob lo hi' hlo hhi hne
  have hft := experimentTimes_forall₂ infos _ htimes
  have htl : job.times.length = infos.length := hft.length_eq.symm
  have hall : ∀ p : ℕ × ℕ, ∃ found : ℕ → Fin a0.layers → ℝ, p ∈ pairs →
      job.analyse p.1 p.2 = .ok (((firstImgs infos.length).map found).map List.ofFn) ∧
      ∀ c, c = benchGroup kept o.groups p.1 → ∃ pos : ι → P3, (∀ s ∈ c, euclid (place s) (pos s) ≤ E) ∧ ∀ i, 1 ≤ i → i ≤ infos.length → (∀ j, 0 ≤ found i j) ∧
          (∀ s ∈ c, |M.depthThrough a0.cam (pos s) a0.lo a0.hi (found i) - lineDepth a0.cam (place s) a0.lo a0.hi (smoke p.2 i)| ≤
            104 / 100 * M.imageErr c.length (γ + displacementError S L δ E + 1 / 19999 + 2 * M.w + M.borderError a0.layers a0.lo a0.hi S (L + E) δ)
              a0.lam ε (smoke p.2 i) + 1260 * M.u + 460 * M.w + M.borderError a0.layers a0.lo a0.hi S (L + E) δ + displacementError S L δ E) ∧
          a0.lam * bending (fun j => found i j - smoke p.2 i j) ≤
            101 / 100 * M.imageErr c.length (γ + displacementError S L δ E + 1 / 19999 + 2 * M.w + M.borderError a0.layers a0.lo a0.hi S (L + E) δ)
              a0.lam ε (smoke p.2 i) ^ 2 := by
    intro p
    by_cases hpp : p ∈ pairs
    · obtain ⟨r, hr, hr'⟩ := hcalc p hpp
      obtain ⟨pos, p1, _, p2⟩ := main3 p.1 p.2 _ (hpk p hpp) rfl
      obtain ⟨found, e1, e2⟩ := p2 r hr
      refine ⟨found, fun _ => ⟨by rw [hr', e1]; rfl, ?_⟩⟩
      intro c hc
      subst hc
      exact ⟨pos, p1, e2⟩
    · exact ⟨fun _ _ => 0, fun h => absurd h hpp⟩
  choose found hfound using hall
  set time : ℕ → ℤ := fun i => (job.times[i]?).getD 0 with htime
  have htime' : ∀ i (hi : i < infos.length), time i = job.times[i]'(by omega) := by
    intro i hi
    simp only [htime, List.getElem?_eq_getElem (show i < job.times.length by omega), Option.getD_some]
  set coef : ℕ → ℕ → ℕ → ℕ → ℝ := fun c a i l => if hll : l < a0.layers then found (a, c) (i + 1) ⟨l, hll⟩ else 0 with hcoef
  have hgood : GoodBatch job pairs infos.length time coef := by
    refine ⟨hskip, ?_, ?_⟩
    · apply List.ext_getElem
      · simp [htl]
      · intro i h1 h2
        rw [List.getElem_map, List.getElem_range, htime' i (by omega)]
    · intro p hpp
      rw [(hfound p hpp).1]
      unfold coefRows firstImgs
      rw [List.map_map, List.map_map, hlay]
      congr 1
      apply List.map_congr_left
      intro i _
      apply ofFn_range
      intro l hll
      simp only [hcoef, dif_pos hll]
  have hdist : ∀ i < infos.length, ∀ k < i, time k ≠ time i := by
    intro i hi k hki he
    rw [htime' i hi, htime' k (by omega)] at he
    have := (List.Nodup.getElem_inj_iff hnd).1 he
    omega
  have hdom : lo < hi' := by
    have := (hsv 0 hphys).domain
    rw [← hlo, ← hhi] at this
    exact_mod_cast this
  have h3 : 0 < a0.layers := by
    have := (hsv 0 hphys).layers
    omega
  have shown := fun c a (hm : (a, c) ∈ pairs) i (hii : i < infos.length) l (hll : l < job.layers) hh hhh =>
    C141_shown_partial job dir hplain pairs hpn infos.length time hdist coef hgood globbed hglob lo hi' hdom c a hm i hii l hll hh hhh
  have hin1 : ∀ l, l < job.layers → InLayer lo hi' job.layers l (lo + (hi' - lo) * l / job.layers) := by
    intro l hll
    have hpos : (0 : ℚ) < job.layers := by
      have : 0 < job.layers := by omega
      exact_mod_cast this
    refine ⟨le_rfl, ?_⟩
    have : (hi' - lo) * l / job.layers < (hi' - lo) * (l + 1) / job.layers := by
      apply div_lt_div_of_pos_right _ hpos
      have : 0 < hi' - lo := by linarith
      nlinarith
    linarith
  obtain ⟨t, ht⟩ : ∃ t, allExtcos globbed = .ok t := by
    obtain ⟨p, hpp⟩ := List.exists_mem_of_ne_nil pairs hne
    obtain ⟨t, _, _, _, h1, _⟩ := shown p.2 p.1 hpp 0 hlen 0 (by omega) _ (hin1 0 (by omega))
    exact ⟨t, h1⟩
  refine ⟨?_, t, ht, ?_⟩
  · rw [C141_ends_iff]
    exact fun p hpp => ⟨_, hgood.one hpp⟩
  intro p hpp c hc i row tm hrow hrt
  obtain ⟨hil, hrow'⟩ := List.getElem?_eq_some_iff.1 hrow
  have htm' : job.times[i]'(by omega) = tm := by
    have := hft.get hil (by omega)
    simp only [List.get_eq_getElem] at this
    rw [hrow', hrt, Except.ok.injEq] at this
    exact this.symm
  obtain ⟨pos, p1, p2⟩ := (hfound p hpp).2 c hc
  obtain ⟨q1, q2, q3⟩ := p2 (i + 1) (by omega) (by omega)
  refine ⟨found p (i + 1), pos, ?_, q1, p1, q2, q3⟩
  intro l
  have hll : (l : ℕ) < job.layers := by rw [hlay]; exact l.2
  have htt : time i = tm := by rw [htime' i hil, htm']
  have hce : coef p.2 p.1 i l = found p (i + 1) l := by
    simp only [hcoef, dif_pos l.2]
  obtain ⟨t', byA, byL, byT, s1, s2, s3, s4, s5, s6, s7, s8⟩ := shown p.2 p.1 hpp i hil l hll _ (hin1 l hll)
  rw [ht, Except.ok.injEq] at s1
  subst s1
  rw [hce, htt] at s6 s7
  rw [hce] at s8
  rw [htt] at s5
  refine ⟨byA, byL, byT, i, s2, s3, ?_, s5, s6, s7, s8⟩
  intro h0 hh0
  obtain ⟨t', byA', byL', byT', r1, r2, r3, r4, _⟩ := shown p.2 p.1 hpp i hil l hll h0 (by rw [hlay]; exact hh0)
  rw [hlay] at r4
  rw [ht, Except.ok.injEq] at r1
  subst r1
  rw [s3, Except.ok.injEq] at r3
  subst r3
  exact r4

/-! ### A case of C151: the column of five LEDs as two arrays, one from above and one from below, LED 1 ignored and both arrays merged -/

/-- The options of step 2. -/
def splitOptions : Step2Options := ⟨"0 2 4 3".toList, "1".toList, some [[0, 1]]⟩

theorem split_straight : StraightArrays {0, 1, 2, 3, 4} columnPeak [[0, 1, 2], [4, 3]] 3 := by
  have hdist : ∀ a e : ℕ, pixelDist (intPix (columnPeak a)) (intPix (columnPeak e)) = |3 * (a : ℝ) - 3 * e| := by
    intro a e
    rw [← Real.sqrt_sq_eq_abs]
    unfold pixelDist intPix columnPeak
    congr 1
    push_cast
    ring
  refine ⟨by decide, by decide, by decide, ?_⟩
  intro c hc
  simp only [List.mem_cons, List.not_mem_nil, or_false] at hc
  rcases hc with rfl | rfl
  · refine ⟨(1, 0), 3, 0, 3, ⟨by norm_num, by norm_num, ?_, ?_, ?_⟩, by norm_num, by norm_num, le_rfl⟩
    · intro a _
      unfold across intPix columnPeak
      norm_num
    · intro pre a b post h
      have hb : b = a + 1 := by
        match pre, h with
        | [], h => simp only [List.nil_append, List.cons.injEq] at h; omega
        | [_], h => simp only [List.cons_append, List.nil_append, List.cons.injEq] at h; omega
        | [_, _], h => simp at h
        | _ :: _ :: _ :: _, h => simp at h
      subst hb
      unfold along intPix columnPeak
      push_cast
      linarith
    · intro pre a b post h e he hne
      have hb : b = a + 1 ∧ a ≤ 1 := by
        match pre, h with
        | [], h => simp only [List.nil_append, List.cons.injEq] at h; omega
        | [_], h => simp only [List.cons_append, List.nil_append, List.cons.injEq] at h; omega
        | [_, _], h => simp at h
        | _ :: _ :: _ :: _, h => simp at h
      obtain ⟨rfl, ha⟩ := hb
      have he3 : 3 ≤ e := by
        simp only [Finset.mem_insert, Finset.mem_singleton] at he
        simp only [List.mem_cons, List.not_mem_nil, or_false] at hne
        omega
      have ha' : (a : ℝ) ≤ 1 := by exact_mod_cast ha
      have he' : (3 : ℝ) ≤ e := by exact_mod_cast he3
      rw [hdist, abs_of_nonpos (by linarith)]
      unfold along intPix columnPeak
      push_cast
      linarith
  · refine ⟨(-1, 0), -3, 0, 3, ⟨by norm_num, by norm_num, ?_, ?_, ?_⟩, by norm_num, by norm_num, le_rfl⟩
    · intro a _
      unfold across intPix columnPeak
      norm_num
    · intro pre a b post h
      have hb : a = 4 ∧ b = 3 := by
        match pre, h with
        | [], h => simp only [List.nil_append, List.cons.injEq] at h; omega
        | [_], h => simp at h
        | _ :: _ :: _, h => simp at h
      obtain ⟨rfl, rfl⟩ := hb
      unfold along intPix columnPeak
      norm_num
    · intro pre a b post h e he hne
      have hb : a = 4 ∧ b = 3 := by
        match pre, h with
        | [], h => simp only [List.nil_append, List.cons.injEq] at h; omega
        | [_], h => simp at h
        | _ :: _ :: _, h => simp at h
      obtain ⟨rfl, rfl⟩ := hb
      have he3 : e ≤ 2 := by
        simp only [Finset.mem_insert, Finset.mem_singleton] at he
        simp only [List.mem_cons, List.not_mem_nil, or_false] at hne
        omega
      have he' : (e : ℝ) ≤ 2 := by exact_mod_cast he3
      rw [hdist, abs_of_nonneg (by push_cast; linarith)]
      unfold along intPix columnPeak
      push_cast
      linarith

theorem split_arrays : BenchArrays (roundedMetric double) {0, 1, 2, 3, 4} columnPeak [[0, 1, 2], [4, 3]] :=
  C134_rounded double firstMaxLoc isMaxLoc_firstMaxLoc columnJob _ _ _ column_bench _ 3 split_straight (by
    unfold double columnJob columnImage
    norm_num)

theorem split_le : ∀ x ∈ [0, 2, 4, 3], x ∈ [0, 1, 2, 3, 4] := by decide

theorem split_surveyed : SurveyedGroup columnAnalysis columnPeak ([[0, 2], [4, 3]] : List (List ℕ)) [((0, 0, 4), (0, 0, 2)), ((0, 0, 0), (0, 0, 1))]
    [0, 2, 4, 3] (fun (x : ℕ) => (0, 0, 4 - (x : ℝ))) 0 := by
  have hs := column_bench_surveyed
  refine ⟨hs.layers, hs.domain, hs.camera, ?_, fun s h => hs.inside s (split_le s h), fun s h => hs.apart s (split_le s h)⟩
  intro s _ k ck T B f l hk he hsk hf hl q hq
  unfold IsFraction realPix intPix columnPeak lerp2 at hq
  simp only at hq
  have hkl : k < 2 := by simpa using (List.getElem?_eq_some_iff.1 hk).1
  interval_cases k
  · simp only [List.getElem?_cons_zero, Option.some.injEq, Prod.mk.injEq] at hk he
    subst hk
    obtain ⟨rfl, rfl⟩ := he
    obtain rfl : 0 = f := by simpa using hf
    obtain rfl : 2 = l := by simpa using hl
    have e : (q : ℝ) * 2 = s := by
      push_cast at hq
      linarith
    have : lerp3 (0, 0, 4) (0, 0, 2) q = (0, 0, 4 - (s : ℝ)) := by
      unfold lerp3
      ext <;> simp
      linarith
    rw [this]
    simp [euclid]
  · simp only [List.getElem?_cons_succ, List.getElem?_cons_zero, Option.some.injEq, Prod.mk.injEq] at hk he
    subst hk
    obtain ⟨rfl, rfl⟩ := he
    obtain rfl : 4 = f := by simpa using hf
    obtain rfl : 3 = l := by simpa using hl
    have e : (q : ℝ) = 4 - s := by
      push_cast at hq
      linarith
    have : lerp3 (0, 0, 0) (0, 0, 1) q = (0, 0, 4 - (s : ℝ)) := by
      unfold lerp3
      ext <;> simp
      linarith
    rw [this]
    simp [euclid]

/-- The result for the merged array in two photos: the optical depths in smoke are right up to 1/2. -/
theorem split_run : ∃ rows ids f, calculateCoordinates (fun _ => ⟨0, 1, 0⟩) 2 [((0, 0, 4), (0, 0, 2)), ((0, 0, 0), (0, 0, 1))]
      (runHistory firstMaxLoc (roundedMetric double) .empty [.step1 columnJob, .step2 splitOptions]) = .ok rows ∧
    textFrame stripDir 0 (fun i => (step3File ⟨2, some [[0, 1]]⟩ (infoFile stripInfos) "exp".toList 0 1 0 (columnPhoto i) none (natStr i)
      (runHistory firstMaxLoc (roundedMetric double) .empty [.step1 columnJob, .step2 splitOptions])).toOption) = .ok f ∧
    ∀ r, (columnAnalysis.withFiles 0 ids rows).ResultOf ((columnAnalysis.withFiles 0 ids rows).inputOf (frameData f "sum_col_val" 0)) r →
      ∃ (pos : ℕ → P3) (found : ℕ → Fin 3 → ℝ), (∀ x ∈ [0, 2, 4, 3], euclid (0, 0, 4 - ((x : ℕ) : ℝ)) (pos x) ≤ 1 / 10 ^ 6) ∧
        r = .ok [found 1, found 2] ∧
        ∀ x ∈ [0, 2, 4, 3], |lineDepth (5, 0, 2) (pos x) (-1) 5 (found 2) - lineDepth (5, 0, 2) (pos x) (-1) 5 (columnSmoke 2)| ≤ 1 / 2 := by
  have hphot : ∀ i, PhotographedBench columnPeak ([[0, 2], [4, 3]] : List (List ℕ)) 1 (columnPhoto i) := by
    intro i
    have := column_photographed i
    exact ⟨this.radius, fun s hs => this.leds s (split_le s (by simpa using hs)), this.pixels⟩
  obtain ⟨rows, ids, c1, c2, c3⟩ := C151_bench_to_smoke firstMaxLoc isMaxLoc_firstMaxLoc (roundedMetric double) columnJob (fun p => p.1 / 3) {0, 1, 2, 3, 4} columnPeak
    column_bench [[0, 1, 2], [4, 3]] split_arrays id column_numbered splitOptions (by decide +kernel) [[0, 2], [4, 3]] (by decide +kernel)
    (by
      intro gs hgs
      obtain rfl : [[0, 1]] = gs := by simpa [splitOptions] using hgs
      decide)
    (by decide)
    (by
      intro c hc
      simp only [List.mem_cons, List.not_mem_nil, or_false] at hc
      rcases hc with rfl | rfl
      · exact ⟨0, 2, rfl, rfl, by decide⟩
      · exact ⟨4, 3, rfl, rfl, by decide⟩)
    [] _ (Or.inl rfl) (fun _ => ⟨0, 1, 0⟩) [((0, 0, 4), (0, 0, 2)), ((0, 0, 0), (0, 0, 1))]
    (by simp) stripDir 0 2 rfl (by norm_num) rfl stripInfos strip_infos (by decide) "exp".toList (by decide +kernel) 1 columnPhoto hphot _
    (fun i _ _ => rfl) 0 (by decide) [0, 2, 4, 3] rfl
  obtain ⟨f, f1, f2⟩ := c3 none rfl (by simp)
  refine ⟨rows, ids, f, c1, f1, ?_⟩
  obtain ⟨pos, p1, p2⟩ := f2 columnAnalysis _ 0 split_surveyed le_rfl (by unfold columnAnalysis; norm_num)
  intro r hr
  have hl := column_bench_light
  obtain ⟨found, e, hfound⟩ := p2 (1 / 10) (fun _ => 1000) columnSmoke (1 / 5) (27 / 5) 1
      ⟨fun s h => hl.emits s (split_le s h), fun i h1 h2 s h => hl.light i h1 h2 s (split_le s h), hl.clear, hl.reference, hl.nonneg,
        fun i h1 h2 s h => hl.thin i h1 h2 s (split_le s h)⟩ (by norm_num)
      ⟨1, by decide, by unfold columnAnalysis; norm_num, by unfold columnAnalysis; norm_num⟩ (fun i _ _ j => columnSmoke_le i j)
      (fun x hx => (column_distance x (column_le x (split_le x hx))).2)
      (by
        intro i _ _ x hx
        show lineDepth (5, 0, 2) (0, 0, 4 - (x : ℝ)) (-1) 5 (columnSmoke i) + _ ≤ 23
        have := columnSmoke_depth i x (column_le x (split_le x hx))
        unfold displacementError
        norm_num
        linarith) r hr
  refine ⟨pos, found, ?_, by rw [e]; rfl, ?_⟩
  · intro x hx
    have := p1 x hx
    simpa using this
  · obtain ⟨_, hb2⟩ := hfound 2 (by norm_num) le_rfl
    have hsm : columnSmoke 2 = fun _ => Real.log 2 / 5 := by simp [columnSmoke]
    have hbend : bending (n := 3) (columnSmoke 2) = 0 := by
      rw [hsm]
      exact (bending_eq_zero _).2 ⟨Real.log 2 / 5, 0, fun _ => by simp⟩
    have hnn := bending_nonneg (n := 3) fun k => found 2 k - columnSmoke 2 k
    have hb3 : ([0, 2, 4, 3].map fun x => (lineDepth (5, 0, 2) (pos x) (-1) 5 (found 2) -
        lineDepth (5, 0, 2) (pos x) (-1) 5 (columnSmoke 2)) ^ 2).sum + 1 * bending (n := 3) (fun k => found 2 k - columnSmoke 2 k) ≤
        ((4 : ℕ) : ℝ) * (2 * (1 / 10 + displacementError (1 / 5) (27 / 5) 1 (0 + 1 / 10 ^ 6)) + 2 / 19999) ^ 2 +
          1 * bending (n := 3) (columnSmoke 2) := hb2
    rw [hbend] at hb3
    unfold displacementError at hb3
    intro x hx
    have hone : (lineDepth (5, 0, 2) (pos x) (-1) 5 (found 2) - lineDepth (5, 0, 2) (pos x) (-1) 5 (columnSmoke 2)) ^ 2 ≤ (1 / 2) ^ 2 := by
      have := List.single_le_sum (l := [0, 2, 4, 3].map fun x => (lineDepth (5, 0, 2) (pos x) (-1) 5 (found 2) -
        lineDepth (5, 0, 2) (pos x) (-1) 5 (columnSmoke 2)) ^ 2) (by
          intro y hy
          obtain ⟨z, _, rfl⟩ := List.mem_map.1 hy
          exact sq_nonneg _) _ (List.mem_map_of_mem hx)
      refine this.trans ?_
      norm_num at hb3 ⊢
      linarith
    exact abs_le_of_sq_le_sq hone (by norm_num)

end Ledsa
