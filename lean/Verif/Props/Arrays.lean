import Verif.Props.Detection
import Verif.Props.MatchingRounded
import Verif.Proofs.Double
import Verif.Props.Session
/-
Property C134: from a photo with separate, nearly straight LED arrays to the arrays of the program.
-/
namespace Ledsa

variable {ι : Type}

/-- A pixel as step 2 sees it. -/
def intPix (p : ℕ × ℕ) : ℤ × ℤ := ((p.1 : ℤ), (p.2 : ℤ))

/-- The photo of a bench of LEDs: separate spots, no more than the program looks for. -/
structure BenchSpots (j : Step1Job) (spot : ℕ × ℕ → ι) (spots : Finset ι) : Prop where
  rows : 0 < j.img.h
  cols : 0 < j.img.w
  thr : 0 ≤ j.thr
  separate : SeparateSpots j.img j.thr j.radius spot spots
  count : spots.card ≤ j.maxLeds

/-- The photo of a bench of LEDs, and for each of them the pixel `peak` at which it is found: the brightest pixel of its spot if there is only
one (`BenchSpots.unique`), otherwise one of the brightest (`C134_ties`). -/
structure BenchPhoto (maxLoc : Image ℚ → ℕ × ℕ) (j : Step1Job) (spot : ℕ × ℕ → ι) (spots : Finset ι) (peak : ι → ℕ × ℕ) : Prop
    extends BenchSpots j spot spots where
  one : ∀ l ∈ findSearchAreas maxLoc j.thr j.radius j.maxLeds j.img, l.2 = peak (spot l.2)

/-- Spots with one brightest pixel each are found there. -/
theorem BenchSpots.unique [DecidableEq ι] (maxLoc : Image ℚ → ℕ × ℕ) (hmax : IsMaxLoc maxLoc) {j : Step1Job} {spot : ℕ × ℕ → ι} {spots : Finset ι}
    (h : BenchSpots j spot spots) (peak : ι → ℕ × ℕ) (one : ∀ p, IsPeak j.img j.thr spot p → p = peak (spot p)) :
    BenchPhoto maxLoc j spot spots peak := by
  obtain ⟨_, c2, _, _⟩ := C132_one_by_one_partial maxLoc hmax j.thr h.thr j.radius j.maxLeds j.img h.rows h.cols spot spots h.separate
  exact { h with one := fun l hl => one _ (c2 l hl).2 }

/-- **C134**, spots with several equally bright peaks: whatever the spots are like, each LED is found at one of its brightest pixels, so that
all that follows holds with these. -/
theorem C134_ties [DecidableEq ι] (maxLoc : Image ℚ → ℕ × ℕ) (hmax : IsMaxLoc maxLoc) (j : Step1Job) (spot : ℕ × ℕ → ι) (spots : Finset ι)
    (h : BenchSpots j spot spots) :
    ∃ peak, BenchPhoto maxLoc j spot spots peak ∧ ∀ s ∈ spots, IsPeak j.img j.thr spot (peak s) ∧ spot (peak s) = s := by
  obtain ⟨c1, c2, _, c4⟩ := C132_one_by_one_partial maxLoc hmax j.thr h.thr j.radius j.maxLeds j.img h.rows h.cols spot spots h.separate
  have hex : ∀ s : ι, ∃ l : ℕ × ℕ × ℕ, s ∈ spots → l ∈ findSearchAreas maxLoc j.thr j.radius j.maxLeds j.img ∧ spot l.2 = s := by
    intro s
    by_cases hs : s ∈ spots
    · obtain ⟨l, hl⟩ := c4 h.count s hs
      exact ⟨l, fun _ => hl⟩
    · exact ⟨(0, 0, 0), fun h => absurd h hs⟩
  choose row hrow using hex
  refine ⟨fun s => (row s).2, { h with one := ?_ }, fun s hs => ?_⟩
  · intro l hl
    have := hrow _ (c2 l hl).1
    rw [List.inj_on_of_nodup_map c1 hl this.1 this.2.symm]
    rw [this.2]
  · obtain ⟨h1, h2⟩ := hrow s hs
    exact ⟨(c2 _ h1).2, h2⟩

/-- The number of each LED in a table, and nothing else in the table. -/
def NumberedBy (t : LedTable) (spots : Finset ι) (peak : ι → ℕ × ℕ) (number : ι → ℕ) : Prop :=
  ∀ e : ℕ × ℤ × ℤ, e ∈ t ↔ ∃ s ∈ spots, e = (number s, intPix (peak s))

/-- **C134**, detection: the table has every LED exactly once, at its brightest pixel; the LEDs are numbered from zero, the brightest first. -/
theorem C134_numbered [DecidableEq ι] (maxLoc : Image ℚ → ℕ × ℕ) (hmax : IsMaxLoc maxLoc) (j : Step1Job) (spot : ℕ × ℕ → ι) (spots : Finset ι)
    (peak : ι → ℕ × ℕ) (hb : BenchPhoto maxLoc j spot spots peak) :
    ∃ number : ι → ℕ, NumberedBy (j.table maxLoc) spots peak number ∧ Set.InjOn number spots ∧
      (j.table maxLoc).map (·.1) = List.range spots.card ∧
      ∀ s ∈ spots, ∀ s' ∈ spots, number s < number s' → j.img.px (peak s').1 (peak s').2 ≤ j.img.px (peak s).1 (peak s).2 := by
  obtain ⟨c1, c2, c3, c4⟩ := C132_one_by_one_partial maxLoc hmax j.thr hb.thr j.radius j.maxLeds j.img hb.rows hb.cols spot spots hb.separate
  obtain ⟨_, d2, _⟩ := C09_consecutive_bounded maxLoc hmax j.thr j.radius j.maxLeds j.img hb.rows hb.cols
  have hsort := C10_sorted_by_brightness maxLoc hmax j.thr hb.thr j.radius j.maxLeds j.img hb.rows hb.cols
  set L := findSearchAreas maxLoc j.thr j.radius j.maxLeds j.img with hL
  rw [c3, Nat.min_eq_right hb.count] at d2
  have hex : ∀ s : ι, ∃ l : ℕ × ℕ × ℕ, s ∈ spots → l ∈ L ∧ spot l.2 = s := by
    intro s
    by_cases hs : s ∈ spots
    · obtain ⟨l, hl⟩ := c4 hb.count s hs
      exact ⟨l, fun _ => hl⟩
    · exact ⟨(0, 0, 0), fun h => absurd h hs⟩
  choose row hrow using hex
  have hpeak : ∀ s ∈ spots, (row s).2 = peak s := by
    intro s hs
    obtain ⟨h1, h2⟩ := hrow s hs
    rw [hb.one _ h1, h2]
  have hidnd : (L.map (·.1)).Nodup := by rw [d2]; exact List.nodup_range
  refine ⟨fun s => (row s).1, ?_, ?_, ?_, ?_⟩
  · intro e
    unfold Step1Job.table
    rw [List.mem_map]
    constructor
    · rintro ⟨l, hl, rfl⟩
      refine ⟨spot l.2, (c2 l hl).1, ?_⟩
      have : row (spot l.2) = l := List.inj_on_of_nodup_map c1 (hrow _ (c2 l hl).1).1 hl (hrow _ (c2 l hl).1).2
      simp only [← hpeak _ (c2 l hl).1, this]
      rfl
    · rintro ⟨s, hs, rfl⟩
      refine ⟨row s, (hrow s hs).1, ?_⟩
      rw [← hpeak s hs]
      rfl
  · intro s hs s' hs' h
    have : row s = row s' := List.inj_on_of_nodup_map hidnd (hrow s hs).1 (hrow s' hs').1 h
    rw [← (hrow s hs).2, ← (hrow s' hs').2, this]
  · unfold Step1Job.table
    rw [List.map_map]
    exact d2
  · intro s hs s' hs' hlt
    rw [← hpeak s hs, ← hpeak s' hs']
    -- rows are in the order of their numbers
    have hget : ∀ s ∈ spots, L[(row s).1]? = some (row s) := by
      intro s hs
      obtain ⟨k, hk⟩ := List.getElem?_of_mem (hrow s hs).1
      have h1 : (L.map (·.1))[k]? = some (row s).1 := by rw [List.getElem?_map, hk]; rfl
      rw [d2] at h1
      obtain ⟨hk', h1⟩ := List.getElem?_eq_some_iff.1 h1
      rw [List.getElem_range] at h1
      rw [← h1, hk]
    obtain ⟨k1, g1⟩ := List.getElem?_eq_some_iff.1 (hget s hs)
    obtain ⟨k2, g2⟩ := List.getElem?_eq_some_iff.1 (hget s' hs')
    have := List.pairwise_iff_getElem.1 hsort _ _ k1 k2 hlt
    rw [g1, g2] at this
    exact this

/-- The LED arrays on the bench: at least two LEDs each, no LED twice, all visible, and each nearly straight in the photo, with LEDs at least `gap` pixels
apart. -/
structure StraightArrays (spots : Finset ι) (peak : ι → ℕ × ℕ) (phys : List (List ι)) (gap : ℝ) : Prop where
  two : ∀ c ∈ phys, 2 ≤ c.length
  nodup : phys.flatten.Nodup
  visible : ∀ s ∈ phys.flatten, s ∈ spots
  straight : ∀ c ∈ phys, ∃ u line δ g, NearlyStraight (fun s => intPix (peak s)) (· ∈ spots) c u line δ g ∧ 0 ≤ δ ∧ 18 * δ ≤ g ∧ gap ≤ g

/-- The same for any way to measure distances: the next LED of an array is always the best one. -/
structure BenchArrays {D : Type} [LinearOrder D] [Add D] [Mul D] (m : Metric D) (spots : Finset ι) (peak : ι → ℕ × ℕ) (phys : List (List ι)) : Prop where
  neighbours : 0 < m.neighbours
  two : ∀ c ∈ phys, 2 ≤ c.length
  nodup : phys.flatten.Nodup
  visible : ∀ s ∈ phys.flatten, s ∈ spots
  next : ∀ c ∈ phys, BestNext m.dist m.weight (fun s => intPix (peak s)) (· ∈ spots) c

/-- Nearly straight arrays are good enough with exact distances. -/
theorem C134_exact (spots : Finset ι) (peak : ι → ℕ × ℕ) (phys : List (List ι)) (gap : ℝ) (h : StraightArrays spots peak phys gap) :
    BenchArrays defaultMetric spots peak phys := by
  refine ⟨show 0 < 5 by norm_num, h.two, h.nodup, h.visible, ?_⟩
  intro c hc
  obtain ⟨u, line, δ, g, h1, h2, h3, _⟩ := h.straight c hc
  have hg := h1.gap_pos
  refine followsLine_next pixelDist pixelDist_triangle _ (by unfold defaultMetric; norm_num) (by unfold defaultMetric; norm_num) _ _ c
    (nearlyStraight_follows _ _ c u line δ g _ (by unfold defaultMetric; norm_num) (by unfold defaultMetric; norm_num) h1 ?_)
  unfold defaultMetric
  nlinarith

/-- The brightest pixel of a spot is in the photo, and belongs to the spot. -/
theorem benchPhoto_peak [DecidableEq ι] (maxLoc : Image ℚ → ℕ × ℕ) (hmax : IsMaxLoc maxLoc) (j : Step1Job) (spot : ℕ × ℕ → ι) (spots : Finset ι)
    (peak : ι → ℕ × ℕ) (hb : BenchPhoto maxLoc j spot spots peak) (s : ι) (hs : s ∈ spots) : spot (peak s) = s ∧ j.img.Inside (peak s) := by
  obtain ⟨_, c2, _, c4⟩ := C132_one_by_one_partial maxLoc hmax j.thr hb.thr j.radius j.maxLeds j.img hb.rows hb.cols spot spots hb.separate
  obtain ⟨l, hl, hls⟩ := c4 hb.count s hs
  have h1 := (c2 l hl).2
  have h2 := hb.one _ hl
  rw [hls] at h2
  rw [← h2]
  exact ⟨hls, h1.1.1⟩

/-- Nearly straight arrays are good enough in floating point, if the photo has not too many pixels. -/
theorem C134_rounded [DecidableEq ι] (M : Machine) (maxLoc : Image ℚ → ℕ × ℕ) (hmax : IsMaxLoc maxLoc) (j : Step1Job) (spot : ℕ × ℕ → ι)
    (spots : Finset ι) (peak : ι → ℕ × ℕ) (hb : BenchPhoto maxLoc j spot spots peak) (phys : List (List ι)) (gap : ℝ)
    (h : StraightArrays spots peak phys gap) (hu : 20000 * (M.u * (j.img.h + j.img.w)) ≤ gap) :
    BenchArrays (roundedMetric M) spots peak phys := by
  refine ⟨show 0 < 5 by norm_num, h.two, h.nodup, h.visible, ?_⟩
  intro c hc
  obtain ⟨u, line, δ, g, h1, h2, h3, h4⟩ := h.straight c hc
  refine nearlyStraight_rounded M _ _ c u line δ g (j.img.h + j.img.w) h1 h2 h3 (fun a ha => h.visible a (List.mem_flatten.2 ⟨c, hc, ha⟩)) ?_ (hu.trans h4)
  intro a e ha he
  have p1 := (benchPhoto_peak maxLoc hmax j spot spots peak hb a ha).2
  have p2 := (benchPhoto_peak maxLoc hmax j spot spots peak hb e he).2
  exact pixelDist_size _ _ _ _ p1.1 p1.2 p2.1 p2.2

/-- The numbers of the first and the last LED. -/
def endNumbers (number : ι → ℕ) (c : List ι) : ℤ × ℤ := (((c.head?).map fun s => (number s : ℤ)).getD 0, ((c.getLast?).map fun s => (number s : ℤ)).getD 0)

theorem bestNext_image {α β P D : Type} [LinearOrder D] [Add D] [Mul D] (dist : P → P → D) (w : D) (f : α → β) (posA : α → P) (posB : β → P)
    (hpos : ∀ x, posB (f x) = posA x) (allA : α → Prop) (allB : β → Prop) (hall : ∀ y, allB y → ∃ x, allA x ∧ f x = y) (chain : List α)
    (h : BestNext dist w posA allA chain) : BestNext dist w posB allB (chain.map f) := by
  intro pre a b post r hc hr e he hne
  obtain ⟨pre', l2, rfl, rfl, h2⟩ := List.map_eq_append_iff.1 hc
  obtain ⟨a', l3, rfl, rfl, h3⟩ := List.map_eq_cons_iff.1 h2
  obtain ⟨b', post', rfl, rfl, rfl⟩ := List.map_eq_cons_iff.1 h3
  rw [← List.map_cons, List.getLast?_map] at hr
  obtain ⟨r', hr', rfl⟩ := Option.map_eq_some_iff.1 hr
  obtain ⟨x, hx, rfl⟩ := hall e he
  simp only [hpos]
  refine h pre' a' b' post' r' rfl hr' x hx ?_
  intro hm
  apply hne
  have : pre'.map f ++ [f a', f b'] = (pre' ++ [a', b']).map f := by simp
  rw [this]
  exact List.mem_map_of_mem hm

section
variable {D : Type} [LinearOrder D] [Add D] [Mul D]

/-- **C134**, matching: with the numbers of the first and last LEDs as edge indices, the LED arrays of the program are those on the bench, without
the ignored LEDs. -/
theorem C134_matched (m : Metric D) (t : LedTable) (hids : (t.map (·.1)).Nodup) (spots : Finset ι) (peak : ι → ℕ × ℕ) (number : ι → ℕ)
    (hn : NumberedBy t spots peak number) (hinj : Set.InjOn number spots) (phys : List (List ι)) (hp : BenchArrays m spots peak phys)
    (o : Step2Options) (ho : edgeIndices o.edges = phys.map (endNumbers number)) :
    arraysOf m o t = .ok (phys.map fun c => (c.map number).filter fun (x : ℕ) => (x : ℤ) ∉ ignoredLeds o.ignore) := by
  set f : ι → ℕ × ℤ × ℤ := fun s => (number s, intPix (peak s)) with hf
  have hfl : (phys.map fun c => c.map f).flatten = phys.flatten.map f := by rw [List.map_flatten]
  have ha : ArraysIn t (phys.map fun c => c.map f) := by
    refine ⟨?_, ?_, ?_⟩
    · intro c hc
      obtain ⟨c', hc', rfl⟩ := List.mem_map.1 hc
      rw [List.length_map]
      exact hp.two c' hc'
    · rw [hfl, List.map_map]
      refine List.Nodup.map_on ?_ hp.nodup
      intro x hx y hy h
      exact hinj (hp.visible x hx) (hp.visible y hy) h
    · intro e he
      rw [hfl] at he
      obtain ⟨s, hs, rfl⟩ := List.mem_map.1 he
      exact (hn _).2 ⟨s, hp.visible s hs, rfl⟩
  have hedge : edgeIndices o.edges = (phys.map fun c => c.map f).map edgesOf := by
    rw [ho, List.map_map]
    refine List.map_congr_left fun c _ => ?_
    unfold endNumbers
    simp only [Function.comp, edgesOf, List.head?_map, List.getLast?_map, Option.map_map]
    rcases c.head? with _ | x <;> rcases c.getLast? with _ | y <;> rfl
  have h := C133_next m.dist m.neighbours hp.neighbours m.weight t hids (phys.map fun c => c.map f) ha (by
    intro c hc
    obtain ⟨c', hc', rfl⟩ := List.mem_map.1 hc
    refine bestNext_image _ _ f (fun s => intPix (peak s)) _ (fun _ => rfl) (· ∈ spots) _ ?_ c' (hp.next c' hc')
    intro e he
    obtain ⟨s, hs, rfl⟩ := (hn e).1 he
    exact ⟨s, hs, rfl⟩) o.ignore
  unfold arraysOf
  rw [hedge, h]
  simp only [Except.map, List.map_map, Except.ok.injEq]
  refine List.map_congr_left fun c _ => ?_
  simp only [Function.comp, List.map_map]
  rfl

/-- **C134.** Whatever was done before: after step 1 for a photo of nearly straight LED arrays, and step 2 with the numbers of their first and last
LEDs, in one session or in two, the matched arrays are those on the bench. -/
theorem C134_bench_partial [DecidableEq ι] (maxLoc : Image ℚ → ℕ × ℕ) (hmax : IsMaxLoc maxLoc) (m : Metric D) (j : Step1Job) (spot : ℕ × ℕ → ι) (spots : Finset ι)
    (peak : ι → ℕ × ℕ) (hb : BenchPhoto maxLoc j spot spots peak) (phys : List (List ι)) (hp : BenchArrays m spots peak phys) (number : ι → ℕ)
    (hn : NumberedBy (j.table maxLoc) spots peak number) (o : Step2Options) (ho : edgeIndices o.edges = phys.map (endNumbers number))
    (hkeep : ∃ s ∈ phys.flatten, (number s : ℤ) ∉ ignoredLeds o.ignore) (pre : List ExtCmd) :
    Stage.ofHistory maxLoc m (pre ++ [.step1 j, .step2 o]) =
      .matched (j.table maxLoc) (phys.map fun c => (c.map number).filter fun (x : ℕ) => (x : ℤ) ∉ ignoredLeds o.ignore) o.groups ∧
    Stage.ofHistory maxLoc m (pre ++ [.steps12 j o]) =
      .matched (j.table maxLoc) (phys.map fun c => (c.map number).filter fun (x : ℕ) => (x : ℤ) ∉ ignoredLeds o.ignore) o.groups := by
  obtain ⟨number', n1, n2, n3, _⟩ := C134_numbered maxLoc hmax j spot spots peak hb
  have hids : ((j.table maxLoc).map (·.1)).Nodup := by rw [n3]; exact List.nodup_range
  have hpinj : ∀ s ∈ spots, ∀ s' ∈ spots, peak s = peak s' → s = s' := by
    intro s hs s' hs' h
    have e1 := (n1 _).2 ⟨s, hs, rfl⟩
    have e2 := (n1 _).2 ⟨s', hs', rfl⟩
    have key : ∀ s ∈ spots, spot (peak s) = s := fun s hs => (benchPhoto_peak maxLoc hmax j spot spots peak hb s hs).1
    rw [← key s hs, ← key s' hs', h]
  have hcast : ∀ p q : ℕ × ℕ, intPix p = intPix q → p = q := by
    intro p q h
    unfold intPix at h
    rw [Prod.mk.injEq, Nat.cast_inj, Nat.cast_inj] at h
    exact Prod.ext h.1 h.2
  have hinj : Set.InjOn number spots := by
    intro s hs s' hs' h
    have e1 := (hn _).2 ⟨s, hs, rfl⟩
    have e2 := (hn _).2 ⟨s', hs', rfl⟩
    have := List.inj_on_of_nodup_map hids e1 e2 h
    exact hpinj s hs s' hs' (hcast _ _ (Prod.ext_iff.1 this).2)
  have hm := C134_matched m (j.table maxLoc) hids spots peak number hn hinj phys hp o ho
  obtain ⟨s, hs, hsi⟩ := hkeep
  have hne : (phys.map fun c => (c.map number).filter fun (x : ℕ) => (x : ℤ) ∉ ignoredLeds o.ignore).flatten ≠ [] := by
    intro h
    rw [List.flatten_eq_nil_iff] at h
    obtain ⟨c, hc, hsc⟩ := List.mem_flatten.1 hs
    have := h _ (List.mem_map_of_mem hc)
    rw [List.filter_eq_nil_iff] at this
    exact this (number s) (List.mem_map_of_mem hsc) (by simpa using hsi)
  have hmem := (hn _).2 ⟨s, hp.visible s hs, rfl⟩
  have htne : j.table maxLoc ≠ [] := List.ne_nil_of_mem hmem
  have hmatch : Stage.match m o (.detected (j.table maxLoc)) =
      .matched (j.table maxLoc) (phys.map fun c => (c.map number).filter fun (x : ℕ) => (x : ℤ) ∉ ignoredLeds o.ignore) o.groups := by
    unfold Stage.match
    simp only [hm]
    rw [if_neg hne]
  have hlen : ¬ (j.table maxLoc).length ≤ 1 := by
    obtain ⟨c, hc, hsc⟩ := List.mem_flatten.1 hs
    have h2 := hp.two c hc
    have hcnd : c.Nodup := (List.nodup_flatten.1 hp.nodup).1 c hc
    have hsub : (c.map number) ⊆ (j.table maxLoc).map (·.1) := by
      intro x hx
      obtain ⟨y, hy, rfl⟩ := List.mem_map.1 hx
      have hys : y ∈ spots := hp.visible y (List.mem_flatten.2 ⟨c, hc, hy⟩)
      exact List.mem_map.2 ⟨_, (hn _).2 ⟨y, hys, rfl⟩, rfl⟩
    have hnd : (c.map number).Nodup := by
      refine List.Nodup.map_on ?_ hcnd
      intro x hx y hy h
      exact hinj (hp.visible x (List.mem_flatten.2 ⟨c, hc, hx⟩)) (hp.visible y (List.mem_flatten.2 ⟨c, hc, hy⟩)) h
    have := (hnd.subperm hsub).length_le
    rw [List.length_map, List.length_map] at this
    omega
  have hdet : Stage.detect (j.table maxLoc) = .detected (j.table maxLoc) := by
    unfold Stage.detect
    rw [if_neg htne]
  constructor
  · unfold Stage.ofHistory
    rw [List.foldl_append]
    simp only [List.foldl_cons, List.foldl_nil, Stage.after, hdet]
    rw [if_neg hlen, hmatch]
  · unfold Stage.ofHistory
    rw [List.foldl_append]
    simp only [List.foldl_cons, List.foldl_nil, Stage.after, hdet]
    rw [hmatch]

/-- **C134**, measured values: step 3 then reports LED `i` of array `k` on the bench as an LED of array `k`, under the number of LEDs in the arrays before
plus `i`, with the values of the photo at the brightest pixel of this LED. (No ignored LEDs, arrays not merged.) -/
theorem C134_measured [DecidableEq ι] (maxLoc : Image ℚ → ℕ × ℕ) (hmax : IsMaxLoc maxLoc) (m : Metric D) (j : Step1Job) (spot : ℕ × ℕ → ι) (spots : Finset ι)
    (peak : ι → ℕ × ℕ) (hb : BenchPhoto maxLoc j spot spots peak) (phys : List (List ι)) (hphys : phys ≠ []) (hp : BenchArrays m spots peak phys) (number : ι → ℕ)
    (hn : NumberedBy (j.table maxLoc) spots peak number) (o : Step2Options) (ho : edgeIndices o.edges = phys.map (endNumbers number))
    (hig : o.ignore = "None".toList) (hg : o.groups = none) (pre : List ExtCmd) (photo : Image ℚ) (R : ℕ) (fit : Bool) (skip : ℕ)
    (rows : List (ℕ × ℕ × Measured ℚ))
    (hr : step3Rows ⟨phys.length, none⟩ photo R fit skip (runHistory maxLoc m .empty (pre ++ [.step1 j, .step2 o])) = .ok rows) :
    (∀ x ∈ rows, ∃ i s, (phys[x.2.1]?).bind (fun c => c[i]?) = some s ∧ x.1 = (phys.take x.2.1).flatten.length + i ∧
      measure photo (peak s).1 (peak s).2 R = .ok x.2.2) ∧
    ∀ (k i : ℕ) (s : ι), (phys[k]?).bind (fun c => c[i]?) = some s → (skip + 1) ∣ (phys.take k).flatten.length + i →
      ∃ v, ((phys.take k).flatten.length + i, k, v) ∈ rows := by
  have hig' : ignoredLeds o.ignore = [] := by
    rw [hig]
    unfold ignoredLeds
    rw [if_pos rfl]
  have hall : ∀ l : List ℕ, l.filter (fun (x : ℕ) => (x : ℤ) ∉ ignoredLeds o.ignore) = l := by
    intro l
    rw [hig']
    simp
  obtain ⟨c, hc⟩ := List.exists_mem_of_ne_nil _ hphys
  obtain ⟨s0, hs0⟩ := List.exists_mem_of_ne_nil c (by rintro rfl; simpa using hp.two _ hc)
  obtain ⟨hst, _⟩ := C134_bench_partial maxLoc hmax m j spot spots peak hb phys hp number hn o ho
    ⟨s0, List.mem_flatten.2 ⟨c, hc, hs0⟩, by rw [hig']; simp⟩ pre
  simp only [hall, hg] at hst
  obtain ⟨number', n1, n2, n3, _⟩ := C134_numbered maxLoc hmax j spot spots peak hb
  have hids : ((j.table maxLoc).map (·.1)).Nodup := by rw [n3]; exact List.nodup_range
  have hlenk : ∀ k, ((phys.map fun c => c.map number).take k).flatten.length = (phys.take k).flatten.length := by
    intro k
    rw [← List.map_take, ← List.map_flatten, List.length_map]
  have hmem : ∀ k i, member (phys.map fun c => c.map number) k i = ((phys[k]?).bind fun c => c[i]?).map number := by
    intro k i
    unfold member
    rw [List.getElem?_map]
    cases phys[k]? with
    | none => rfl
    | some c => simp
  obtain ⟨m1, m2⟩ := C108_measured maxLoc m _ _ _ _ hst ⟨phys.length, none⟩ ⟨rfl, by simp⟩ photo R fit skip rows hr
  have hcount : wantedCount (phys.map fun c => c.map number) none = phys.length := by simp [wantedCount]
  rw [hcount] at m1 m2
  constructor
  · intro x hx
    obtain ⟨hk, a, i', old', p, q1, q2, q3⟩ := m2 x hx
    have hx1 : x.1 ∈ (rows.filter (fun y => y.2.1 = x.2.1)).map (·.1) := List.mem_map_of_mem (by simp [hx])
    rw [m1 x.2.1 hk, List.mem_filter, List.mem_reverse] at hx1
    obtain ⟨i, old, r1, r2⟩ := mem_blockOf _ _ _ hx1.1
    have hold : old = old' := by
      have e1 := flatten_offset _ _ _ _ r2
      have e2 := flatten_offset _ _ _ _ q1.2
      rw [← r1] at e1
      rw [← q1.1, e1] at e2
      exact Option.some.inj e2
    rw [hmem] at r2
    obtain ⟨s, hs, hso⟩ := Option.map_eq_some_iff.1 r2
    refine ⟨i, s, hs, by rw [r1, hlenk], ?_⟩
    obtain ⟨c, hc, hcs⟩ := Option.bind_eq_some_iff.1 hs
    have hsp : s ∈ spots := hp.visible s (List.mem_flatten.2 ⟨c, List.mem_of_getElem? hc, List.mem_of_getElem? hcs⟩)
    have hp2 := (hn _).2 ⟨s, hsp, rfl⟩
    have := List.inj_on_of_nodup_map hids q2 hp2 (by simp only; rw [hso, hold])
    have hpe : p = intPix (peak s) := (Prod.ext_iff.1 this).2
    rw [hpe] at q3
    exact q3
  · intro k i s hs hd
    obtain ⟨c, hc, hcs⟩ := Option.bind_eq_some_iff.1 hs
    have hk : k < phys.length := (List.getElem?_eq_some_iff.1 hc).1
    have hi : i < c.length := (List.getElem?_eq_some_iff.1 hcs).1
    have h1 : (phys.take k).flatten.length + i ∈ (rows.filter (fun x => x.2.1 = k)).map (·.1) := by
      rw [m1 k hk, List.mem_filter, List.mem_reverse]
      refine ⟨?_, by simpa using hd⟩
      change _ ∈ blockOf _ k
      unfold blockOf
      rw [List.mem_range'_1, hlenk, List.getElem?_map, hc]
      simp only [Option.map_some, Option.getD_some, List.length_map]
      omega
    obtain ⟨x, hx, hx1⟩ := List.mem_map.1 h1
    rw [List.mem_filter] at hx
    obtain ⟨a, b, v⟩ := x
    simp only [decide_eq_true_eq] at hx hx1
    refine ⟨v, ?_⟩
    rw [← hx1, ← hx.2]
    exact hx.1

end

/-! Three LEDs in a column, found in the order of their brightness. -/

/-- Three LEDs below each other, the middle one brightest. -/
def benchImage : Image ℚ := ⟨24, 6, fun i j => if i = 2 ∧ j = 3 then 7 else if i = 12 ∧ j = 4 then 9 else if i = 22 ∧ j = 3 then 5 else 0⟩

/-- Detection in this image. -/
def benchJob : Step1Job := ⟨benchImage, 1, 2, 10⟩

/-- The brightest pixels. -/
def benchPeak (s : ℕ) : ℕ × ℕ := if s = 0 then (2, 3) else if s = 1 then (12, 4) else (22, 3)

/-- The LEDs are told apart by their rows. -/
def benchSpot (p : ℕ × ℕ) : ℕ := p.1 / 10

theorem bench_lit (p : ℕ × ℕ) : Lit benchImage 1 p ↔ p = (2, 3) ∨ p = (12, 4) ∨ p = (22, 3) := by
  obtain ⟨i, j⟩ := p
  unfold Lit Image.Inside benchImage
  simp only [Prod.mk.injEq]
  constructor
  · rintro ⟨_, h⟩
    split at h
    · left; assumption
    · split at h
      · right; left; assumption
      · split at h
        · right; right; assumption
        · norm_num at h
  · rintro (⟨rfl, rfl⟩ | ⟨rfl, rfl⟩ | ⟨rfl, rfl⟩) <;> norm_num

theorem bench_photo : BenchPhoto firstMaxLoc benchJob benchSpot {0, 1, 2} benchPeak := by
  refine BenchSpots.unique firstMaxLoc isMaxLoc_firstMaxLoc ⟨by decide, by decide, by unfold benchJob; norm_num, ?_, by decide⟩ _ ?_
  · apply C132_distances
    · intro p hp
      rcases (bench_lit p).1 hp with rfl | rfl | rfl <;> decide
    · intro s hs
      simp only [Finset.mem_insert, Finset.mem_singleton] at hs
      rcases hs with rfl | rfl | rfl
      · exact ⟨(2, 3), (bench_lit _).2 (Or.inl rfl), by decide⟩
      · exact ⟨(12, 4), (bench_lit _).2 (Or.inr (Or.inl rfl)), by decide⟩
      · exact ⟨(22, 3), (bench_lit _).2 (Or.inr (Or.inr rfl)), by decide⟩
    · intro p hp
      rcases (bench_lit p).1 hp with rfl | rfl | rfl <;> decide
    · intro p q hp hq h
      rcases (bench_lit p).1 hp with rfl | rfl | rfl <;> rcases (bench_lit q).1 hq with rfl | rfl | rfl <;> revert h <;> decide
    · intro p q hp hq h
      rcases (bench_lit p).1 hp with rfl | rfl | rfl <;> rcases (bench_lit q).1 hq with rfl | rfl | rfl <;> revert h <;> decide
  · intro p hp
    rcases (bench_lit p).1 hp.1 with rfl | rfl | rfl <;> decide

theorem bench_phys : StraightArrays {0, 1, 2} benchPeak [[0, 1, 2]] 10 := by
  refine ⟨by decide, by decide, by decide, ?_⟩
  intro c hc
  rw [List.mem_singleton] at hc
  subst hc
  refine ⟨(1, 0), 7 / 2, 1 / 2, 10, ⟨by norm_num, by norm_num, ?_, ?_, ?_⟩, by norm_num, by norm_num, le_rfl⟩
  · intro a ha
    simp only [List.mem_cons, List.not_mem_nil, or_false] at ha
    unfold across intPix benchPeak
    rcases ha with rfl | rfl | rfl <;> norm_num
  · intro pre a b post h
    unfold along intPix benchPeak
    match pre, h with
    | [], h => simp only [List.nil_append, List.cons.injEq] at h; obtain ⟨rfl, rfl, _⟩ := h; norm_num
    | [_], h => simp only [List.cons_append, List.nil_append, List.cons.injEq] at h; obtain ⟨_, rfl, rfl, _⟩ := h; norm_num
    | [_, _], h => simp at h
    | _ :: _ :: _ :: _, h => simp at h
  · intro pre a b post h e he hne
    simp only [Finset.mem_insert, Finset.mem_singleton] at he
    simp only [List.mem_cons, List.not_mem_nil, or_false] at hne
    exact absurd he hne

/-- The numbers step 1 gives: the middle LED is number 0. -/
def benchNumber (s : ℕ) : ℕ := if s = 0 then 1 else if s = 1 then 0 else 2

theorem bench_table : benchJob.table firstMaxLoc = [(0, 12, 4), (1, 2, 3), (2, 22, 3)] := by decide +kernel

theorem bench_numbered : NumberedBy (benchJob.table firstMaxLoc) {0, 1, 2} benchPeak benchNumber := by
  intro e
  rw [bench_table]
  unfold benchPeak benchNumber intPix
  simp only [List.mem_cons, List.not_mem_nil, or_false, Finset.mem_insert, Finset.mem_singleton, exists_eq_or_imp, exists_eq_left]
  norm_num
  tauto

-- from the top LED, number 1, to the bottom LED, number 2
example : Stage.ofHistory firstMaxLoc defaultMetric [.step1 benchJob, .step2 ⟨"1 2".toList, "None".toList, none⟩] =
    .matched [(0, 12, 4), (1, 2, 3), (2, 22, 3)] [[1, 0, 2]] none := by
  have h := (C134_bench_partial firstMaxLoc isMaxLoc_firstMaxLoc defaultMetric benchJob benchSpot {0, 1, 2} benchPeak bench_photo [[0, 1, 2]]
    (C134_exact _ _ _ 10 bench_phys) benchNumber
    bench_numbered ⟨"1 2".toList, "None".toList, none⟩ (by decide +kernel) ⟨0, by decide, by decide⟩ []).1
  rw [bench_table] at h
  exact h

-- the same with the rounding of double precision
example : Stage.ofHistory firstMaxLoc (roundedMetric double) [.step1 benchJob, .step2 ⟨"1 2".toList, "None".toList, none⟩] =
    .matched [(0, 12, 4), (1, 2, 3), (2, 22, 3)] [[1, 0, 2]] none := by
  have h := (C134_bench_partial firstMaxLoc isMaxLoc_firstMaxLoc (roundedMetric double) benchJob benchSpot {0, 1, 2} benchPeak bench_photo [[0, 1, 2]]
    (C134_rounded double firstMaxLoc isMaxLoc_firstMaxLoc benchJob benchSpot _ _ bench_photo _ 10 bench_phys (by
      unfold double benchJob benchImage
      norm_num)) benchNumber
    bench_numbered ⟨"1 2".toList, "None".toList, none⟩ (by decide +kernel) ⟨0, by decide, by decide⟩ []).1
  rw [bench_table] at h
  exact h

/-- **C134**, spots with several equally bright peaks: if the LEDs stand in nearly straight arrays whichever of its brightest pixels is taken
for each of them, the matched arrays are those on the bench. -/
theorem C134_ties_bench [DecidableEq ι] {D : Type} [LinearOrder D] [Add D] [Mul D] (maxLoc : Image ℚ → ℕ × ℕ) (hmax : IsMaxLoc maxLoc) (m : Metric D)
    (j : Step1Job) (spot : ℕ × ℕ → ι) (spots : Finset ι) (h : BenchSpots j spot spots) (phys : List (List ι))
    (hp : ∀ peak : ι → ℕ × ℕ, (∀ s ∈ spots, IsPeak j.img j.thr spot (peak s) ∧ spot (peak s) = s) → BenchArrays m spots peak phys) :
    ∃ peak number, (∀ s ∈ spots, IsPeak j.img j.thr spot (peak s) ∧ spot (peak s) = s) ∧ NumberedBy (j.table maxLoc) spots peak number ∧
      ∀ o : Step2Options, edgeIndices o.edges = phys.map (endNumbers number) → (∃ s ∈ phys.flatten, (number s : ℤ) ∉ ignoredLeds o.ignore) →
        ∀ pre : List ExtCmd, Stage.ofHistory maxLoc m (pre ++ [.step1 j, .step2 o]) =
          .matched (j.table maxLoc) (phys.map fun c => (c.map number).filter fun (x : ℕ) => (x : ℤ) ∉ ignoredLeds o.ignore) o.groups := by
  obtain ⟨peak, hb, hpk⟩ := C134_ties maxLoc hmax j spot spots h
  obtain ⟨number, n1, _⟩ := C134_numbered maxLoc hmax j spot spots peak hb
  exact ⟨peak, number, hpk, n1, fun o ho hk pre => (C134_bench_partial maxLoc hmax m j spot spots peak hb phys (hp peak hpk) number n1 o ho hk pre).1⟩

/-! Two LEDs below each other, each with two equally bright pixels. -/

/-- Two pixels of 7 and two pixels of 9. -/
def tiedImage : Image ℚ := ⟨12, 6, fun i j => if (j = 2 ∨ j = 3) then (if i = 2 then 7 else if i = 8 then 9 else 0) else 0⟩

/-- Detection in this image. -/
def tiedJob : Step1Job := ⟨tiedImage, 1, 2, 10⟩

theorem tied_lit (p : ℕ × ℕ) : Lit tiedImage 1 p ↔ p = (2, 2) ∨ p = (2, 3) ∨ p = (8, 2) ∨ p = (8, 3) := by
  obtain ⟨i, j⟩ := p
  unfold Lit Image.Inside tiedImage
  simp only [Prod.mk.injEq]
  constructor
  · rintro ⟨_, h⟩
    split at h
    · split at h
      · omega
      · split at h
        · omega
        · norm_num at h
    · norm_num at h
  · rintro (⟨rfl, rfl⟩ | ⟨rfl, rfl⟩ | ⟨rfl, rfl⟩ | ⟨rfl, rfl⟩) <;> norm_num

theorem tied_spots : BenchSpots tiedJob (fun p => p.1 / 6) {0, 1} := by
  refine ⟨by decide, by decide, by unfold tiedJob; norm_num, ?_, by decide⟩
  apply C132_distances
  · intro p hp
    rcases (tied_lit p).1 hp with rfl | rfl | rfl | rfl <;> decide
  · intro s hs
    simp only [Finset.mem_insert, Finset.mem_singleton] at hs
    rcases hs with rfl | rfl
    · exact ⟨(2, 2), (tied_lit _).2 (by simp), by decide⟩
    · exact ⟨(8, 2), (tied_lit _).2 (by simp), by decide⟩
  · intro p hp
    rcases (tied_lit p).1 hp with rfl | rfl | rfl | rfl <;> decide
  · intro p q hp hq h
    rcases (tied_lit p).1 hp with rfl | rfl | rfl | rfl <;> rcases (tied_lit q).1 hq with rfl | rfl | rfl | rfl <;> revert h <;> decide
  · intro p q hp hq h
    rcases (tied_lit p).1 hp with rfl | rfl | rfl | rfl <;> rcases (tied_lit q).1 hq with rfl | rfl | rfl | rfl <;> revert h <;> decide

-- both LEDs are found once, whichever of equally bright pixels the search prefers; the first one in the order of the rows:
example (maxLoc : Image ℚ → ℕ × ℕ) (hmax : IsMaxLoc maxLoc) : ∃ peak, BenchPhoto maxLoc tiedJob (fun p => p.1 / 6) {0, 1} peak ∧
    (peak 0 = (2, 2) ∨ peak 0 = (2, 3)) ∧ (peak 1 = (8, 2) ∨ peak 1 = (8, 3)) := by
  obtain ⟨peak, h1, h2⟩ := C134_ties maxLoc hmax tiedJob _ _ tied_spots
  refine ⟨peak, h1, ?_, ?_⟩
  · obtain ⟨a, b⟩ := h2 0 (by simp)
    rcases (tied_lit _).1 a.1 with h | h | h | h <;> rw [h] at b <;> first | exact .inl h | exact .inr h | exact absurd b (by decide)
  · obtain ⟨a, b⟩ := h2 1 (by simp)
    rcases (tied_lit _).1 a.1 with h | h | h | h <;> rw [h] at b <;> first | exact .inl h | exact .inr h | exact absurd b (by decide)

example : tiedJob.table firstMaxLoc = [(0, 8, 2), (1, 2, 2)] := by decide +kernel

end Ledsa
