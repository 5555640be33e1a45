import Verif.Props.ExtcoTable
/-!
C138 for files with different times: the table shows every coefficient at its time, and nothing at times without photo.
-/
namespace Ledsa

/-- The photo of a file that was taken at a time. -/
def PhotoAt (time : ℕ → ℤ) (N : ℕ) (x : ℤ) : Option ℕ := (List.range N).find? fun i => time i = x

theorem PhotoAt_some {time : ℕ → ℤ} {N : ℕ} (hinj : ∀ i < N, ∀ j < i, time j ≠ time i) {i : ℕ} (hi : i < N) : PhotoAt time N (time i) = some i := by
  unfold PhotoAt
  cases h : (List.range N).find? fun k => time k = time i with
  | none =>
    rw [List.find?_eq_none] at h
    exact absurd (decide_eq_true rfl) (h i (List.mem_range.2 hi))
  | some k =>
    have h1 := List.find?_some h
    have h2 := List.mem_range.1 (List.mem_of_find?_eq_some h)
    simp only [decide_eq_true_eq] at h1
    rcases lt_trichotomy k i with hk | hk | hk
    · exact absurd h1 (hinj i hi k hk)
    · rw [hk]
    · exact absurd h1.symm (hinj k h2 i hk)

theorem PhotoAt_none {time : ℕ → ℤ} {N : ℕ} {x : ℤ} (h : ∀ i < N, time i ≠ x) : PhotoAt time N x = none := by
  unfold PhotoAt
  rw [List.find?_eq_none]
  intro i hi
  simpa using h i (List.mem_range.1 hi)

theorem mem_firstSeen : ∀ (l : List ℤ) (x : ℤ), x ∈ firstSeen l ↔ x ∈ l
  | [], x => by simp [firstSeen]
  | t :: l, x => by
    rw [firstSeen, List.mem_cons, List.mem_filter, mem_firstSeen l x, List.mem_cons]
    by_cases h : x = t <;> simp [h]

theorem firstSeen_nodup : ∀ l : List ℤ, (firstSeen l).Nodup
  | [] => by simp [firstSeen]
  | t :: l => by
    rw [firstSeen, List.nodup_cons]
    exact ⟨by simp, (firstSeen_nodup l).filter _⟩

theorem firstSeen_of_nodup : ∀ {l : List ℤ}, l.Nodup → firstSeen l = l
  | [], _ => rfl
  | t :: l, h => by
    rw [List.nodup_cons] at h
    rw [firstSeen, firstSeen_of_nodup h.2, List.filter_eq_self.2]
    intro x hx
    simp only [ne_eq, decide_eq_true_eq]
    rintro rfl
    exact h.1 hx

theorem firstSeen_append : ∀ l m : List ℤ, firstSeen (l ++ m) = firstSeen l ++ (firstSeen m).filter (· ∉ l)
  | [], m => by simp [firstSeen]
  | t :: l, m => by
    rw [List.cons_append, firstSeen, firstSeen, firstSeen_append l m, List.filter_append, List.filter_filter, List.cons_append]
    congr 2
    apply List.filter_congr
    intro x _
    simp only [List.mem_cons, not_or, Bool.decide_and]

theorem firstSeen_append_sub {l m : List ℤ} (h : ∀ x ∈ m, x ∈ l) : firstSeen (l ++ m) = firstSeen l := by
  rw [firstSeen_append, List.filter_eq_nil_iff.2, List.append_nil]
  intro x hx
  simpa using h x ((mem_firstSeen m x).1 hx)

theorem firstOfEachTime_id {α : Type} : ∀ (l : List (ℤ × α)) (seen : List ℤ), (l.map (·.1)).Nodup → (∀ r ∈ l, r.1 ∉ seen) → firstOfEachTime l seen = l
  | [], _, _, _ => rfl
  | r :: l, seen, hn, hs => by
    rw [List.map_cons, List.nodup_cons] at hn
    rw [firstOfEachTime, if_neg (hs r List.mem_cons_self), firstOfEachTime_id l _ hn.2]
    intro q hq
    rw [List.mem_cons, not_or]
    refine ⟨fun e => hn.1 ?_, hs q (List.mem_cons_of_mem _ hq)⟩
    rw [← e]
    exact List.mem_map_of_mem hq

theorem dropRepeated_nodup {K : Type} (t : ExtTable K) (hn : t.index.Nodup) (hc : ∀ c ∈ t.cols, c.2.length = t.index.length) : t.dropRepeated = t := by
  unfold ExtTable.dropRepeated
  rw [firstOfEachTime_id _ _ (by simpa [List.zipIdx_map_fst] using hn) (by simp)]
  obtain ⟨index, cols⟩ := t
  simp only [List.zipIdx_map_fst, ExtTable.mk.injEq, true_and]
  simp only at hc
  conv_rhs => rw [← List.map_id cols]
  apply List.map_congr_left
  intro c hcm
  refine Prod.ext rfl ?_
  simp only [id]
  apply List.ext_getElem
  · simp [hc c hcm]
  · intro i h1 h2
    simp [h2]

/-! ### Files with different times -/

/-- The file of a channel and an LED array with its own photos. -/
def ownFile {K : Type} (dir solver property : Str) (N : ℕ × ℕ → ℕ) (n : ℕ) (time : ℕ × ℕ → ℕ → ℤ) (coef : ℕ → ℕ → ℕ → ℕ → K) (p : ℕ × ℕ) :
    Str × ℕ × List (ℤ × List K) := writtenFile dir solver property (N p) n (time p) coef p

/-- All times of the photos in the order of the files. -/
def allTimes (pairs : List (ℕ × ℕ)) (N : ℕ × ℕ → ℕ) (time : ℕ × ℕ → ℕ → ℤ) : List ℤ :=
  firstSeen (pairs.flatMap fun p => (List.range (N p)).map (time p))

/-- The table that results from files with different times. -/
def unionTable {K : Type} (pairs : List (ℕ × ℕ)) (N : ℕ × ℕ → ℕ) (n : ℕ) (time : ℕ × ℕ → ℕ → ℤ) (coef : ℕ → ℕ → ℕ → ℕ → K) : ExtTable K :=
  ⟨allTimes pairs N time, (sortedKeys pairs n).map fun k => (k, (allTimes pairs N time).map fun x =>
    (PhotoAt (time (k.1.toNat, k.2.1.toNat)) (N (k.1.toNat, k.2.1.toNat)) x).map fun (i : ℕ) => coef k.1.toNat k.2.1.toNat i k.2.2)⟩

theorem times_nodup {time : ℕ → ℤ} {N : ℕ} (h : ∀ i < N, ∀ j < i, time j ≠ time i) : ((List.range N).map time).Nodup := by
  rw [List.nodup_map_iff_inj_on List.nodup_range]
  intro i hi j hj e
  rw [List.mem_range] at hi hj
  rcases lt_trichotomy i j with hk | hk | hk
  · exact absurd e (h j hj i hk)
  · exact hk
  · exact absurd e.symm (h i hi j hk)

theorem allExtcos_union {K : Type} (dir solver property : Str) (hp : PlainPath dir solver property) (pairs : List (ℕ × ℕ)) (hne : pairs ≠ [])
    (N : ℕ × ℕ → ℕ) (n : ℕ) (time : ℕ × ℕ → ℕ → ℤ) (hinj : ∀ p ∈ pairs, ∀ i < N p, ∀ j < i, time p j ≠ time p i) (coef : ℕ → ℕ → ℕ → ℕ → K) :
    allExtcos (pairs.map (ownFile dir solver property N n time coef)) = .ok (unionTable pairs N n time coef) := by
  set F : ℕ × ℕ → CoeffTable K := fun p => ⟨(p.1 : ℤ), (p.2 : ℤ), n, (ownFile dir solver property N n time coef p).2.2⟩ with hF
  have h1 : (pairs.map (ownFile dir solver property N n time coef)).mapM (fun f => readCoeffTable f.1 f.2) = .ok (pairs.map F) := by
    rw [List.mapM_map]
    apply mapM_ok
    intro p _
    obtain ⟨c1, c2⟩ := C82_file_partial dir solver property p.1 p.2 hp.solver hp.property hp.channel hp.array
    simp only [readCoeffTable, ownFile, writtenFile, Function.comp, c1, c2, hF]
  have ht : ∀ p, (F p).times = (List.range (N p)).map (time p) := by
    intro p
    simp only [hF, CoeffTable.times, ownFile, writtenFile, List.map_map]
    rfl
  have hr : ∀ p ∈ pairs, ∀ l < n, ∀ index : List ℤ, (F p).reindexed index l = index.map fun x =>
      (PhotoAt (time p) (N p) x).map fun (i : ℕ) => coef p.1 p.2 i l := by
    intro p _ l hl index
    unfold CoeffTable.reindexed
    apply List.map_congr_left
    intro x _
    simp only [hF, ownFile, writtenFile, List.find?_map, PhotoAt, Function.comp_def]
    cases (List.range (N p)).find? fun i => decide (time p i = x) with
    | none => rfl
    | some i => simp [hl]
  have hcol : ∀ p ∈ pairs, ∀ l < n, (F p).column l = (F p).reindexed (F p).times l := by
    intro p hpm l hl
    rw [hr p hpm l hl, ht, List.map_map]
    simp only [hF, CoeffTable.column, ownFile, writtenFile, List.map_map]
    apply List.map_congr_left
    intro i hi
    simp only [Function.comp, PhotoAt_some (hinj p hpm) (List.mem_range.1 hi)]
    simp [hl]
  have h2 : concatTables (pairs.map F) = .ok ⟨allTimes pairs N time, (colKeys pairs n).map fun k =>
      (k, (allTimes pairs N time).map fun x =>
        (PhotoAt (time (k.1.toNat, k.2.1.toNat)) (N (k.1.toNat, k.2.1.toNat)) x).map fun (i : ℕ) => coef k.1.toNat k.2.1.toNat i k.2.2)⟩ := by
    have hcols : ∀ index : List ℤ, ((pairs.map F).flatMap fun g => (List.range g.layers).map fun (l : ℕ) => ((g.channel, g.array, l), g.reindexed index l)) =
        (colKeys pairs n).map fun k => (k, index.map fun x =>
          (PhotoAt (time (k.1.toNat, k.2.1.toNat)) (N (k.1.toNat, k.2.1.toNat)) x).map fun (i : ℕ) => coef k.1.toNat k.2.1.toNat i k.2.2) := by
      intro index
      unfold colKeys
      rw [List.flatMap_map, List.map_flatMap]
      apply List.flatMap_congr
      intro p hpm
      rw [List.map_map]
      apply List.map_congr_left
      intro l hl
      simp only [Function.comp, Int.toNat_natCast, hr p hpm l (List.mem_range.1 hl)]
      rfl
    obtain ⟨p0, ps, rfl⟩ := List.exists_cons_of_ne_nil hne
    rw [List.map_cons]
    unfold concatTables
    simp only
    rw [← List.map_cons (f := F)]
    by_cases hall : ∀ g ∈ (p0 :: ps).map F, g.times = (F p0).times
    · rw [if_pos hall]
      have hi : allTimes (p0 :: ps) N time = (F p0).times := by
        unfold allTimes
        rw [List.flatMap_cons, firstSeen_append_sub, ht, firstSeen_of_nodup (times_nodup (hinj p0 List.mem_cons_self))]
        intro x hx
        rw [List.mem_flatMap] at hx
        obtain ⟨p, hpm, hx⟩ := hx
        have := hall (F p) (List.mem_map_of_mem (List.mem_cons_of_mem _ hpm))
        rwa [← ht p, this, ht] at hx
      rw [hi, ← hcols]
      congr 2
      apply List.flatMap_congr
      intro g hg
      obtain ⟨p, hpm, rfl⟩ := List.mem_map.1 hg
      apply List.map_congr_left
      intro l hl
      rw [hcol p hpm l (List.mem_range.1 hl), hall (F p) hg]
    · rw [if_neg hall, if_pos]
      · have hi : firstSeen (((p0 :: ps).map F).flatMap CoeffTable.times) = allTimes (p0 :: ps) N time := by
          unfold allTimes
          rw [List.flatMap_map]
          congr 1
          apply List.flatMap_congr
          intro p _
          exact ht p
        rw [hi, hcols]
      · intro g hg
        obtain ⟨p, hpm, rfl⟩ := List.mem_map.1 hg
        rw [ht]
        exact times_nodup (hinj p hpm)
  unfold allExtcos
  rw [h1]
  simp only [h2]
  congr 1
  have e : ExtTable.sortCols (⟨allTimes pairs N time, (colKeys pairs n).map fun k =>
      (k, (allTimes pairs N time).map fun x =>
        (PhotoAt (time (k.1.toNat, k.2.1.toNat)) (N (k.1.toNat, k.2.1.toNat)) x).map fun (i : ℕ) => coef k.1.toNat k.2.1.toNat i k.2.2)⟩ : ExtTable K) =
      unionTable pairs N n time coef := by
    unfold ExtTable.sortCols unionTable
    congr 1
    rw [← List.map_insertionSort (r := colLe) (s := fun a b : (ℤ × ℤ × ℕ) × List (Option K) => colLe a.1 b.1) _ _ (fun _ _ _ _ => Iff.rfl)]
    rfl
  rw [e]
  apply dropRepeated_nodup
  · exact firstSeen_nodup _
  · intro c hc
    obtain ⟨k, _, rfl⟩ := List.mem_map.1 hc
    simp [unionTable]

/-- **C138, files with different photos.** If the files were written for different photos, the table has one row for every time of a photo in one of the
files; the coefficients of an LED array are found at their times, and the other times are marked as missing. Missing: photos within one second. -/
theorem C138_union_partial {K : Type} (dir solver property : Str) (hp : PlainPath dir solver property) (pairs : List (ℕ × ℕ)) (hnd : pairs.Nodup)
    (N : ℕ × ℕ → ℕ) (n : ℕ) (hn : 0 < n) (time : ℕ × ℕ → ℕ → ℤ) (hinj : ∀ p ∈ pairs, ∀ i < N p, ∀ j < i, time p j ≠ time p i)
    (coef : ℕ → ℕ → ℕ → ℕ → K) (c a : ℕ) (hm : (c, a) ∈ pairs) :
    ∃ (t : ExtTable K) (g : Grid ℤ ℕ K), allExtcos (pairs.map (ownFile dir solver property N n time coef)) = .ok t ∧ t.atArray id c a = .ok g ∧
      g.index.Nodup ∧ (∀ x, x ∈ g.index ↔ ∃ p ∈ pairs, ∃ i < N p, time p i = x) ∧ g.cols.map (·.1) = List.range n ∧
      ∀ (l : ℕ) (v : List (Option K)), (l, v) ∈ g.cols → v.length = g.index.length ∧ ∀ (j : ℕ) (x : ℤ), g.index[j]? = some x →
        (∀ i < N (c, a), time (c, a) i = x → v[j]? = some (some (coef c a i l))) ∧ ((∀ i < N (c, a), time (c, a) i ≠ x) → v[j]? = some none) := by
  have hg : (unionTable pairs N n time coef).atArray id c a = .ok ⟨allTimes pairs N time, (List.range n).map fun (l : ℕ) =>
      (l, (allTimes pairs N time).map fun x => (PhotoAt (time (c, a)) (N (c, a)) x).map fun (i : ℕ) => coef c a i l)⟩ := by
    unfold ExtTable.atArray unionTable
    simp only [filter_map_key, array_keys hnd n c a hm, List.map_map]
    obtain ⟨m, rfl⟩ := Nat.exists_eq_succ_of_ne_zero hn.ne'
    rw [List.range_succ_eq_map]
    simp only [List.map_cons, List.map_map, Function.comp_def, Int.toNat_natCast, id]
  refine ⟨_, _, allExtcos_union dir solver property hp pairs (List.ne_nil_of_mem hm) N n time hinj coef, hg, firstSeen_nodup _, ?_, ?_, ?_⟩
  · intro x
    simp only [allTimes, mem_firstSeen, List.mem_flatMap, List.mem_map, List.mem_range]
  · simp [List.map_map, Function.comp_def]
  · intro l v hlv
    obtain ⟨l', _, e⟩ := List.mem_map.1 hlv
    obtain ⟨rfl, rfl⟩ := Prod.mk.injEq .. ▸ e
    refine ⟨by simp, ?_⟩
    intro j x hj
    simp only at hj
    constructor
    · intro i hi e
      rw [List.getElem?_map, hj, ← e]
      simp [PhotoAt_some (hinj (c, a) hm) hi]
    · intro h
      rw [List.getElem?_map, hj]
      simp [PhotoAt_none h]

/-- Refuted: if the files were written for different photos and one of them has two photos within a second, the coefficients of no LED array can be
read. -/
theorem C138_union_false {K : Type} (dir solver property : Str) (hp : PlainPath dir solver property) (pairs : List (ℕ × ℕ)) (N : ℕ × ℕ → ℕ) (n : ℕ)
    (time : ℕ × ℕ → ℕ → ℤ) (coef : ℕ → ℕ → ℕ → ℕ → K) (p q : ℕ × ℕ) (hpm : p ∈ pairs) (hqm : q ∈ pairs) (hd : N p ≠ N q)
    (r : ℕ × ℕ) (hrm : r ∈ pairs) (i j : ℕ) (hi : i < N r) (hj : j < i) (he : time r j = time r i) :
    allExtcos (pairs.map (ownFile dir solver property N n time coef)) = .error .valueError := by
  set F : ℕ × ℕ → CoeffTable K := fun p => ⟨(p.1 : ℤ), (p.2 : ℤ), n, (ownFile dir solver property N n time coef p).2.2⟩ with hF
  have h1 : (pairs.map (ownFile dir solver property N n time coef)).mapM (fun f => readCoeffTable f.1 f.2) = .ok (pairs.map F) := by
    rw [List.mapM_map]
    apply mapM_ok
    intro p _
    obtain ⟨c1, c2⟩ := C82_file_partial dir solver property p.1 p.2 hp.solver hp.property hp.channel hp.array
    simp only [readCoeffTable, ownFile, writtenFile, Function.comp, c1, c2, hF]
  have ht : ∀ p, (F p).times = (List.range (N p)).map (time p) := by
    intro p
    simp only [hF, CoeffTable.times, ownFile, writtenFile, List.map_map]
    rfl
  have h2 : concatTables (pairs.map F) = .error .valueError := by
    obtain ⟨p0, ps, rfl⟩ := List.exists_cons_of_ne_nil (List.ne_nil_of_mem hpm)
    rw [List.map_cons]
    unfold concatTables
    simp only
    rw [← List.map_cons (f := F), if_neg, if_neg]
    · intro h
      have := h (F r) (List.mem_map_of_mem hrm)
      rw [ht, List.nodup_map_iff_inj_on List.nodup_range] at this
      have := this j (List.mem_range.2 (hj.trans hi)) i (List.mem_range.2 hi) he
      omega
    · intro h
      have e1 := h (F p) (List.mem_map_of_mem hpm)
      have e2 := h (F q) (List.mem_map_of_mem hqm)
      rw [← e2, ht, ht] at e1
      have := congrArg List.length e1
      simp only [List.length_map, List.length_range] at this
      exact hd this
  unfold allExtcos
  rw [h1]
  simp only [h2]

/-- Without coefficient files the table cannot be read. -/
theorem C138_no_files {K : Type} : allExtcos ([] : List (Str × ℕ × List (ℤ × List K))) = .error .valueError := rfl

/-- **C138, time shift.** After a time shift all coefficients are shown at the shifted times: the same values, `d` seconds later. -/
theorem C138_shift {K : Type} (t : ExtTable K) (d : ℤ) (smooth : List (Option K) → List (Option K)) (c : ℤ) :
    (∀ x, (t.shift d).atTime smooth c (x + d) = t.atTime smooth c x) ∧
    (∀ a, (t.shift d).atArray smooth c a = (t.atArray smooth c a).map fun g => ⟨g.index.map (· + d), g.cols⟩) ∧
    ∀ l, (t.shift d).atLayer smooth c l = (t.atLayer smooth c l).map fun g => ⟨g.index.map (· + d), g.cols⟩ := by
  refine ⟨?_, ?_, ?_⟩
  · intro x
    unfold ExtTable.atTime ExtTable.shift
    simp only
    cases t.cols.filter fun c' => c'.1.1 = c with
    | nil => rfl
    | cons y ys =>
      simp only [List.findIdx?_map, Function.comp_def, add_left_inj]
  · intro a
    unfold ExtTable.atArray ExtTable.shift
    simp only
    cases t.cols.filter fun c' => c'.1.1 = c ∧ c'.1.2.1 = a with
    | nil => rfl
    | cons y ys => rfl
  · intro l
    unfold ExtTable.atLayer ExtTable.shift
    simp only
    cases t.cols.filter fun c' => c'.1.1 = c ∧ (c'.1.2.2 : ℤ) = l with
    | nil => rfl
    | cons y ys => rfl

/-- Two LED arrays, the second one analysed again with another photo. -/
example : ∃ t : ExtTable ℚ, allExtcos ([(0, 0), (0, 1)].map (ownFile "sim/analysis/extinction_coefficients/linear".toList "linear".toList "sum_col_val".toList
      (fun p => p.2 + 1) 1 (fun _ i => 7 - (i : ℤ)) (fun _ a i l => ((100 * a + 10 * i + l : ℕ) : ℚ)))) = .ok t ∧
    t.atArray id 0 0 = .ok ⟨[7, 6], [(0, [some 0, none])]⟩ ∧ t.atArray id 0 1 = .ok ⟨[7, 6], [(0, [some 100, some 110])]⟩ := by
  refine ⟨_, allExtcos_union _ _ _ ⟨Or.inl rfl, by simp, by decide, by decide⟩ _ (by simp) _ _ _ ?_ _, ?_, ?_⟩
  · intro p _ i _ j hj
    omega
  · decide +kernel
  · decide +kernel

end Ledsa
