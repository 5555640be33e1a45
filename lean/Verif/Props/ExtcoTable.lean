import Verif.Model.ExtcoTable
import Verif.Props.SimData
import Mathlib.Tactic.Linarith
import Mathlib.Tactic.NormNum
import Mathlib.Tactic.FieldSimp
/-!
C138: requests to the table of extinction coefficients return what the analysis has written.
C139: the heights shown for the layers.
-/
namespace Ledsa

/-! ### Specification -/

/-- The photos that are the first of their second. -/
def FirstPhotos (time : ℕ → ℤ) (N : ℕ) : List ℕ := (List.range N).filter fun i => ∀ j < i, time j ≠ time i

/-- The file that the analysis writes for a channel and an LED array: path and content for `N` photos and `n` layers. -/
def writtenFile {K : Type} (dir solver property : Str) (N n : ℕ) (time : ℕ → ℤ) (coef : ℕ → ℕ → ℕ → ℕ → K) (p : ℕ × ℕ) :
    Str × ℕ × List (ℤ × List K) :=
  (dir ++ '/' :: coeffName solver property p.1 p.2, n, (List.range N).map fun (i : ℕ) => (time i, (List.range n).map fun (l : ℕ) => coef p.1 p.2 i l))

/-- A path of a simulation directory with known solver and reference property, in which file names can be told from the directory. -/
structure PlainPath (dir solver property : Str) : Prop where
  solver : solver = "linear".toList ∨ solver = "nonlinear".toList
  property : property ∈ ["sum_col_val".toList, "mean_col_val".toList, "max_col_val".toList, "sum_col_val_cc".toList]
  channel : ¬ "channel_".toList <:+: dir
  array : ¬ "array_".toList <:+: dir

/-! ### Order of the columns -/

instance : Std.Total colLe := ⟨fun a b => by unfold colLe; omega⟩

instance : IsTrans (ℤ × ℤ × ℕ) colLe := ⟨fun a b c h1 h2 => by unfold colLe at *; omega⟩

theorem colLe_antisymm {a b : ℤ × ℤ × ℕ} (h1 : colLe a b) (h2 : colLe b a) : a = b := by
  obtain ⟨a1, a2, a3⟩ := a
  obtain ⟨b1, b2, b3⟩ := b
  unfold colLe at h1 h2
  simp only [Prod.mk.injEq]
  simp only at h1 h2
  omega

instance : Std.Antisymm colLe := ⟨fun _ _ h1 h2 => colLe_antisymm h1 h2⟩

/-- All column labels of the files. -/
def colKeys (pairs : List (ℕ × ℕ)) (n : ℕ) : List (ℤ × ℤ × ℕ) :=
  pairs.flatMap fun p => (List.range n).map fun (l : ℕ) => ((p.1 : ℤ), (p.2 : ℤ), l)

theorem mem_colKeys (pairs : List (ℕ × ℕ)) (n : ℕ) (k : ℤ × ℤ × ℕ) :
    k ∈ colKeys pairs n ↔ ∃ c a l : ℕ, (c, a) ∈ pairs ∧ l < n ∧ k = ((c : ℤ), (a : ℤ), l) := by
  simp only [colKeys, List.mem_flatMap, List.mem_map, List.mem_range, Prod.exists]
  constructor
  · rintro ⟨c, a, h, l, hl, rfl⟩
    exact ⟨c, a, l, h, hl, rfl⟩
  · rintro ⟨c, a, l, h, hl, rfl⟩
    exact ⟨c, a, h, l, hl, rfl⟩

theorem colKeys_nodup {pairs : List (ℕ × ℕ)} (h : pairs.Nodup) (n : ℕ) : (colKeys pairs n).Nodup := by
  unfold colKeys
  rw [List.nodup_flatMap]
  refine ⟨fun p _ => ?_, ?_⟩
  · refine List.Nodup.map ?_ List.nodup_range
    intro x y hxy
    simpa using hxy
  · refine h.imp ?_
    intro p q hpq x hx hy
    rw [List.mem_map] at hx hy
    obtain ⟨l, _, rfl⟩ := hx
    obtain ⟨l', _, e⟩ := hy
    apply hpq
    simp only [Prod.mk.injEq, Nat.cast_inj] at e
    exact Prod.ext e.1.symm e.2.1.symm

/-- The labels in the order of the table. -/
def sortedKeys (pairs : List (ℕ × ℕ)) (n : ℕ) : List (ℤ × ℤ × ℕ) := (colKeys pairs n).insertionSort colLe

theorem mem_sortedKeys (pairs : List (ℕ × ℕ)) (n : ℕ) (k : ℤ × ℤ × ℕ) :
    k ∈ sortedKeys pairs n ↔ ∃ c a l : ℕ, (c, a) ∈ pairs ∧ l < n ∧ k = ((c : ℤ), (a : ℤ), l) := by
  rw [sortedKeys, List.mem_insertionSort, mem_colKeys]

theorem sortedKeys_nodup {pairs : List (ℕ × ℕ)} (h : pairs.Nodup) (n : ℕ) : (sortedKeys pairs n).Nodup :=
  (List.perm_insertionSort _ _).nodup_iff.2 (colKeys_nodup h n)

/-- A part of the labels is determined by its members. -/
theorem sortedKeys_filter {pairs : List (ℕ × ℕ)} (h : pairs.Nodup) (n : ℕ) (P : ℤ × ℤ × ℕ → Bool) (L : List (ℤ × ℤ × ℕ))
    (hL : L.Pairwise fun a b => colLe a b ∧ a ≠ b) (hm : ∀ k, k ∈ L ↔ k ∈ sortedKeys pairs n ∧ P k = true) :
    (sortedKeys pairs n).filter P = L := by
  have hn : L.Nodup := hL.imp fun h => h.2
  have hp : ((sortedKeys pairs n).filter P).Perm L := by
    rw [List.perm_ext_iff_of_nodup ((sortedKeys_nodup h n).filter P) hn]
    intro k
    rw [List.mem_filter, hm]
  exact hp.eq_of_pairwise' ((List.pairwise_insertionSort _ _).filter P) (hL.imp fun h => h.1)

/-- LED arrays of a channel in ascending order. -/
def arraysOfChannel (pairs : List (ℕ × ℕ)) (c : ℕ) : List ℕ := ((pairs.filter fun p => p.1 = c).map (·.2)).insertionSort (· ≤ ·)

theorem mem_arraysOfChannel (pairs : List (ℕ × ℕ)) (c a : ℕ) : a ∈ arraysOfChannel pairs c ↔ (c, a) ∈ pairs := by
  simp only [arraysOfChannel, List.mem_insertionSort, List.mem_map, List.mem_filter, decide_eq_true_eq, Prod.exists]
  constructor
  · rintro ⟨c', a', ⟨h, rfl⟩, rfl⟩
    exact h
  · exact fun h => ⟨c, a, ⟨h, rfl⟩, rfl⟩

theorem arraysOfChannel_lt {pairs : List (ℕ × ℕ)} (h : pairs.Nodup) (c : ℕ) : (arraysOfChannel pairs c).Pairwise (· < ·) := by
  have h1 : (arraysOfChannel pairs c).Pairwise (· ≤ ·) := List.pairwise_insertionSort _ _
  have h2 : (arraysOfChannel pairs c).Nodup := by
    refine (List.perm_insertionSort _ _).nodup_iff.2 ?_
    refine List.Nodup.map_on ?_ (h.filter _)
    rintro ⟨c1, a1⟩ h1 ⟨c2, a2⟩ h2 e
    simp only [List.mem_filter, decide_eq_true_eq] at h1 h2
    simp only at e
    rw [Prod.mk.injEq]
    exact ⟨h1.2.trans h2.2.symm, e⟩
  exact (h1.and h2).imp fun h => lt_of_le_of_ne h.1 h.2

/-! ### The table after reading -/

theorem firstOfEachTime_keep (time : ℕ → ℤ) : ∀ (l : List ℕ) (seen : List ℤ), l.Pairwise (· < ·) →
    (firstOfEachTime (l.map fun (i : ℕ) => (time i, i)) seen) =
      (l.filter fun i => time i ∉ seen ∧ ∀ j ∈ l, j < i → time j ≠ time i).map fun (i : ℕ) => (time i, i) := by
  intro l
  induction l with
  | nil => intro seen _; rfl
  | cons x l ih =>
    intro seen hl
    have hx : ∀ y ∈ l, x < y := (List.pairwise_cons.1 hl).1
    have hl' := (List.pairwise_cons.1 hl).2
    rw [List.map_cons, firstOfEachTime]
    by_cases hs : time x ∈ seen
    · rw [if_pos hs, ih seen hl', List.filter_cons_of_neg (by simp [hs])]
      congr 1
      apply List.filter_congr
      intro i hi
      rw [decide_eq_decide]
      constructor
      · rintro ⟨h1, h2⟩
        refine ⟨h1, fun j hj hji => ?_⟩
        rcases List.mem_cons.1 hj with rfl | hj
        · exact fun e => h1 (e ▸ hs)
        · exact h2 j hj hji
      · rintro ⟨h1, h2⟩
        exact ⟨h1, fun j hj => h2 j (List.mem_cons_of_mem _ hj)⟩
    · rw [if_neg hs, ih _ hl', List.filter_cons_of_pos]
      · rw [List.map_cons]
        congr 2
        apply List.filter_congr
        intro i hi
        rw [decide_eq_decide]
        constructor
        · rintro ⟨h1, h2⟩
          rw [List.mem_cons, not_or] at h1
          refine ⟨h1.2, fun j hj hji => ?_⟩
          rcases List.mem_cons.1 hj with rfl | hj
          · exact fun e => h1.1 e.symm
          · exact h2 j hj hji
        · rintro ⟨h1, h2⟩
          refine ⟨?_, fun j hj => h2 j (List.mem_cons_of_mem _ hj)⟩
          rw [List.mem_cons, not_or]
          exact ⟨fun e => h2 x (List.mem_cons_self) (hx i hi) e.symm, h1⟩
      · simp only [decide_eq_true_eq]
        refine ⟨hs, fun j hj hjx => ?_⟩
        rcases List.mem_cons.1 hj with rfl | hj
        · exact absurd hjx (lt_irrefl _)
        · exact absurd (hx j hj) (by omega)

theorem kept_times (time : ℕ → ℤ) (N : ℕ) :
    firstOfEachTime ((List.range N).map time).zipIdx [] = (FirstPhotos time N).map fun (i : ℕ) => (time i, i) := by
  have e : ((List.range N).map time).zipIdx = (List.range N).map fun (i : ℕ) => (time i, i) := by
    apply List.ext_getElem
    · simp
    · intro i h1 h2
      simp
  rw [e, firstOfEachTime_keep time _ _ List.pairwise_lt_range]
  congr 1
  unfold FirstPhotos
  apply List.filter_congr
  intro i hi
  rw [decide_eq_decide]
  rw [List.mem_range] at hi
  constructor
  · rintro ⟨_, h⟩ j hj
    exact h j (List.mem_range.2 (hj.trans hi)) hj
  · intro h
    exact ⟨by simp, fun j _ hj => h j hj⟩

/-- The table that results from the files of the analysis. -/
def writtenTable {K : Type} (pairs : List (ℕ × ℕ)) (N n : ℕ) (time : ℕ → ℤ) (coef : ℕ → ℕ → ℕ → ℕ → K) : ExtTable K :=
  ⟨(FirstPhotos time N).map time,
    (sortedKeys pairs n).map fun k => (k, (FirstPhotos time N).map fun (i : ℕ) => some (coef k.1.toNat k.2.1.toNat i k.2.2))⟩

theorem allExtcos_written {K : Type} (dir solver property : Str) (hp : PlainPath dir solver property) (pairs : List (ℕ × ℕ)) (hne : pairs ≠ []) (N n : ℕ)
    (time : ℕ → ℤ) (coef : ℕ → ℕ → ℕ → ℕ → K) :
    allExtcos (pairs.map (writtenFile dir solver property N n time coef)) = .ok (writtenTable pairs N n time coef) := by
  have h1 : (pairs.map (writtenFile dir solver property N n time coef)).mapM (fun f => readCoeffTable f.1 f.2) =
      .ok (pairs.map fun p => (⟨(p.1 : ℤ), (p.2 : ℤ), n, (writtenFile dir solver property N n time coef p).2.2⟩ : CoeffTable K)) := by
    rw [List.mapM_map]
    apply mapM_ok
    intro p _
    obtain ⟨c1, c2⟩ := C82_file_partial dir solver property p.1 p.2 hp.solver hp.property hp.channel hp.array
    simp only [readCoeffTable, writtenFile, Function.comp, c1, c2]
  unfold allExtcos
  rw [h1]
  obtain ⟨p0, ps, rfl⟩ := List.exists_cons_of_ne_nil hne
  have ht : ∀ p : ℕ × ℕ, (⟨(p.1 : ℤ), (p.2 : ℤ), n, (writtenFile dir solver property N n time coef p).2.2⟩ : CoeffTable K).times =
      (List.range N).map time := by
    intro p
    simp only [CoeffTable.times, writtenFile, List.map_map]
    rfl
  have h2 : concatTables ((p0 :: ps).map fun p => (⟨(p.1 : ℤ), (p.2 : ℤ), n, (writtenFile dir solver property N n time coef p).2.2⟩ : CoeffTable K)) =
      .ok ⟨(List.range N).map time, (colKeys (p0 :: ps) n).map fun k =>
        (k, (List.range N).map fun (i : ℕ) => if k.2.2 < n then some (coef k.1.toNat k.2.1.toNat i k.2.2) else none)⟩ := by
    rw [List.map_cons]
    unfold concatTables
    simp only
    rw [if_pos]
    · rw [ht]
      congr 2
      unfold colKeys
      rw [← List.map_cons (f := fun p : ℕ × ℕ => (⟨(p.1 : ℤ), (p.2 : ℤ), n, (writtenFile dir solver property N n time coef p).2.2⟩ : CoeffTable K)),
        List.flatMap_map, List.map_flatMap]
      apply List.flatMap_congr
      intro p _
      rw [List.map_map]
      apply List.map_congr_left
      intro l hl
      rw [List.mem_range] at hl
      simp only [Function.comp, CoeffTable.column, writtenFile, List.map_map, Int.toNat_natCast, if_pos hl]
      congr 1
      apply List.map_congr_left
      intro i _
      simp [hl]
    · intro g hg
      rw [← List.map_cons (f := fun p : ℕ × ℕ => (⟨(p.1 : ℤ), (p.2 : ℤ), n, (writtenFile dir solver property N n time coef p).2.2⟩ : CoeffTable K)),
        List.mem_map] at hg
      obtain ⟨p, _, rfl⟩ := hg
      rw [ht, ht]
  simp only [h2]
  congr 1
  unfold ExtTable.dropRepeated ExtTable.sortCols writtenTable
  simp only [kept_times]
  congr 1
  · rw [List.map_map]; rfl
  · rw [← List.map_insertionSort (r := colLe) (s := fun a b : (ℤ × ℤ × ℕ) × List (Option K) => colLe a.1 b.1) _ _ (fun _ _ _ _ => Iff.rfl)]
    rw [List.map_map]
    apply List.map_congr_left
    intro k hk
    obtain ⟨c, a, l, _, hl, rfl⟩ := (mem_sortedKeys _ _ _).1 hk
    simp only [Function.comp, Int.toNat_natCast, List.map_map]
    congr 1
    apply List.map_congr_left
    intro i hi
    have hi' : i < N := by
      have := (List.mem_filter.1 hi).1
      exact List.mem_range.1 this
    simp [hi', hl]

/-! ### Requests -/

theorem filter_map_key {α β : Type} (f : α → β) (P : β → Bool) (l : List α) : (l.map f).filter P = (l.filter fun a => P (f a)).map f := by
  rw [List.filter_map]; rfl

theorem array_keys {pairs : List (ℕ × ℕ)} (h : pairs.Nodup) (n c a : ℕ) (hm : (c, a) ∈ pairs) :
    ((sortedKeys pairs n).filter fun k => k.1 = (c : ℤ) ∧ k.2.1 = (a : ℤ)) = (List.range n).map fun (l : ℕ) => ((c : ℤ), (a : ℤ), l) := by
  apply sortedKeys_filter h
  · rw [List.pairwise_map]
    refine List.pairwise_lt_range.imp ?_
    intro x y hxy
    refine ⟨?_, by simp; omega⟩
    unfold colLe
    simp only [lt_irrefl, false_or, true_and]
    omega
  · intro k
    simp only [List.mem_map, List.mem_range, mem_sortedKeys, decide_eq_true_eq]
    constructor
    · rintro ⟨l, hl, rfl⟩
      exact ⟨⟨c, a, l, hm, hl, rfl⟩, rfl, rfl⟩
    · rintro ⟨⟨c', a', l, _, hl, rfl⟩, h1, h2⟩
      simp only [Nat.cast_inj] at h1 h2
      subst h1 h2
      exact ⟨l, hl, rfl⟩

theorem layer_keys {pairs : List (ℕ × ℕ)} (h : pairs.Nodup) (n c l : ℕ) (hl : l < n) :
    ((sortedKeys pairs n).filter fun k => k.1 = (c : ℤ) ∧ (k.2.2 : ℤ) = (l : ℤ)) =
      (arraysOfChannel pairs c).map fun (a : ℕ) => ((c : ℤ), (a : ℤ), l) := by
  apply sortedKeys_filter h
  · rw [List.pairwise_map]
    refine (arraysOfChannel_lt h c).imp ?_
    intro x y hxy
    refine ⟨?_, by simp; omega⟩
    unfold colLe
    simp only [lt_irrefl, false_or, true_and]
    omega
  · intro k
    simp only [List.mem_map, mem_arraysOfChannel, mem_sortedKeys, decide_eq_true_eq]
    constructor
    · rintro ⟨a, ha, rfl⟩
      exact ⟨⟨c, a, l, ha, hl, rfl⟩, rfl, rfl⟩
    · rintro ⟨⟨c', a', l', hm, hl', rfl⟩, h1, h2⟩
      simp only [Nat.cast_inj] at h1 h2
      subst h1 h2
      exact ⟨a', hm, rfl⟩

/-- **C138, LED array.** Coefficients of an analysed LED array: one row for each second with a photo, the layers in order, in each cell the
coefficient that the analysis has written for the first photo of this second (smoothed, if wanted, over the rows). -/
theorem C138_array {K : Type} (dir solver property : Str) (hp : PlainPath dir solver property) (pairs : List (ℕ × ℕ)) (hnd : pairs.Nodup) (N n : ℕ)
    (hn : 0 < n) (time : ℕ → ℤ) (coef : ℕ → ℕ → ℕ → ℕ → K) (smooth : List (Option K) → List (Option K)) (c a : ℕ) (hm : (c, a) ∈ pairs) :
    ∃ t : ExtTable K, allExtcos (pairs.map (writtenFile dir solver property N n time coef)) = .ok t ∧
      t.atArray smooth c a = .ok ⟨(FirstPhotos time N).map time,
        (List.range n).map fun (l : ℕ) => (l, smooth ((FirstPhotos time N).map fun (i : ℕ) => some (coef c a i l)))⟩ := by
  refine ⟨_, allExtcos_written dir solver property hp pairs (List.ne_nil_of_mem hm) N n time coef, ?_⟩
  unfold ExtTable.atArray writtenTable
  simp only [filter_map_key, array_keys hnd n c a hm, List.map_map]
  obtain ⟨m, rfl⟩ := Nat.exists_eq_succ_of_ne_zero hn.ne'
  rw [List.range_succ_eq_map]
  simp only [List.map_cons, List.map_map, Function.comp_def, Int.toNat_natCast]

/-- **C138, layer.** Coefficients of a layer: the analysed LED arrays of the channel in order. -/
theorem C138_layer {K : Type} (dir solver property : Str) (hp : PlainPath dir solver property) (pairs : List (ℕ × ℕ)) (hnd : pairs.Nodup) (N n : ℕ)
    (time : ℕ → ℤ) (coef : ℕ → ℕ → ℕ → ℕ → K) (smooth : List (Option K) → List (Option K)) (c a0 : ℕ) (hm : (c, a0) ∈ pairs) (l : ℕ) (hl : l < n) :
    ∃ (t : ExtTable K) (as : List ℕ), allExtcos (pairs.map (writtenFile dir solver property N n time coef)) = .ok t ∧ as.Pairwise (· < ·) ∧ (∀ a, a ∈ as ↔ (c, a) ∈ pairs) ∧
      t.atLayer smooth c l = .ok ⟨(FirstPhotos time N).map time,
        as.map fun (a : ℕ) => ((a : ℤ), smooth ((FirstPhotos time N).map fun (i : ℕ) => some (coef c a i l)))⟩ := by
  refine ⟨_, arraysOfChannel pairs c, allExtcos_written dir solver property hp pairs (List.ne_nil_of_mem hm) N n time coef, arraysOfChannel_lt hnd c,
    mem_arraysOfChannel pairs c, ?_⟩
  unfold ExtTable.atLayer writtenTable
  simp only [filter_map_key, layer_keys hnd n c l hl, List.map_map]
  obtain ⟨x, xs, hx⟩ := List.exists_cons_of_ne_nil (List.ne_nil_of_mem ((mem_arraysOfChannel pairs c a0).2 hm))
  rw [hx]
  simp only [List.map_cons, List.map_map, Function.comp_def, Int.toNat_natCast]

/-- **C138, height.** Asking for a height in the domain gives the coefficients of the layer that contains it. -/
theorem C138_height {K : Type} (t : ExtTable K) (smooth : List (Option K) → List (Option K)) (lo hi h : ℚ) (n k : ℕ) (hd : lo < hi) (hn : 0 < n) (c : ℤ)
    (hk : InLayer lo hi n k h) : t.atHeight smooth lo hi n c h = t.atLayer smooth c k := by
  have hlo : lo ≤ h := by
    have h1 := hk.1
    have : (0 : ℚ) ≤ (hi - lo) * k / n := by
      have : 0 ≤ hi - lo := by linarith
      positivity
    linarith
  unfold ExtTable.atHeight
  rw [(C59_inside_partial lo hi h hd n k hn hlo).2 hk]

theorem find_of_mem {α β : Type} [DecidableEq α] : ∀ {s : List (α × β)} {k : α} {v : β}, (s.map (·.1)).Nodup → (k, v) ∈ s →
    (s.find? fun e => e.1 = k) = some (k, v)
  | [], _, _, _, h => by cases h
  | x :: s, k, v, hn, h => by
    rw [List.map_cons, List.nodup_cons] at hn
    rcases List.mem_cons.1 h with rfl | h
    · rw [List.find?_cons_of_pos (by simp)]
    · have : x.1 ≠ k := by
        rintro rfl
        exact hn.1 (List.mem_map_of_mem (f := (·.1)) h)
      rw [List.find?_cons_of_neg (by simpa using this)]
      exact find_of_mem hn.2 h

theorem sort_dedup_eq {α : Type} [LinearOrder α] {l L : List α} (hL : L.Pairwise (· < ·)) (h : ∀ x, x ∈ l ↔ x ∈ L) :
    l.dedup.insertionSort (· ≤ ·) = L := by
  have hp : (l.dedup.insertionSort (· ≤ ·)).Perm L := by
    refine (List.perm_insertionSort _ _).trans ?_
    rw [List.perm_ext_iff_of_nodup (List.nodup_dedup l) (hL.imp ne_of_lt)]
    intro x
    rw [List.mem_dedup, h]
  exact hp.eq_of_pairwise' (List.pairwise_insertionSort _ _) (hL.imp le_of_lt)

/-- **C138, time.** Coefficients at a time: rows are the layers, columns the analysed LED arrays of the channel, in each cell the coefficient written
for the first photo `i` of this second; `j` is its row in the smoothed columns. -/
theorem C138_time {K : Type} (dir solver property : Str) (hp : PlainPath dir solver property) (pairs : List (ℕ × ℕ)) (hnd : pairs.Nodup) (N n : ℕ)
    (hn : 0 < n) (time : ℕ → ℤ) (coef : ℕ → ℕ → ℕ → ℕ → K) (smooth : List (Option K) → List (Option K)) (c a0 : ℕ) (hm : (c, a0) ∈ pairs)
    (i : ℕ) (j : ℕ) (hj : (FirstPhotos time N)[j]? = some i) :
    ∃ (t : ExtTable K) (as : List ℕ), allExtcos (pairs.map (writtenFile dir solver property N n time coef)) = .ok t ∧ as.Pairwise (· < ·) ∧ (∀ a, a ∈ as ↔ (c, a) ∈ pairs) ∧
      t.atTime smooth c (time i) = .ok ⟨List.range n, as.map fun (a : ℕ) => ((a : ℤ), (List.range n).map fun (l : ℕ) =>
        ((smooth ((FirstPhotos time N).map fun (i : ℕ) => some (coef c a i l)))[j]?).join)⟩ := by
  refine ⟨_, arraysOfChannel pairs c, allExtcos_written dir solver property hp pairs (List.ne_nil_of_mem hm) N n time coef, arraysOfChannel_lt hnd c,
    mem_arraysOfChannel pairs c, ?_⟩
  have hmem : ∀ k, k ∈ ((sortedKeys pairs n).filter fun k => k.1 = (c : ℤ)) ↔ ∃ a l : ℕ, (c, a) ∈ pairs ∧ l < n ∧ k = ((c : ℤ), (a : ℤ), l) := by
    intro k
    simp only [List.mem_filter, mem_sortedKeys, decide_eq_true_eq]
    constructor
    · rintro ⟨⟨c', a, l, h1, h2, rfl⟩, h3⟩
      simp only [Nat.cast_inj] at h3
      subst h3
      exact ⟨a, l, h1, h2, rfl⟩
    · rintro ⟨a, l, h1, h2, rfl⟩
      exact ⟨⟨c, a, l, h1, h2, rfl⟩, rfl⟩
  have hK : ((sortedKeys pairs n).filter fun k => k.1 = (c : ℤ)).Nodup := (sortedKeys_nodup hnd n).filter _
  generalize hkeys : ((sortedKeys pairs n).filter fun k => decide (k.1 = (c : ℤ))) = keys at hmem hK
  have hidx : ((FirstPhotos time N).map time).findIdx? (fun x => x = time i) = some j := by
    obtain ⟨hj1, hj2⟩ := List.getElem?_eq_some_iff.1 hj
    rw [List.findIdx?_eq_some_iff_getElem]
    refine ⟨by simpa using hj1, by simp [hj2], ?_⟩
    intro j' hj'
    simp only [List.getElem_map, decide_eq_true_eq]
    have hi' := (List.mem_filter.1 (hj2 ▸ List.getElem_mem hj1)).2
    simp only [decide_eq_true_eq] at hi'
    apply hi'
    rw [← hj2]
    have hs : (FirstPhotos time N).Pairwise (· < ·) := List.pairwise_lt_range.filter _
    exact List.pairwise_iff_getElem.1 hs j' j _ _ hj'
  unfold ExtTable.atTime writtenTable
  simp only [filter_map_key, hkeys]
  obtain ⟨k0, ks, hk0⟩ := List.exists_cons_of_ne_nil (List.ne_nil_of_mem ((hmem _).2 ⟨a0, 0, hm, hn, rfl⟩))
  set val : ℤ × ℤ × ℕ → Option K := fun k =>
    ((smooth ((FirstPhotos time N).map fun (i : ℕ) => some (coef k.1.toNat k.2.1.toNat i k.2.2)))[j]?).join with hval
  have hgoal : ∀ r, pivotArrays (keys.map fun k => (k.2, val k)) = r → (match keys.map fun k =>
      (k, (FirstPhotos time N).map fun (i : ℕ) => some (coef k.1.toNat k.2.1.toNat i k.2.2)) with
    | [] => .error .keyError
    | cs => match ((FirstPhotos time N).map time).findIdx? fun x => x = time i with
      | none => .error .keyError
      | some i => pivotArrays (cs.map fun c => (c.1.2, ((smooth c.2)[i]?).join))) = r := by
    intro r hr
    rw [hidx, hk0]
    rw [hk0] at hr
    simp only [List.map_cons, List.map_map] at hr ⊢
    exact hr
  apply hgoal
  unfold pivotArrays
  have hin : ∀ a l : ℕ, (c, a) ∈ pairs → l < n → (((a : ℤ), l), val ((c : ℤ), (a : ℤ), l)) ∈ keys.map fun k => (k.2, val k) := by
    intro a l h1 h2
    exact List.mem_map.2 ⟨((c : ℤ), (a : ℤ), l), (hmem _).2 ⟨a, l, h1, h2, rfl⟩, rfl⟩
  have hnodup : ((keys.map fun k => (k.2, val k)).map (·.1)).Nodup := by
    rw [List.map_map]
    refine List.Nodup.map_on ?_ hK
    intro x hx y hy e
    obtain ⟨a, l, _, _, rfl⟩ := (hmem x).1 hx
    obtain ⟨a', l', _, _, rfl⟩ := (hmem y).1 hy
    simp only [Function.comp] at e
    rw [e]
  have hlayers : ((keys.map fun k => (k.2, val k)).map (·.1.2)).dedup.insertionSort (· ≤ ·) = List.range n := by
    apply sort_dedup_eq List.pairwise_lt_range
    intro x
    rw [List.mem_range, List.map_map, List.mem_map]
    constructor
    · rintro ⟨k, hk, rfl⟩
      obtain ⟨a, l, _, h2, rfl⟩ := (hmem k).1 hk
      exact h2
    · intro hx
      exact ⟨((c : ℤ), (a0 : ℤ), x), (hmem _).2 ⟨a0, x, hm, hx, rfl⟩, rfl⟩
  have harrays : ((keys.map fun k => (k.2, val k)).map (·.1.1)).dedup.insertionSort (· ≤ ·) = (arraysOfChannel pairs c).map (Nat.cast : ℕ → ℤ) := by
    apply sort_dedup_eq
    · rw [List.pairwise_map]
      refine (arraysOfChannel_lt hnd c).imp ?_
      intro x y h
      exact_mod_cast h
    · intro x
      rw [List.map_map, List.mem_map, List.mem_map]
      constructor
      · rintro ⟨k, hk, rfl⟩
        obtain ⟨a, l, h1, _, rfl⟩ := (hmem k).1 hk
        exact ⟨a, (mem_arraysOfChannel pairs c a).2 h1, rfl⟩
      · rintro ⟨a, ha, rfl⟩
        exact ⟨((c : ℤ), (a : ℤ), 0), (hmem _).2 ⟨a, 0, (mem_arraysOfChannel pairs c a).1 ha, hn, rfl⟩, rfl⟩
  rw [if_pos hnodup, hlayers, harrays]
  simp only [List.length_range, List.map_map]
  congr 2
  apply List.map_congr_left
  intro a ha
  simp only [Function.comp]
  congr 1
  apply List.map_congr_left
  intro l hl
  rw [find_of_mem hnodup (hin a l ((mem_arraysOfChannel pairs c a).1 ha) (List.mem_range.1 hl))]
  simp only [Option.bind_some, hval, Int.toNat_natCast]

/-! ### Photos in different seconds -/

theorem firstPhotos_distinct {time : ℕ → ℤ} {N : ℕ} (h : ∀ i < N, ∀ j < i, time j ≠ time i) : FirstPhotos time N = List.range N := by
  unfold FirstPhotos
  rw [List.filter_eq_self]
  intro i hi
  simpa using h i (List.mem_range.1 hi)

/-- **C138.** With at most one photo per second, all requests give the coefficients of every photo: by LED array, by layer, by height and by
time. Missing in general: photos in the same second as an earlier one are not in the table (C85). -/
theorem C138_every_photo_partial {K : Type} (dir solver property : Str) (hp : PlainPath dir solver property) (pairs : List (ℕ × ℕ)) (hnd : pairs.Nodup)
    (N n : ℕ) (time : ℕ → ℤ) (ht : ∀ i < N, ∀ j < i, time j ≠ time i) (coef : ℕ → ℕ → ℕ → ℕ → K) (lo hi : ℚ) (hd : lo < hi)
    (c a : ℕ) (hm : (c, a) ∈ pairs) (i : ℕ) (hi' : i < N) (l : ℕ) (hl : l < n) (h : ℚ) (hh : InLayer lo hi n l h) :
    ∃ (t : ExtTable K) (byArray : Grid ℤ ℕ K) (byLayer : Grid ℤ ℤ K) (byTime : Grid ℕ ℤ K),
      allExtcos (pairs.map (writtenFile dir solver property N n time coef)) = .ok t ∧
      t.atArray id c a = .ok byArray ∧ t.atLayer id c l = .ok byLayer ∧ t.atHeight id lo hi n c h = .ok byLayer ∧ t.atTime id c (time i) = .ok byTime ∧
      (byArray.index[i]? = some (time i) ∧ ∃ v, (l, v) ∈ byArray.cols ∧ v[i]? = some (some (coef c a i l))) ∧
      (byLayer.index[i]? = some (time i) ∧ ∃ v, ((a : ℤ), v) ∈ byLayer.cols ∧ v[i]? = some (some (coef c a i l))) ∧
      (byTime.index[l]? = some l ∧ ∃ v, ((a : ℤ), v) ∈ byTime.cols ∧ v[l]? = some (some (coef c a i l))) := by
  have hn : 0 < n := by omega
  have hF := firstPhotos_distinct ht
  obtain ⟨t, e1, e2⟩ := C138_array dir solver property hp pairs hnd N n hn time coef id c a hm
  obtain ⟨t', as, e3, _, e4, e5⟩ := C138_layer dir solver property hp pairs hnd N n time coef id c a hm l hl
  obtain ⟨t'', as', e6, _, e7, e8⟩ := C138_time dir solver property hp pairs hnd N n hn time coef id c a hm i i (by rw [hF]; simp [hi'])
  obtain rfl : t = t' := Except.ok.inj (e1.symm.trans e3)
  obtain rfl : t = t'' := Except.ok.inj (e1.symm.trans e6)
  rw [hF] at e2 e5 e8
  refine ⟨t, _, _, _, e1, e2, e5, (C138_height t id lo hi h n l hd hn c hh).trans e5, e8, ?_, ?_, ?_⟩
  · refine ⟨by simp [hi'], _, List.mem_map.2 ⟨l, List.mem_range.2 hl, rfl⟩, by simp [hi']⟩
  · refine ⟨by simp [hi'], _, List.mem_map.2 ⟨a, (e4 a).2 hm, rfl⟩, by simp [hi']⟩
  · refine ⟨by simp [hl], _, List.mem_map.2 ⟨a, (e7 a).2 hm, rfl⟩, ?_⟩
    rw [List.getElem?_map, List.getElem?_range hl]
    simp [hi']

/-- **C138.** What was not analysed is not found: an LED array or a channel without file, a layer beyond the last one, a time without photo. -/
theorem C138_unknown {K : Type} (dir solver property : Str) (hp : PlainPath dir solver property) (pairs : List (ℕ × ℕ)) (hne : pairs ≠ []) (N n : ℕ)
    (time : ℕ → ℤ) (coef : ℕ → ℕ → ℕ → ℕ → K) (smooth : List (Option K) → List (Option K)) :
    ∃ t : ExtTable K, allExtcos (pairs.map (writtenFile dir solver property N n time coef)) = .ok t ∧
      (∀ c a : ℕ, (c, a) ∉ pairs → t.atArray smooth c a = .error .keyError) ∧
      (∀ (c : ℤ) (l : ℕ), n ≤ l → t.atLayer smooth c l = .error .keyError) ∧
      (∀ (c x : ℤ), (∀ i < N, time i ≠ x) → t.atTime smooth c x = .error .keyError) := by
  refine ⟨_, allExtcos_written dir solver property hp pairs hne N n time coef, ?_, ?_, ?_⟩
  · intro c a h
    unfold ExtTable.atArray writtenTable
    simp only [filter_map_key]
    rw [List.filter_eq_nil_iff.2]
    · rfl
    · intro k hk
      obtain ⟨c', a', l, hm, _, rfl⟩ := (mem_sortedKeys _ _ _).1 hk
      simp only [Nat.cast_inj, decide_eq_true_eq, not_and]
      rintro rfl rfl
      exact h hm
  · intro c l h
    unfold ExtTable.atLayer writtenTable
    simp only [filter_map_key]
    rw [List.filter_eq_nil_iff.2]
    · rfl
    · intro k hk
      obtain ⟨c', a', l', hm, hl', rfl⟩ := (mem_sortedKeys _ _ _).1 hk
      simp only [Nat.cast_inj, decide_eq_true_eq, not_and]
      intro _ e
      omega
  · intro c x h
    unfold ExtTable.atTime writtenTable
    simp only
    have : ((FirstPhotos time N).map time).findIdx? (fun y => y = x) = none := by
      rw [List.findIdx?_eq_none_iff]
      intro y hy
      obtain ⟨i, hi, rfl⟩ := List.mem_map.1 hy
      simpa using h i (List.mem_range.1 (List.mem_filter.1 hi).1)
    rw [this]
    split <;> rfl

/-! ### Two reference properties -/

/-- Refuted: after an analysis of the same LED array with a second reference property, no coefficients at a time can be requested any more. -/
theorem C138_two_properties_false {K : Type} (dir solver : Str) (N n : ℕ) (hn : 0 < n) (time : ℕ → ℤ) (coef coef' : ℕ → ℕ → ℕ → ℕ → K)
    (hp : PlainPath dir solver "sum_col_val".toList) (c a : ℕ) (smooth : List (Option K) → List (Option K)) :
    ∃ t : ExtTable K, allExtcos [writtenFile dir solver "sum_col_val".toList N n time coef (c, a),
        writtenFile dir solver "mean_col_val".toList N n time coef' (c, a)] = .ok t ∧
      ∀ i < N, t.atTime smooth c (time i) = .error .valueError := by
  obtain ⟨c1, c2⟩ := C82_file_partial dir solver "sum_col_val".toList c a hp.solver (by simp) hp.channel hp.array
  obtain ⟨c3, c4⟩ := C82_file_partial dir solver "mean_col_val".toList c a hp.solver (by simp) hp.channel hp.array
  set f : CoeffTable K := ⟨(c : ℤ), (a : ℤ), n, (writtenFile dir solver "sum_col_val".toList N n time coef (c, a)).2.2⟩ with hf
  set g : CoeffTable K := ⟨(c : ℤ), (a : ℤ), n, (writtenFile dir solver "mean_col_val".toList N n time coef' (c, a)).2.2⟩ with hg
  have hft : f.times = (List.range N).map time := by
    simp only [hf, CoeffTable.times, writtenFile, List.map_map]; rfl
  have hgt : g.times = (List.range N).map time := by
    simp only [hg, CoeffTable.times, writtenFile, List.map_map]; rfl
  have hread : [writtenFile dir solver "sum_col_val".toList N n time coef (c, a),
        writtenFile dir solver "mean_col_val".toList N n time coef' (c, a)].mapM (fun f => readCoeffTable f.1 f.2) = .ok [f, g] := by
    have e1 : readCoeffTable (writtenFile dir solver "sum_col_val".toList N n time coef (c, a)).1
        (writtenFile dir solver "sum_col_val".toList N n time coef (c, a)).2 = .ok f := by
      simp only [readCoeffTable, writtenFile, c1, c2, hf]
    have e2 : readCoeffTable (writtenFile dir solver "mean_col_val".toList N n time coef' (c, a)).1
        (writtenFile dir solver "mean_col_val".toList N n time coef' (c, a)).2 = .ok g := by
      simp only [readCoeffTable, writtenFile, c3, c4, hg]
    simp only [List.mapM_cons, List.mapM_nil, e1, e2]
    rfl
  have hconcat : concatTables [f, g] = .ok ⟨(List.range N).map time,
      [f, g].flatMap fun g => (List.range g.layers).map fun (l : ℕ) => ((g.channel, g.array, l), g.column l)⟩ := by
    unfold concatTables
    simp only
    rw [if_pos, hft]
    intro h hh
    simp only [List.mem_cons, List.not_mem_nil, or_false] at hh
    rcases hh with rfl | rfl
    · rfl
    · rw [hgt, hft]
  unfold allExtcos
  rw [hread]
  simp only [hconcat]
  refine ⟨_, rfl, ?_⟩
  intro i hi
  set cols : List ((ℤ × ℤ × ℕ) × List (Option K)) :=
    [f, g].flatMap fun g => (List.range g.layers).map fun (l : ℕ) => ((g.channel, g.array, l), g.column l) with hcols
  have hlabels : ∀ x ∈ cols, x.1.1 = (c : ℤ) := by
    intro x hx
    simp only [hcols, List.mem_flatMap, List.mem_cons, List.not_mem_nil, or_false, List.mem_map] at hx
    obtain ⟨y, hy, l, _, rfl⟩ := hx
    rcases hy with rfl | rfl <;> rfl
  have hrep : ¬ (cols.map (·.1)).Nodup := by
    have : cols.map (·.1) = ((List.range n).map fun (l : ℕ) => ((c : ℤ), (a : ℤ), l)) ++ (List.range n).map fun (l : ℕ) => ((c : ℤ), (a : ℤ), l) := by
      simp only [hcols, hf, hg, List.flatMap_cons, List.flatMap_nil, List.append_nil, List.map_append, List.map_map]
      rfl
    rw [this]
    intro h
    have hm : ((c : ℤ), (a : ℤ), 0) ∈ (List.range n).map fun (l : ℕ) => ((c : ℤ), (a : ℤ), l) := List.mem_map.2 ⟨0, List.mem_range.2 hn, rfl⟩
    exact (List.disjoint_of_nodup_append h) hm hm
  unfold ExtTable.atTime ExtTable.dropRepeated ExtTable.sortCols
  simp only [kept_times]
  set scols := cols.insertionSort fun a b => colLe a.1 b.1 with hsc
  have hperm : scols.Perm cols := List.perm_insertionSort _ _
  have hne : scols ≠ [] := by
    intro e
    rw [e] at hperm
    apply hrep
    rw [← hperm.nil_eq]
    simp
  have hfil : (scols.map fun x => (x.1, ((FirstPhotos time N).map fun (i : ℕ) => (time i, i)).map fun k => (x.2[k.2]?).join)).filter
      (fun x => decide (x.1.1 = (c : ℤ))) = scols.map fun x => (x.1, ((FirstPhotos time N).map fun (i : ℕ) => (time i, i)).map fun k => (x.2[k.2]?).join) := by
    rw [List.filter_eq_self]
    intro x hx
    obtain ⟨y, hy, rfl⟩ := List.mem_map.1 hx
    simpa using hlabels y (hperm.mem_iff.1 hy)
  rw [hfil]
  obtain ⟨j, hj⟩ : ∃ j, (((FirstPhotos time N).map fun (i : ℕ) => (time i, i)).map (·.1)).findIdx? (fun x => x = time i) = some j := by
    rw [← Option.isSome_iff_exists, List.findIdx?_isSome, List.any_eq_true]
    obtain ⟨k, ⟨hk1, hk2⟩⟩ : ∃ k, k ∈ FirstPhotos time N ∧ time k = time i := by
      have hex : ∃ k, time k = time i := ⟨i, rfl⟩
      refine ⟨Nat.find hex, ?_, Nat.find_spec hex⟩
      unfold FirstPhotos
      rw [List.mem_filter, List.mem_range]
      refine ⟨(Nat.find_min' hex rfl).trans_lt hi, ?_⟩
      simp only [decide_eq_true_eq]
      intro j hj e
      exact Nat.find_min hex hj (e.trans (Nat.find_spec hex))
    refine ⟨time i, ?_, by simp⟩
    rw [List.map_map, List.mem_map]
    exact ⟨k, hk1, hk2⟩
  rw [hj]
  obtain ⟨x, xs, hx⟩ := List.exists_cons_of_ne_nil hne
  have hpiv : ∀ (F : (ℤ × ℤ × ℕ) × List (Option K) → Option K), pivotArrays (scols.map fun x => (x.1.2, F x)) = .error .valueError := by
    intro F
    unfold pivotArrays
    rw [if_neg]
    intro h
    apply hrep
    rw [← (hperm.map (·.1)).nodup_iff]
    rw [List.map_map] at h
    have hm2 : scols.map (·.1) = (scols.map fun x => x.1.2).map fun k => ((c : ℤ), k) := by
      rw [List.map_map]
      apply List.map_congr_left
      intro y hy
      have := hlabels y (hperm.mem_iff.1 hy)
      simp only [Function.comp, ← this]
    rw [hm2]
    refine List.Nodup.map ?_ h
    intro y z e
    simpa using e
  have := hpiv fun x => ((smooth (((FirstPhotos time N).map fun (i : ℕ) => (time i, i)).map fun k => (x.2[k.2]?).join))[j]?).join
  rw [hx] at this ⊢
  simp only [List.map_cons, List.map_map] at this ⊢
  exact this

/-! ### C139: heights shown for the layers -/

theorem rintQ_near (x : ℚ) : |(rintQ x : ℚ) - x| ≤ 1 / 2 := by
  have h1 := Int.floor_le x
  have h2 := Int.lt_floor_add_one x
  unfold rintQ
  split
  · rw [abs_le]; constructor <;> linarith
  · split
    · push_cast
      rw [abs_le]; constructor <;> linarith
    · split
      · rw [abs_le]; constructor <;> linarith
      · push_cast
        rw [abs_le]; constructor <;> linarith

theorem rintQ_mono {x y : ℚ} (h : x ≤ y) : rintQ x ≤ rintQ y := by
  have hf : ⌊x⌋ ≤ ⌊y⌋ := Int.floor_mono h
  rcases hf.lt_or_eq with hlt | heq
  · have h1 : rintQ x ≤ ⌊x⌋ + 1 := by unfold rintQ; split_ifs <;> omega
    have h2 : ⌊y⌋ ≤ rintQ y := by unfold rintQ; split_ifs <;> omega
    omega
  · unfold rintQ
    rw [heq]
    split_ifs <;> first | omega | (exfalso; linarith)

theorem round2_near (x : ℚ) : |round2 x - x| ≤ 1 / 200 := by
  have h := rintQ_near (x * 100)
  unfold round2
  rw [abs_le] at h ⊢
  constructor <;> linarith [h.1, h.2]

theorem round2_mono {x y : ℚ} (h : x ≤ y) : round2 x ≤ round2 y := by
  unfold round2
  have : (rintQ (x * 100) : ℚ) ≤ rintQ (y * 100) := by exact_mod_cast rintQ_mono (by linarith)
  linarith

theorem simBorder_eq (lo hi : ℚ) (n l : ℕ) : simBorder lo hi n l = lo + (hi - lo) * l / n := by unfold simBorder; ring

/-- **C139.** The heights shown for a layer are its lower border, its upper border (both up to 1/200) and its centre (up to 1/100). -/
theorem C139_near (lo hi : ℚ) (n l : ℕ) :
    |bottomHeight lo hi n l - (lo + (hi - lo) * l / n)| ≤ 1 / 200 ∧ |topHeight lo hi n l - (lo + (hi - lo) * (l + 1) / n)| ≤ 1 / 200 ∧
    |centerHeight lo hi n l - (lo + (hi - lo) * (l + 1 / 2) / n)| ≤ 1 / 100 := by
  have h1 : |bottomHeight lo hi n l - (lo + (hi - lo) * l / n)| ≤ 1 / 200 := by
    rw [← simBorder_eq]; exact round2_near _
  have h2 : |topHeight lo hi n l - (lo + (hi - lo) * (l + 1) / n)| ≤ 1 / 200 := by
    have := round2_near (simBorder lo hi n (l + 1))
    rw [simBorder_eq] at this
    push_cast at this
    unfold topHeight
    rw [simBorder_eq]
    push_cast
    exact this
  refine ⟨h1, h2, ?_⟩
  have h3 := round2_near ((bottomHeight lo hi n l + topHeight lo hi n l) / 2)
  have e : lo + (hi - lo) * (l + 1 / 2) / n = ((lo + (hi - lo) * l / n) + (lo + (hi - lo) * (l + 1) / n)) / 2 := by ring
  rw [e]
  unfold centerHeight
  rw [abs_le] at h1 h2 h3 ⊢
  constructor <;> linarith [h1.1, h1.2, h2.1, h2.2, h3.1, h3.2]

/-- **C139.** Labels of the rows at a time: the heights of the layers in order, the cells unchanged. -/
theorem C139_labels {K : Type} (t : ExtTable K) (smooth : List (Option K) → List (Option K)) (lo hi : ℚ) (n : ℕ) (c x : ℤ) (g : Grid ℕ ℤ K)
    (h : t.atTime smooth c x = .ok g) (hg : g.index = List.range n) :
    t.atTimeHeights smooth lo hi n "center".toList c x = .ok ⟨(List.range n).map (centerHeight lo hi n), g.cols⟩ ∧
    t.atTimeHeights smooth lo hi n "top".toList c x = .ok ⟨(List.range n).map (topHeight lo hi n), g.cols⟩ ∧
    t.atTimeHeights smooth lo hi n "bottom".toList c x = .ok ⟨(List.range n).map (bottomHeight lo hi n), g.cols⟩ ∧
    ∀ r, r ∉ ["center".toList, "top".toList, "bottom".toList] → t.atTimeHeights smooth lo hi n r c x = .error .valueError := by
  have e1 : heightLabels lo hi n "center".toList = .ok ((List.range n).map (centerHeight lo hi n)) := rfl
  have e2 : heightLabels lo hi n "top".toList = .ok ((List.range n).map (topHeight lo hi n)) := rfl
  have e3 : heightLabels lo hi n "bottom".toList = .ok ((List.range n).map (bottomHeight lo hi n)) := rfl
  unfold ExtTable.atTimeHeights
  rw [h, e1, e2, e3]
  simp only [hg, List.length_map, List.length_range, if_true, true_and]
  intro r hr
  simp only [List.mem_cons, List.not_mem_nil, or_false, not_or] at hr
  have : heightLabels lo hi n r = .error .valueError := by
    unfold heightLabels
    rw [if_neg hr.1, if_neg hr.2.1, if_neg hr.2.2]
  rw [this]

theorem thickness {lo hi : ℚ} {n : ℕ} (hn : 0 < n) (x : ℚ) : lo + (hi - lo) * (x + 1) / n = lo + (hi - lo) * x / n + (hi - lo) / n := by ring

/-- **C139, centre.** With layers thicker than two centimetres, asking for the centre shown for a layer returns this layer. Missing: thinner layers,
and the lower and upper borders. -/
theorem C139_center_partial {K : Type} (t : ExtTable K) (smooth : List (Option K) → List (Option K)) (lo hi : ℚ) (n l : ℕ) (hn : 0 < n)
    (hd : 1 / 50 < (hi - lo) / n) (c : ℤ) : t.atHeight smooth lo hi n c (centerHeight lo hi n l) = t.atLayer smooth c l := by
  have hN : (0 : ℚ) < n := by exact_mod_cast hn
  have hlt : lo < hi := by
    have : 0 < (hi - lo) / n := by linarith
    have := (div_pos_iff_of_pos_right hN).1 this
    linarith
  apply C138_height t smooth lo hi _ n l hlt hn
  have h := (C139_near lo hi n l).2.2
  rw [abs_le] at h
  have e : lo + (hi - lo) * (l + 1 / 2) / n = lo + (hi - lo) * l / n + (hi - lo) / n / 2 := by ring
  rw [e] at h
  unfold InLayer
  rw [thickness hn]
  constructor <;> linarith [h.1, h.2]

/-- **C139, lower border.** Asking for the lower border shown for a layer returns this layer iff it is the lowest one or the border was not rounded
down. -/
theorem C139_bottom_iff (lo hi : ℚ) (n l : ℕ) (hn : 0 < n) (hd : 1 / 200 < (hi - lo) / n) :
    layerFromHeight lo hi n (bottomHeight lo hi n l) = l ↔ l = 0 ∨ lo + (hi - lo) * l / n ≤ bottomHeight lo hi n l := by
  have hN : (0 : ℚ) < n := by exact_mod_cast hn
  have hlt : lo < hi := by
    have : 0 < (hi - lo) / n := by linarith
    have := (div_pos_iff_of_pos_right hN).1 this
    linarith
  have h := (C139_near lo hi n l).1
  rw [abs_le] at h
  rcases Nat.eq_zero_or_pos l with rfl | hl
  · simp only [true_or, iff_true]
    simp only [Nat.cast_zero, mul_zero, zero_div, add_zero] at h
    by_cases hb : lo ≤ bottomHeight lo hi n 0
    · rw [C59_inside_partial lo hi _ hlt n 0 hn hb]
      unfold InLayer
      rw [thickness hn]
      simp only [Nat.cast_zero, mul_zero, zero_div, add_zero]
      exact ⟨hb, by linarith [h.2]⟩
    · have hneg : (bottomHeight lo hi n 0 - lo) / (hi - lo) * n < 0 := by
        rw [layer_scaled_lt hlt hn]
        simpa using hb
      have hgt : -1 < (bottomHeight lo hi n 0 - lo) / (hi - lo) * n := by
        by_contra hc
        rw [not_lt] at hc
        rcases hc.lt_or_eq with hc | hc
        · rw [layer_scaled_lt hlt hn] at hc
          have e : lo + (hi - lo) * (-1) / n = lo - (hi - lo) / n := by ring
          rw [e] at hc
          linarith [h.1]
        · have hc' : (-1 : ℚ) ≤ (bottomHeight lo hi n 0 - lo) / (hi - lo) * n := hc.ge
          have e : (bottomHeight lo hi n 0 - lo) = -((hi - lo) / n) := by
            have h1 : hi - lo ≠ 0 := by linarith
            field_simp at hc ⊢
            linarith
          linarith [h.1]
      unfold layerFromHeight truncZero
      rw [if_neg (by linarith)]
      rw [Int.ceil_eq_iff]
      push_cast
      constructor <;> linarith
  · have hl1 : (1 : ℚ) ≤ l := by exact_mod_cast hl
    have hge : (hi - lo) / n ≤ (hi - lo) * l / n := by
      rw [mul_div_right_comm]
      exact le_mul_of_one_le_right (by linarith) hl1
    have hlo : lo ≤ bottomHeight lo hi n l := by linarith [h.1]
    rw [C59_inside_partial lo hi _ hlt n l hn hlo]
    unfold InLayer
    rw [thickness hn]
    constructor
    · exact fun h => Or.inr h.1
    · rintro (rfl | hb)
      · exact absurd hl (lt_irrefl _)
      · exact ⟨hb, by linarith [h.2]⟩

/-- Refuted: three layers in a domain of one metre; at the lower border shown for the second layer, the first one is returned. -/
theorem C139_bottom_false : bottomHeight 0 1 3 1 = 33 / 100 ∧ layerFromHeight 0 1 3 (bottomHeight 0 1 3 1) = 0 := by
  constructor <;> decide +kernel

/-- Refuted: if no border is rounded, the upper border shown for a layer belongs to the next layer, for the uppermost layer to none. -/
theorem C139_top_false (lo hi : ℚ) (hd : lo < hi) (n l : ℕ) (hn : 0 < n) (hex : topHeight lo hi n l = lo + (hi - lo) * (l + 1) / n) :
    layerFromHeight lo hi n (topHeight lo hi n l) = (l + 1 : ℕ) := by
  have hN : (0 : ℚ) < n := by exact_mod_cast hn
  have hD : 0 < (hi - lo) / n := div_pos (by linarith) hN
  rw [hex]
  have h0 : (0 : ℚ) ≤ (hi - lo) * (l + 1) / n := by
    have : 0 ≤ hi - lo := by linarith
    positivity
  rw [C59_inside_partial lo hi _ hd n (l + 1) hn (by linarith)]
  unfold InLayer
  rw [thickness hn (((l + 1 : ℕ) : ℚ))]
  push_cast
  exact ⟨le_rfl, by linarith⟩

/-- **C139.** With layers thicker than one and a half centimetres, different layers show different heights: all three labels are strictly
increasing. -/
theorem C139_distinct (lo hi : ℚ) (n l k : ℕ) (hn : 0 < n) (hd : 3 / 200 < (hi - lo) / n) (hlk : l < k) :
    bottomHeight lo hi n l < bottomHeight lo hi n k ∧ topHeight lo hi n l < topHeight lo hi n k ∧ centerHeight lo hi n l < centerHeight lo hi n k := by
  have step : ∀ m : ℕ, bottomHeight lo hi n m + 1 / 200 < bottomHeight lo hi n (m + 1) := by
    intro m
    have h1 := abs_le.1 (C139_near lo hi n m).1
    have h2 := abs_le.1 (C139_near lo hi n (m + 1)).1
    push_cast at h2
    rw [thickness hn] at h2
    linarith [h1.2, h2.1]
  have two : ∀ m : ℕ, bottomHeight lo hi n m + 1 / 50 < bottomHeight lo hi n (m + 2) := by
    intro m
    have h1 := abs_le.1 (C139_near lo hi n m).1
    have h2 := abs_le.1 (C139_near lo hi n (m + 2)).1
    have e : lo + (hi - lo) * ((m + 2 : ℕ) : ℚ) / n = lo + (hi - lo) * m / n + 2 * ((hi - lo) / n) := by push_cast; ring
    rw [e] at h2
    linarith [h1.2, h2.1]
  have top : ∀ m : ℕ, topHeight lo hi n m = bottomHeight lo hi n (m + 1) := fun _ => rfl
  have hb : StrictMono (bottomHeight lo hi n) := strictMono_nat_of_lt_succ fun m => by linarith [step m]
  have hc : StrictMono (centerHeight lo hi n) := by
    apply strictMono_nat_of_lt_succ
    intro m
    have h1 : bottomHeight lo hi n m + 3 / 100 ≤ bottomHeight lo hi n (m + 2) := by
      have := two m
      unfold bottomHeight round2 at this ⊢
      have h3 : (rintQ (simBorder lo hi n m * 100) : ℚ) + 2 < rintQ (simBorder lo hi n (m + 2) * 100) := by linarith
      have h4 : rintQ (simBorder lo hi n m * 100) + 2 < rintQ (simBorder lo hi n (m + 2) * 100) := by exact_mod_cast h3
      have h5 : (rintQ (simBorder lo hi n m * 100) : ℚ) + 3 ≤ rintQ (simBorder lo hi n (m + 2) * 100) := by 
        have h6 : rintQ (simBorder lo hi n m * 100) + 3 ≤ rintQ (simBorder lo hi n (m + 2) * 100) := by omega
        exact_mod_cast h6
      linarith
    unfold centerHeight
    rw [top, top]
    set x := (bottomHeight lo hi n m + bottomHeight lo hi n (m + 1)) / 2 with hx
    have h6 : x + 3 / 200 ≤ (bottomHeight lo hi n (m + 1) + bottomHeight lo hi n (m + 1 + 1)) / 2 := by rw [hx]; linarith
    have h7 := abs_le.1 (round2_near x)
    have h8 := abs_le.1 (round2_near ((bottomHeight lo hi n (m + 1) + bottomHeight lo hi n (m + 1 + 1)) / 2))
    linarith [h7.2, h8.1]
  exact ⟨hb hlk, by rw [top, top]; exact hb (by omega), hc hlk⟩

/-- Refuted for thin layers: a hundred layers in a domain of one metre; two layers show the same centre. -/
theorem C139_same_false : centerHeight 0 1 100 1 = centerHeight 0 1 100 2 := by decide +kernel

/-! ### Example -/

/-- Two LED arrays in three photos, two of them in the same second. -/
example : ∃ t : ExtTable ℚ, allExtcos ([(0, 1), (0, 0)].map (writtenFile "sim/analysis/extinction_coefficients/linear".toList "linear".toList "sum_col_val".toList 3 2
      (fun i => if i = 2 then 5 else 4) (fun _ a i l => ((100 * a + 10 * i + l : ℕ) : ℚ)))) = .ok t ∧
    t.atTime id 0 5 = .ok ⟨[0, 1], [(0, [some 20, some 21]), (1, [some 120, some 121])]⟩ ∧
    t.atArray id 0 1 = .ok ⟨[4, 5], [(0, [some 100, some 120]), (1, [some 101, some 121])]⟩ ∧
    t.atHeight id 0 2 2 0 (3 / 2) = .ok ⟨[4, 5], [(0, [some 1, some 21]), (1, [some 101, some 121])]⟩ := by
  refine ⟨_, allExtcos_written _ _ _ ⟨Or.inl rfl, by simp, by decide, by decide⟩ _ (by simp) _ _ _ _, ?_, ?_, ?_⟩ <;> decide +kernel

end Ledsa
