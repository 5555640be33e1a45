import Verif.Proofs.ImageInfos
/-
Properties C01 - C05: which images are listed and loaded.
-/
namespace Ledsa

/-! ### C01 ascending ranges -/

/-- Specification: of all numbers `first, first+1, ..., last` keep those at a distance from `first` that is a
multiple of `k`. -/
def everyKth (first last : Int) (k : Nat) : List Int :=
  ((List.range (last + 1 - first).toNat).filter (fun i => decide (k ∣ i))).map (fun (i : Nat) => first + (i : Int))

/-- C01: for `first ≤ last` the list consists of exactly the images `first, first+k, ...` up to `last`, in order,
as four digit numbers. -/
theorem C01_ascending_list (first last : Int) (k : Nat) (hk : 0 < k) (h : first ≤ last) :
    findImgNumberList first last (k : Int) = .ok ((everyKth first last k).map fun e => zfill 4 (intStr e)) := by
  unfold findImgNumberList imgNumberInts
  rw [if_pos h, pyRange_pos hk, pyRangePos_eq_filter hk]
  rfl

/-- C01: the list has `ceil((last - first + 1) / k)` entries. -/
theorem C01_ascending_length (first last : Int) (k : Nat) (hk : 0 < k) (h : first ≤ last) :
    ∃ l, findImgNumberList first last (k : Int) = .ok l ∧
      l.length = ((last + 1 - first).toNat + k - 1) / k := by
  refine ⟨_, C01_ascending_list first last k hk h, ?_⟩
  rw [List.length_map, everyKth, List.length_map, filter_dvd_range k hk]
  simp

/-- C01: an image number is listed iff it lies in the range and its distance to `first` is a multiple of `k`,
and no image is listed twice. -/
theorem C01_ascending_mem (first last : Int) (k : Nat) (hk : 0 < k) (h : first ≤ last) :
    ∃ l, findImgNumberList first last (k : Int) = .ok l ∧ l.Nodup ∧
      ∀ z : Int, zfill 4 (intStr z) ∈ l ↔ first ≤ z ∧ z ≤ last ∧ (k : Int) ∣ z - first := by
  refine ⟨_, C01_ascending_list first last k hk h, ?_, ?_⟩
  · refine List.Nodup.map (fun a b => zfill_intStr_injective) ?_
    exact List.Nodup.map (fun a b hab => by have : first + (a : Int) = first + (b : Int) := hab; omega) (List.nodup_range.filter _)
  · intro z
    rw [List.mem_map]
    constructor
    · rintro ⟨e, he, hez⟩
      rw [zfill_intStr_injective hez] at he
      simp only [everyKth, List.mem_map, List.mem_filter, List.mem_range, decide_eq_true_eq] at he
      obtain ⟨i, ⟨hi, hd⟩, rfl⟩ := he
      refine ⟨by omega, by omega, ?_⟩
      have : first + (i : Int) - first = (i : Int) := by omega
      rw [this]; exact_mod_cast hd
    · rintro ⟨h1, h2, h3⟩
      refine ⟨z, ?_, rfl⟩
      simp only [everyKth, List.mem_map, List.mem_filter, List.mem_range, decide_eq_true_eq]
      refine ⟨(z - first).toNat, ⟨by omega, ?_⟩, by omega⟩
      have : (((z - first).toNat : Nat) : Int) = z - first := by omega
      rw [← this] at h3; exact_mod_cast h3

example : findImgNumberList 3 12 4 = .ok ["0003".toList, "0007".toList, "0011".toList] := by decide
/-- An empty increment is an error, not an endless list. -/
example : findImgNumberList 3 12 0 = .error .valueError := by decide

/-! ### C02 counter overflow -/

/-- The camera's four digit counter: after 9999 comes 1. -/
def nextShot (z : Int) : Int := if z = 9999 then 1 else z + 1

theorem nextShot_iterate {first : Int} (h1 : 1 ≤ first) (h2 : first ≤ 9999) (j : Nat) (hj : j < 9999) :
    nextShot^[j] first = if first + j ≤ 9999 then first + (j : Int) else first + j - 9999 := by
  induction j with
  | zero => simp [h2]
  | succ j ih =>
    rw [Function.iterate_succ_apply', ih (by omega)]
    unfold nextShot
    split <;> split <;> split <;> omega

/-- C02: if the counter ran over between `first` and `last`, the list is the sequence of images seen when the
counter is advanced `k` shots at a time from `first`, as long as `last` has not been passed. `m` is the number of
shots from `first` to `last`. -/
theorem C02_overflow_list (first last : Int) (k : Nat) (hk : 0 < k)
    (h1 : 1 ≤ last) (h2 : last < first) (h3 : first ≤ 9999) :
    ∃ m : Nat, m < 9999 ∧ nextShot^[m] first = last ∧
      findImgNumberList first last (k : Int) =
        .ok ((((List.range (m + 1)).filter (fun i => decide (k ∣ i))).map (fun i => nextShot^[i] first)).map
          fun e => zfill 4 (intStr e)) := by
  refine ⟨(9999 + last - first).toNat, by omega, ?_, ?_⟩
  · rw [nextShot_iterate (by omega) h3 _ (by omega)]
    split <;> omega
  · unfold findImgNumberList imgNumberInts
    rw [if_neg (by omega), largestNumber_four, pyRange_pos hk]
    simp only
    rw [pyRangePos_getLast? hk (by omega)]
    simp only
    rw [show ((9999 : Nat) : Int) + 1 - 1 - first = ((9999 : Nat) : Int) - first by omega]
    have hs := seam (first := first) (last := last) hk 9999 h1 (by simpa using h3)
    have hr : ∀ x : Int, pyRange x (last + 1) (k : Int) = .ok (pyRangePos x (last + 1) k) := fun x => pyRange_pos hk
    rw [hr]
    simp only at hs ⊢
    rw [hs, pyRangePos_eq_filter hk, List.map_map, List.map_map, List.map_map]
    congr 1
    rw [show (((9999 : Nat) : Int) + last + 1 - first).toNat = (9999 + last - first).toNat + 1 by omega]
    apply List.map_congr_left
    intro i hi
    have hi' : i < 9999 := by
      have := List.mem_of_mem_filter hi
      rw [List.mem_range] at this; omega
    simp only [Function.comp]
    rw [nextShot_iterate (by omega) h3 i hi']
    congr 2

example : findImgNumberList 9997 4 2 = .ok ["9997".toList, "9999".toList, "0002".toList, "0004".toList] := by decide
/-- A first image number beyond four digits is an `IndexError`. -/
theorem C02_first_too_large (first last : Int) (k : Nat) (hk : 0 < k) (h2 : last < first) (h3 : 9999 < first) :
    findImgNumberList first last (k : Int) = .error .indexError := by
  unfold findImgNumberList imgNumberInts
  rw [if_neg (by omega), largestNumber_four, pyRange_pos hk]
  have : pyRangePos first (((9999 : Nat) : Int) + 1) k = [] := by
    unfold pyRangePos rangeLen
    rw [if_pos (by push_cast; omega)]; rfl
  rw [this]; rfl

example : findImgNumberList 10050 4 1 = .error .indexError := by decide

/-! ### C03 the analysis range -/

/-- What the user asks for: every `skip+1`-th image from `first_img_analysis_id` to `last_img_analysis_id`. -/
def AnalysisListCorrect (c : ImgCfg) : Prop :=
  imgIdList .analysis c = findImgNumberList c.firstAna c.lastAna (c.numSkipImgs + 1)

/-- C03 is violated: the analysis list starts at the first *experiment* image. -/
theorem C03_analysis_range_false : ¬ ∀ c : ImgCfg, AnalysisListCorrect c := by
  intro h
  have := h ⟨1, 20, 5, 8, 0, none⟩
  revert this
  unfold AnalysisListCorrect
  decide

/-- C03 (partial; missing: different first images): with the same first image in both ranges the list is the one
asked for. -/
theorem C03_analysis_range_partial (c : ImgCfg) (h : c.firstExp = c.firstAna) : AnalysisListCorrect c := by
  simp [AnalysisListCorrect, imgIdList, imgSelection, h]

example : AnalysisListCorrect ⟨3, 20, 3, 8, 1, none⟩ := C03_analysis_range_partial _ rfl

/-- C03: exact extent of the violation for ascending ranges: the list is correct only if the first images agree. -/
theorem C03_analysis_range_iff (c : ImgCfg) (hs : 0 ≤ c.numSkipImgs) (h1 : c.firstExp ≤ c.lastAna)
    (h2 : c.firstAna ≤ c.lastAna) : AnalysisListCorrect c ↔ c.firstExp = c.firstAna := by
  constructor
  · intro h
    obtain ⟨k, hk⟩ : ∃ k : Nat, c.numSkipImgs + 1 = (k : Int) := ⟨(c.numSkipImgs + 1).toNat, by omega⟩
    have hk0 : 0 < k := by omega
    unfold AnalysisListCorrect imgIdList imgSelection at h
    simp only [hk] at h
    rw [C01_ascending_list _ _ k hk0 h1, C01_ascending_list _ _ k hk0 h2] at h
    have hmem := fun (f : Int) (hf : f ≤ c.lastAna) => show f ∈ everyKth f c.lastAna k by
      simp only [everyKth, List.mem_map, List.mem_filter, List.mem_range, decide_eq_true_eq]
      exact ⟨0, ⟨by omega, Nat.dvd_zero k⟩, by simp⟩
    have hge := fun (f z : Int) (hz : z ∈ everyKth f c.lastAna k) => show f ≤ z by
      simp only [everyKth, List.mem_map] at hz
      obtain ⟨i, _, rfl⟩ := hz
      omega
    have heq : everyKth c.firstExp c.lastAna k = everyKth c.firstAna c.lastAna k :=
      List.map_injective_iff.2 (fun a b => zfill_intStr_injective (w := 4)) (by simpa using h)
    have a1 := hmem _ h1
    have a2 := hmem _ h2
    rw [heq] at a1
    rw [← heq] at a2
    have b1 := hge _ _ a1
    have b2 := hge _ _ a2
    omega
  · exact C03_analysis_range_partial c

example : ¬ AnalysisListCorrect ⟨1, 100, 10, 50, 2, some 9999⟩ := by
  rw [C03_analysis_range_iff] <;> decide

/-! ### C04 number of loaded images -/

/-- Every listed image is loaded and nothing else is. -/
def CountsAgree (c : ImgCfg) : Prop :=
  ∃ l n, imgIdList .analysis c = .ok l ∧ binaryImageCount c = .ok n ∧ (l.length : Int) = n

/-- C04 is violated: 3 listed images (1, 3, 5), 2 loaded. -/
theorem C04_counts_false : ¬ ∀ c : ImgCfg, c.firstExp = c.firstAna → CountsAgree c := by
  intro h
  obtain ⟨l, n, h1, h2, h3⟩ := h ⟨1, 5, 1, 5, 1, none⟩ rfl
  have e1 : imgIdList .analysis ⟨1, 5, 1, 5, 1, none⟩ = .ok ["0001".toList, "0003".toList, "0005".toList] := by decide
  have e2 : binaryImageCount ⟨1, 5, 1, 5, 1, none⟩ = .ok 2 := by decide
  rw [e1] at h1; rw [e2] at h2
  cases h1; cases h2
  simp at h3

theorem ceil_eq_floor_iff (n k : Nat) (hk : 0 < k) : (n + k - 1) / k = n / k ↔ k ∣ n := by
  constructor
  · intro h
    by_contra hd
    have h1 : (n + k - 1 + 1) / k = _ := Nat.succ_div
    have e : n + k - 1 + 1 = n + k := by omega
    rw [e, if_neg (fun h => hd ((Nat.dvd_add_left (Nat.dvd_refl k)).1 h)), Nat.add_div_right _ hk] at h1
    omega
  · rintro ⟨m, rfl⟩
    have : k * m + k - 1 = (k - 1) + k * m := by omega
    rw [this, Nat.add_mul_div_left _ _ hk, Nat.div_eq_of_lt (by omega : k - 1 < k), Nat.mul_div_cancel_left _ hk]
    omega

/-- C04 (partial; missing: ranges whose length is no multiple of the increment, and different first images): for an
ascending range the counts agree exactly if the increment divides the number of images in the range; otherwise
exactly one image is dropped. -/
theorem C04_counts_partial (c : ImgCfg) (hf : c.firstExp = c.firstAna) (hs : 0 ≤ c.numSkipImgs)
    (h : c.firstAna ≤ c.lastAna) (hmax : c.lastAna - c.firstAna < c.overflow.getD (10 ^ 7)) :
    (CountsAgree c ↔ (c.numSkipImgs + 1) ∣ (c.lastAna - c.firstAna + 1)) ∧
    (¬ (c.numSkipImgs + 1) ∣ (c.lastAna - c.firstAna + 1) →
      ∃ l n, imgIdList .analysis c = .ok l ∧ binaryImageCount c = .ok n ∧ (l.length : Int) = n + 1) := by
  obtain ⟨k, hk⟩ : ∃ k : Nat, c.numSkipImgs + 1 = (k : Int) := ⟨(c.numSkipImgs + 1).toNat, by omega⟩
  have hk0 : 0 < k := by omega
  obtain ⟨N, hN⟩ : ∃ N : Nat, c.lastAna - c.firstAna + 1 = (N : Int) := ⟨(c.lastAna - c.firstAna + 1).toNat, by omega⟩
  obtain ⟨l, hl, hlen⟩ := C01_ascending_length c.firstAna c.lastAna k hk0 h
  have hlist : imgIdList .analysis c = .ok l := by
    rw [C03_analysis_range_partial c hf, hk, hl]
  have hlen' : l.length = (N + k - 1) / k := by
    rw [hlen]; congr 3; omega
  have hcount : binaryImageCount c = .ok ((N / k : Nat) : Int) := by
    unfold binaryImageCount
    rw [if_pos ⟨by omega, by omega⟩]
    congr 1
    have e : c.overflow.getD (10 ^ 7) + c.lastAna - c.firstAna =
        (c.lastAna - c.firstAna) + c.overflow.getD (10 ^ 7) * 1 := by omega
    rw [e, Int.add_mul_emod_self_left, Int.emod_eq_of_lt (by omega) hmax, hN, hk]
    rfl
  have hdvd : (c.numSkipImgs + 1) ∣ (c.lastAna - c.firstAna + 1) ↔ k ∣ N := by
    rw [hk, hN]; exact Int.natCast_dvd_natCast
  rw [hdvd]
  constructor
  · rw [← ceil_eq_floor_iff N k hk0, ← hlen']
    constructor
    · rintro ⟨l', n', h1, h2, h3⟩
      rw [hlist] at h1; rw [hcount] at h2
      cases h1; cases h2
      exact_mod_cast h3
    · intro he
      exact ⟨l, _, hlist, hcount, by exact_mod_cast he⟩
  · intro hnd
    refine ⟨l, _, hlist, hcount, ?_⟩
    rw [hlen']
    have h1 : (N + k - 1 + 1) / k = _ := Nat.succ_div
    have e : N + k - 1 + 1 = N + k := by omega
    rw [e, if_neg (fun h => hnd ((Nat.dvd_add_left (Nat.dvd_refl k)).1 h)), Nat.add_div_right _ hk0] at h1
    omega

example : CountsAgree ⟨1, 30, 1, 30, 2, none⟩ := by
  refine (C04_counts_partial _ rfl ?_ ?_ ?_).1.2 ?_ <;> decide

/-- C04: after a counter overflow without `num_img_overflow` the analysis expects about ten million images. -/
theorem C04_overflow_unset_false (c : ImgCfg) (ho : c.overflow = none) (hs : c.numSkipImgs = 0)
    (h1 : 1 ≤ c.lastAna) (h2 : c.lastAna < c.firstAna) (h3 : c.firstAna ≤ 9999) :
    ∃ n, binaryImageCount c = .ok n ∧ 9990000 < n := by
  unfold binaryImageCount
  rw [ho, hs]
  refine ⟨_, if_pos (by decide), ?_⟩
  simp only [Option.getD_none]
  rw [Int.emod_eq_of_lt (by omega) (by omega)]
  omega

example : ∃ n, binaryImageCount ⟨9990, 5, 9990, 5, 0, none⟩ = .ok n ∧ 9990000 < n :=
  C04_overflow_unset_false _ rfl rfl (by decide) (by decide) (by decide)

/-! ### C05 ids and names -/

/-- The image numbers of a list are pairwise different (both branches). -/
theorem imgNumberInts_nodup (first last : Int) (k : Nat) (hk : 0 < k) (h1 : 1 ≤ last) (h3 : last < first → first ≤ 9999)
    {l : List Int} (hl : imgNumberInts first last (k : Int) 4 = .ok l) : l.Nodup := by
  by_cases h : first ≤ last
  · unfold imgNumberInts at hl
    rw [if_pos h, pyRange_pos hk, pyRangePos_eq_filter hk] at hl
    cases hl
    exact List.Nodup.map (fun a b hab => by have : first + (a : Int) = first + (b : Int) := hab; omega)
      (List.nodup_range.filter _)
  · obtain ⟨m, hm, -, hlist⟩ := C02_overflow_list first last k hk h1 (by omega) (h3 (by omega))
    unfold findImgNumberList at hlist
    rw [hl] at hlist
    simp only [Except.ok.injEq] at hlist
    have := List.map_injective_iff.2 (fun a b => zfill_intStr_injective (w := 4)) hlist
    rw [this]
    apply List.Nodup.map_on _ (List.nodup_range.filter _)
    intro a ha b hb hab
    have ha' := List.mem_range.1 (List.mem_of_mem_filter ha)
    have hb' := List.mem_range.1 (List.mem_of_mem_filter hb)
    rw [nextShot_iterate (by omega) (h3 (by omega)) a (by omega),
      nextShot_iterate (by omega) (h3 (by omega)) b (by omega)] at hab
    split at hab <;> split at hab <;> omega

/-- C05: for every analysis list the program can produce, the file lists ids `1..n`; the name found for id `i` is
the name in row `i`; the id found for that name is `i`; everything else is a `NameError`. -/
theorem C05_ids_and_names (c : ImgCfg) (t : NameTemplate) (times : Int → Str × Str) (rows : List InfoRow)
    (b : BuildType)
    (hpos : 0 < (imgSelection b c).2.2) (hlast : 1 ≤ (imgSelection b c).2.1)
    (hwrap : (imgSelection b c).2.1 < (imgSelection b c).1 → (imgSelection b c).1 ≤ 9999)
    (hb : buildInfoRows b c t times = .ok rows)
    (hsafe : ∀ z, CsvSafe (t.format z) ∧ CsvSafe (times z).1 ∧ CsvSafe (times z).2) :
    rows.map (·.idx) = List.range' 1 rows.length ∧
    (∀ i (hi : i < rows.length), getImgName (infoFile rows) (natStr (i + 1)) = .ok rows[i].name ∧
      getImgId (infoFile rows) rows[i].name = .ok (natStr (i + 1))) ∧
    (∀ q, (q = 0 ∨ rows.length < q) → getImgName (infoFile rows) (natStr q) = .error .nameError) ∧
    (∀ nm, (∀ r ∈ rows, r.name ≠ nm) → getImgId (infoFile rows) nm = .error .nameError) := by
  obtain ⟨k, hk⟩ : ∃ k : Nat, (imgSelection b c).2.2 = (k : Int) := ⟨(imgSelection b c).2.2.toNat, by omega⟩
  have hk0 : 0 < k := by omega
  unfold buildInfoRows imgIdList findImgNumberList at hb
  rw [hk] at hb
  cases hints : imgNumberInts (imgSelection b c).1 (imgSelection b c).2.1 (k : Int) 4 with
  | error e => rw [hints] at hb; cases hb
  | ok l =>
    rw [hints] at hb
    simp only [infoRowsFrom_ints] at hb
    have hnd := imgNumberInts_nodup _ _ k hk0 hlast hwrap hints
    simp only [Except.ok.injEq] at hb
    have hlen : rows.length = l.length := by rw [← hb]; simp
    have hget : ∀ i (hi : i < rows.length), rows[i].idx = i + 1 ∧ rows[i].name = t.format (l[i]'(hlen ▸ hi)) := by
      intro i hi
      subst hb
      simp; omega
    have hload : loadCsv (infoFile rows) = rows.map rowFields := by
      apply loadCsv_infoFile
      intro r hr
      rw [← hb, List.mem_map] at hr
      obtain ⟨p, _, rfl⟩ := hr
      exact hsafe p.1
    refine ⟨?_, ?_, ?_, ?_⟩
    · apply List.ext_getElem
      · simp
      · intro i h1 h2
        simp at h1
        simp [(hget i h1).1]; omega
    · intro i hi
      unfold getImgName getImgId
      rw [hload, findName_rows, findId_rows]
      have f1 : rows.find? (fun r => r.idx = i + 1) = some rows[i] := by
        rw [List.find?_eq_some_iff_getElem]
        refine ⟨by simpa using (hget i hi).1, i, hi, rfl, ?_⟩
        intro j hj
        have := (hget j (by omega)).1
        simp; omega
      have f2 : rows.find? (fun r => r.name = rows[i].name) = some rows[i] := by
        rw [List.find?_eq_some_iff_getElem]
        refine ⟨by simp, i, hi, rfl, ?_⟩
        intro j hj
        have h1 := (hget j (by omega)).2
        have h2 := (hget i hi).2
        simp only [h1, h2, Bool.not_eq_true', decide_eq_false_iff_not]
        intro he
        have := (List.Nodup.getElem_inj_iff hnd).1 (format_injective t he)
        omega
      rw [f1, f2]
      exact ⟨rfl, by simp [(hget i hi).1]⟩
    · intro q hq
      unfold getImgName
      rw [hload, findName_rows]
      have : rows.find? (fun r => r.idx = q) = none := by
        rw [List.find?_eq_none]
        intro r hr
        obtain ⟨i, hi, rfl⟩ := List.getElem_of_mem hr
        have := (hget i hi).1
        simp; omega
      rw [this]
    · intro nm hnm
      unfold getImgId
      rw [hload, findId_rows]
      have : rows.find? (fun r => r.name = nm) = none := by
        rw [List.find?_eq_none]
        intro r hr
        simpa using hnm r hr
      rw [this]

/-- Templates without `,` and `#` only give names that survive the CSV file. -/
theorem csvSafe_format {t : NameTemplate} (h1 : CsvSafe t.pre) (h2 : CsvSafe t.post) (z : Int) :
    CsvSafe (t.format z) := by
  have hz : ∀ c ∈ zfill t.width (intStr z), c = '-' ∨ isDigit c = true := by
    intro c hc
    unfold intStr at hc
    split at hc
    · unfold zfill at hc
      simp only [List.mem_cons, List.mem_append, List.mem_replicate] at hc
      rcases hc with rfl | ⟨_, rfl⟩ | hc
      · exact Or.inl rfl
      · exact Or.inr (by decide)
      · exact Or.inr (natStr_isDigit _ c hc)
    · rw [zfill_digits (natStr_isDigit _), List.mem_append, List.mem_replicate] at hc
      rcases hc with ⟨_, rfl⟩ | hc
      · exact Or.inr (by decide)
      · exact Or.inr (natStr_isDigit _ c hc)
  have hno : ∀ x : Char, x ≠ '-' → isDigit x = false → x ∉ zfill t.width (intStr z) := by
    intro x hx1 hx2 hmem
    rcases hz x hmem with h | h
    · exact hx1 h
    · simp [hx2] at h
  constructor
  · simp [NameTemplate.format, h1.1, h2.1, hno ',' (by decide) (by decide)]
  · simp [NameTemplate.format, h1.2, h2.2, hno '#' (by decide) (by decide)]

/-- A concrete list across the overflow meeting the hypotheses, and its use. -/
def demoRows : List InfoRow :=
  [⟨1, "img_9998.JPG".toList, "12:00:00".toList, "1.0".toList⟩,
   ⟨2, "img_1.JPG".toList, "12:00:00".toList, "1.0".toList⟩,
   ⟨3, "img_3.JPG".toList, "12:00:00".toList, "1.0".toList⟩]

example : getImgName (infoFile demoRows) (natStr 2) = .ok "img_1.JPG".toList :=
  ((C05_ids_and_names ⟨9998, 3, 9998, 3, 1, some 9999⟩ ⟨"img_".toList, 0, ".JPG".toList⟩
    (fun _ => ("12:00:00".toList, "1.0".toList)) demoRows .analysis (by decide) (by decide) (by decide) (by decide)
    (fun z => ⟨csvSafe_format (by unfold CsvSafe; decide) (by unfold CsvSafe; decide) z, by unfold CsvSafe; decide, by unfold CsvSafe; decide⟩)).2.1 1 (by decide)).1

example : buildInfoRows .analysis ⟨9998, 3, 9998, 3, 1, some 9999⟩ ⟨"img_".toList, 0, ".JPG".toList⟩
      (fun _ => ("12:00:00".toList, "1.0".toList)) =
    .ok [⟨1, "img_9998.JPG".toList, "12:00:00".toList, "1.0".toList⟩,
         ⟨2, "img_1.JPG".toList, "12:00:00".toList, "1.0".toList⟩,
         ⟨3, "img_3.JPG".toList, "12:00:00".toList, "1.0".toList⟩] := by decide

end Ledsa
