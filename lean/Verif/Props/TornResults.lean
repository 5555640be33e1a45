import Verif.Props.Interrupted
import Verif.Props.ReadTable
import Verif.Props.Frames
import Verif.Props.Locality
import Verif.Proofs.Extraction
/-
C157: result files of step 3 that were cut off, for example because the program was killed: what is read from them and what the analysis
makes of it.
-/
namespace Ledsa

/-! ### The text -/

/-- Specification: the numbers of an LED in a complete file. -/
def ledNumbers (r : ℕ × ℕ × Measured ℚ) : List ℚ := [(r.1 : ℚ), (r.2.1 : ℚ), sciVal r.2.2.sum, sciVal r.2.2.mean, (⌊r.2.2.max⌋ : ℚ)]

/-- The rows of a file that was cut off, before numbers are read. -/
theorem loadCsv_torn (root name : Str) (channel : ℕ) (time : Str) (rows : List (ℕ × ℕ × Measured ℚ)) (h1 : '\n' ∉ root) (h2 : '\n' ∉ name)
    (h3 : '\n' ∉ time) (text : Str) (h : resultText root name channel time none rows = .ok text) (cut : ℕ) :
    ∃ k, loadCsv (splitChar '\n' (text.take cut)) = (rows.take k).map (fun r => splitChar ',' (rowLine none r)) ∨
      ∃ r pre, rows[k]? = some r ∧ pre <+: rowLine none r ∧
        loadCsv (splitChar '\n' (text.take cut)) = (rows.take k).map (fun r => splitChar ',' (rowLine none r)) ++ [splitChar ',' pre] := by
  have ht : text = ((('#' :: header1 root name channel time) :: ('#' :: header2 false) :: rows.map (rowLine none)).map
      fun l => l ++ ['\n']).flatten := by
    unfold resultText at h
    match rows, h with
    | r :: rs, h =>
      have h := (Except.ok.inj h).symm
      have hl : (r :: rs).map (resultLine none) = ((r :: rs).map (rowLine none)).map fun l => l ++ ['\n'] := by
        rw [List.map_map]; rfl
      rw [h, headerText_lines, hl]
      simp only [List.map_cons, List.flatten_cons, List.append_assoc, Option.isSome_none]
  have hnl : ∀ l ∈ ('#' :: header1 root name channel time) :: ('#' :: header2 false) :: rows.map (rowLine none), '\n' ∉ l := by
    intro l hl
    rcases List.mem_cons.1 hl with rfl | hl
    · exact header1_noLine root name channel time h1 h2 h3
    · rcases List.mem_cons.1 hl with rfl | hl
      · exact header2_noLine _
      · obtain ⟨r, _, rfl⟩ := List.mem_map.1 hl
        exact rowLine_notMem none r '\n' (by decide)
  have hrows : ∀ k, ∀ l ∈ (rows.take k).map (rowLine none), '#' ∉ l ∧ l ≠ [] := by
    intro k l hl
    obtain ⟨r, _, rfl⟩ := List.mem_map.1 hl
    exact ⟨rowLine_notMem none r '#' (by decide), rowLine_ne_nil none r⟩
  have hhash : ∀ (s pre : Str), pre <+: '#' :: s → loadCsv [pre] = [] := by
    intro s pre hp
    cases pre with
    | nil => rfl
    | cons c pre =>
      rw [List.cons_prefix_cons] at hp
      rw [hp.1, loadCsv_comment]; rfl
  obtain ⟨j, pre, e1, e2, e3⟩ := take_textLines (('#' :: header1 root name channel time) :: ('#' :: header2 false) :: rows.map (rowLine none)) cut
  have hpre : '\n' ∉ pre := by
    rcases e3 with rfl | ⟨l, hl, hp⟩
    · simp
    · exact fun hm => hnl l (List.mem_of_getElem? hl) (hp.subset hm)
  rw [ht, e1, splitChar_textLines_end _ (fun l hl => hnl l (List.mem_of_mem_take hl)) pre hpre]
  match j, e3 with
  | 0, e3 =>
    refine ⟨0, Or.inl ?_⟩
    rcases e3 with rfl | ⟨l, hl, hp⟩
    · rfl
    · simp only [List.getElem?_cons_zero, Option.some.injEq] at hl
      subst hl
      exact hhash _ _ hp
  | 1, e3 =>
    refine ⟨0, Or.inl ?_⟩
    rw [List.take_succ_cons, List.take_zero, List.cons_append, loadCsv_comment, List.nil_append]
    rcases e3 with rfl | ⟨l, hl, hp⟩
    · rfl
    · simp only [List.getElem?_cons_succ, List.getElem?_cons_zero, Option.some.injEq] at hl
      subst hl
      exact hhash _ _ hp
  | k + 2, e3 =>
    refine ⟨k, ?_⟩
    rw [List.take_succ_cons, List.take_succ_cons, List.cons_append, List.cons_append, loadCsv_comment, loadCsv_comment, ← List.map_take]
    by_cases hp0 : pre = []
    · left
      rw [hp0, loadCsv_end, loadCsv_rows _ (hrows k), List.map_map]
      rfl
    · right
      obtain ⟨l, hl, hp⟩ := e3.resolve_left hp0
      rw [List.getElem?_cons_succ, List.getElem?_cons_succ, List.getElem?_map] at hl
      cases hk : rows[k]? with
      | none => rw [hk] at hl; cases hl
      | some r =>
        rw [hk] at hl
        simp only [Option.map_some, Option.some.injEq] at hl
        subst hl
        refine ⟨r, pre, rfl, hp, ?_⟩
        rw [loadCsv_rows, List.map_append, List.map_map]
        · rfl
        · intro l hl
          rcases List.mem_append.1 hl with hl | hl
          · exact hrows k l hl
          · rw [List.mem_singleton] at hl
            subst hl
            exact ⟨fun hm => rowLine_notMem none r '#' (by decide) (hp.subset hm), hp0⟩

theorem optMapM_length {α β : Type} (f : α → Option β) : ∀ (l : List α) (r : List β), l.mapM f = some r → r.length = l.length := by
  intro l
  induction l with
  | nil => intro r h; cases h; rfl
  | cons a l ih =>
    intro r h
    rw [List.mapM_cons] at h
    cases ha : f a with
    | none => rw [ha] at h; cases h
    | some b =>
      rw [ha] at h
      cases hl : l.mapM f with
      | none => rw [hl] at h; cases h
      | some bs =>
        rw [hl] at h
        cases h
        rw [List.length_cons, List.length_cons, ih bs hl]

/-- A line that was cut off but still has its five fields. -/
theorem readRow_torn (r : ℕ × ℕ × Measured ℚ) (hmax : 0 ≤ r.2.2.max) (pre : Str) (hp : pre <+: rowLine none r) (x : List ℚ)
    (hx : (splitChar ',' pre).mapM readFloat = some x) (h5 : x.length = 5) :
    ∃ e : ℕ, x = [(r.1 : ℚ), (r.2.1 : ℚ), sciVal r.2.2.sum, sciVal r.2.2.mean, ((⌊r.2.2.max⌋ / 10 ^ e : ℤ) : ℚ)] := by
  have hlen := optMapM_length _ _ _ hx
  rw [h5] at hlen
  have hj := joinChar_splitChar ',' pre
  have hno : ∀ f ∈ splitChar ',' pre, ',' ∉ f := fun f hf => splitChar_parts hf
  have hj2 := joinChar_splitChar ',' (rowLine none r)
  have hno2 : ∀ f ∈ splitChar ',' (rowLine none r), ',' ∉ f := fun f hf => splitChar_parts hf
  rw [rowLine_fields] at hj2 hno2
  generalize splitChar ',' pre = fs at hx hlen hj hno
  match fs, hlen with
  | [f1, f2, f3, f4, f5], _ =>
    have e : f1 ++ ',' :: (f2 ++ ',' :: (f3 ++ ',' :: (f4 ++ ',' :: f5))) <+: padLeft 4 (natStr r.1) ++ ',' :: (padLeft 2 (natStr r.2.1) ++ ',' ::
        (fmtSci r.2.2.sum ++ ',' :: (fmtSci r.2.2.mean ++ ',' :: intStr ⌊r.2.2.max⌋))) := by
      have h1 : joinChar ',' [f1, f2, f3, f4, f5] = f1 ++ ',' :: (f2 ++ ',' :: (f3 ++ ',' :: (f4 ++ ',' :: f5))) := by simp [joinChar]
      have h2 : joinChar ',' [padLeft 4 (natStr r.1), padLeft 2 (natStr r.2.1), fmtSci r.2.2.sum, fmtSci r.2.2.mean, intStr ⌊r.2.2.max⌋] =
          padLeft 4 (natStr r.1) ++ ',' :: (padLeft 2 (natStr r.2.1) ++ ',' :: (fmtSci r.2.2.sum ++ ',' :: (fmtSci r.2.2.mean ++ ',' ::
            intStr ⌊r.2.2.max⌋))) := by
        rw [joinChar, joinChar, joinChar, joinChar, joinChar] <;> simp
      rw [← h1, ← h2, hj, hj2]
      exact hp
    obtain ⟨g1, e⟩ := prefix_field _ _ _ _ (hno f1 (by simp)) (hno2 _ (by simp)) e
    obtain ⟨g2, e⟩ := prefix_field _ _ _ _ (hno f2 (by simp)) (hno2 _ (by simp)) e
    obtain ⟨g3, e⟩ := prefix_field _ _ _ _ (hno f3 (by simp)) (hno2 _ (by simp)) e
    obtain ⟨g4, e⟩ := prefix_field _ _ _ _ (hno f4 (by simp)) (hno2 _ (by simp)) e
    have hc : f5 ≠ [] := by
      intro h0
      rw [h0] at hx
      have hn : readFloat [] = none := by decide
      rw [optMapM_none (a := []) (by simp) hn] at hx
      cases hx
    have hz : 0 ≤ ⌊r.2.2.max⌋ := Int.floor_nonneg.2 hmax
    obtain ⟨n, hn⟩ := Int.eq_ofNat_of_zero_le hz
    have hs : intStr ⌊r.2.2.max⌋ = natStr n := by rw [hn]; simp [intStr]
    rw [hs] at e
    obtain ⟨k, hk⟩ := natStr_prefix n f5 hc e
    have hf5 : readFloat f5 = some ((n / 10 ^ k : ℕ) : ℚ) := by
      rw [hk]
      have := readFloat_padLeft 0 (n / 10 ^ k)
      unfold padLeft at this
      simpa using this
    refine ⟨k, ?_⟩
    simp only [List.mapM_cons, List.mapM_nil, g1, g2, g3, g4, readFloat_padLeft, readFloat_fmtSci, hf5] at hx
    have := (Option.some.inj hx).symm
    rw [this, hn]
    rfl

theorem readTable_mat_inv (rows m : List (List ℚ)) (h : readTable (some rows) false = .ok (.mat m)) :
    m = rows ∧ 2 ≤ rows.length ∧ ∀ r ∈ rows, ∀ s ∈ rows, r.length = s.length := by
  have hlen : ∀ r ∈ rows, ∀ s ∈ rows, r.length = s.length := by
    by_contra hc
    push Not at hc
    obtain ⟨r, hr, s, hs, hne⟩ := hc
    obtain ⟨e, he⟩ := (C153_fails_iff rows false).2 ⟨r, hr, s, hs, hne⟩
    rw [he] at h
    cases h
  have key : m = rows ∧ 2 ≤ rows.length := by
    match rows, hlen, h with
    | [], _, h => cases h
    | [[]], _, h => simp [readTable, loadtxt, Except.map, NpArr.atleast1d] at h
    | [[x]], _, h => simp [readTable, loadtxt, Except.map, NpArr.atleast1d] at h
    | [x :: y :: r], _, h => simp [readTable, loadtxt, Except.map, NpArr.atleast1d] at h
    | r :: s :: rest, hlen, h =>
      have hc : ∀ z ∈ s :: rest, z.length = r.length := fun z hz => hlen z (List.mem_cons_of_mem _ hz) r (by simp)
      match r, hc, h with
      | [], hc, h =>
        simp only [readTable, loadtxt] at h
        rw [if_pos hc] at h
        simp only [Except.map, Bool.false_eq_true, if_false, NpArr.atleast1d, Except.ok.injEq, NpArr.mat.injEq] at h
        exact ⟨h.symm, by simp⟩
      | [x], hc, h =>
        simp only [readTable, loadtxt] at h
        rw [if_pos hc] at h
        simp only [Except.map, Bool.false_eq_true, if_false, NpArr.atleast1d, Except.ok.injEq, reduceCtorEq] at h
      | x :: y :: r, hc, h =>
        simp only [readTable, loadtxt] at h
        rw [if_pos hc] at h
        simp only [Except.map, Bool.false_eq_true, if_false, NpArr.atleast1d, Except.ok.injEq, NpArr.mat.injEq] at h
        exact ⟨h.symm, by simp⟩
  exact ⟨key.1, key.2, hlen⟩

/-- **C157 (what is read).** From a result file of which only the beginning was written a table is read only if it has at least two LEDs; LEDs at
its end may be missing, and of the last LED final digits of the maximum. Number, array, sum and mean of every LED are those of the
complete file. -/
theorem C157_torn (root name : Str) (channel : ℕ) (time : Str) (rows : List (ℕ × ℕ × Measured ℚ)) (h1 : '\n' ∉ root) (h2 : '\n' ∉ name)
    (h3 : '\n' ∉ time) (hmax : ∀ r ∈ rows, 0 ≤ r.2.2.max) (text : Str) (h : resultText root name channel time none rows = .ok text) (cut : ℕ)
    (numbers m : List (List ℚ)) (hl : loadNumbers (text.take cut) = .ok numbers) (hm : readTable (some numbers) false = .ok (.mat m)) :
    ∃ k, m = (rows.take k).map ledNumbers ∨
      ∃ r e, rows[k]? = some r ∧ m = (rows.take k).map ledNumbers ++
        [[(r.1 : ℚ), (r.2.1 : ℚ), sciVal r.2.2.sum, sciVal r.2.2.mean, ((⌊r.2.2.max⌋ / 10 ^ e : ℤ) : ℚ)]] := by
  obtain ⟨rfl, hlen2, hlen⟩ := readTable_mat_inv _ _ hm
  obtain ⟨k, hk⟩ := loadCsv_torn root name channel time rows h1 h2 h3 text h cut
  have hread : ∀ u : List (ℕ × ℕ × Measured ℚ), (u.map fun r => splitChar ',' (rowLine none r)).mapM (fun row => row.mapM readFloat) =
      some (u.map ledNumbers) := by
    intro u
    induction u with
    | nil => rfl
    | cons r u ih =>
      rw [List.map_cons, List.mapM_cons, readRow, ih]
      rfl
  refine ⟨k, ?_⟩
  unfold loadNumbers at hl
  rcases hk with hk | ⟨r, pre, hr, hp, hk⟩
  · left
    rw [hk, hread] at hl
    exact (Except.ok.inj hl).symm
  · right
    rw [hk, List.mapM_append, hread, List.mapM_cons, List.mapM_nil] at hl
    cases hx : (splitChar ',' pre).mapM readFloat with
    | none => rw [hx] at hl; cases hl
    | some x =>
      rw [hx] at hl
      have e : m = (rows.take k).map ledNumbers ++ [x] := (Except.ok.inj hl).symm
      subst e
      have hk0 : (rows.take k).map ledNumbers ≠ [] := by
        intro h0
        rw [h0] at hlen2
        simp at hlen2
      obtain ⟨y, hy⟩ := List.exists_mem_of_ne_nil _ hk0
      have h5 : x.length = 5 := by
        rw [hlen x (by simp) y (List.mem_append_left _ hy)]
        obtain ⟨z, _, rfl⟩ := List.mem_map.1 hy
        rfl
      obtain ⟨n, hn⟩ := readRow_torn r (hmax r (List.mem_of_getElem? hr)) pre hp x hx h5
      exact ⟨r, n, hr, by rw [hn]⟩

/-- Specification: what the analysis uses by default, number, array and sum. -/
def ledSums (rows : List (List ℚ)) : List (List ℚ) := rows.map (List.take 3)

/-- **C157 (sums).** The LEDs with their sums are a beginning of those of the complete file. -/
theorem C157_sums (root name : Str) (channel : ℕ) (time : Str) (rows : List (ℕ × ℕ × Measured ℚ)) (h1 : '\n' ∉ root) (h2 : '\n' ∉ name)
    (h3 : '\n' ∉ time) (hmax : ∀ r ∈ rows, 0 ≤ r.2.2.max) (text : Str) (h : resultText root name channel time none rows = .ok text) (cut : ℕ)
    (numbers m full : List (List ℚ)) (hl : loadNumbers (text.take cut) = .ok numbers) (hm : readTable (some numbers) false = .ok (.mat m))
    (hf : loadNumbers text = .ok full) : ledSums m <+: ledSums full := by
  have hfull : full = rows.map ledNumbers := by
    unfold loadNumbers at hf
    rw [loadCsv_resultText root name channel time none rows h1 h2 h3 text h] at hf
    have hread : ∀ u : List (ℕ × ℕ × Measured ℚ), (u.map fun r => splitChar ',' (rowLine none r)).mapM (fun row => row.mapM readFloat) =
        some (u.map ledNumbers) := by
      intro u
      induction u with
      | nil => rfl
      | cons r u ih =>
        rw [List.map_cons, List.mapM_cons, readRow, ih]
        rfl
    rw [hread] at hf
    exact (Except.ok.inj hf).symm
  subst hfull
  obtain ⟨k, hk | ⟨r, e, hr, hk⟩⟩ := C157_torn root name channel time rows h1 h2 h3 hmax text h cut numbers m hl hm
  · rw [hk]
    unfold ledSums
    rw [List.map_take, List.map_take]
    exact List.take_prefix _ _
  · have : ledSums m = ledSums ((rows.map ledNumbers).take (k + 1)) := by
      rw [hk, ← List.map_take, List.take_add_one, hr]
      simp [ledSums, ledNumbers]
    rw [this]
    unfold ledSums
    rw [List.map_take]
    exact List.take_prefix _ _

/-! ### The analysis -/

theorem insertRow_filter {V : Type} (p : ℕ × V → Bool) (r : ℕ × V) (l : List (ℕ × V)) (h : l.Pairwise (fun x y => x.1 ≤ y.1)) :
    (insertRow r l).filter p = if p r then insertRow r (l.filter p) else l.filter p := by
  induction l with
  | nil =>
    unfold insertRow
    by_cases hp : p r <;> simp [hp]
  | cons s l ih =>
    rw [List.pairwise_cons] at h
    rw [insertRow]
    by_cases hrs : r.1 ≤ s.1
    · rw [if_pos hrs]
      by_cases hp : p r
      · rw [List.filter_cons_of_pos hp, if_pos hp]
        have hall : ∀ x ∈ (s :: l).filter p, r.1 ≤ x.1 := by
          intro x hx
          rcases List.mem_cons.1 (List.mem_filter.1 hx).1 with rfl | hx
          · exact hrs
          · exact hrs.trans (h.1 x hx)
        generalize (s :: l).filter p = q at hall
        cases q with
        | nil => rfl
        | cons x q => rw [insertRow, if_pos (hall x (by simp))]
      · rw [List.filter_cons_of_neg hp, if_neg hp]
    · rw [if_neg hrs]
      by_cases hs : p s
      · rw [List.filter_cons_of_pos hs, ih h.2, List.filter_cons_of_pos hs]
        split
        · rw [insertRow, if_neg hrs]
        · rfl
      · rw [List.filter_cons_of_neg hs, ih h.2, List.filter_cons_of_neg hs]

theorem insertRow_le {V : Type} (r : ℕ × V) (l : List (ℕ × V)) (h : l.Pairwise (fun x y => x.1 ≤ y.1)) :
    (insertRow r l).Pairwise (fun x y => x.1 ≤ y.1) := by
  induction l with
  | nil => simp [insertRow]
  | cons s l ih =>
    have h' := h
    rw [List.pairwise_cons] at h
    unfold insertRow
    split
    · rename_i hrs
      rw [List.pairwise_cons]
      refine ⟨?_, h'⟩
      intro x hx
      rcases List.mem_cons.1 hx with rfl | hx
      · exact hrs
      · exact hrs.trans (h.1 x hx)
    · rename_i hrs
      rw [List.pairwise_cons]
      refine ⟨?_, ih h.2⟩
      intro x hx
      rw [insertRow_mem] at hx
      rcases hx with rfl | hx
      · omega
      · exact h.1 x hx

theorem sortRows_le {V : Type} (l : List (ℕ × V)) : (sortRows l).Pairwise (fun x y => x.1 ≤ y.1) := by
  induction l with
  | nil => simp [sortRows]
  | cons r l ih => exact insertRow_le r _ ih

/-- Sorting and selecting can be exchanged. -/
theorem sortRows_filter {V : Type} (p : ℕ × V → Bool) (l : List (ℕ × V)) : (sortRows l).filter p = sortRows (l.filter p) := by
  induction l with
  | nil => rfl
  | cons r l ih =>
    rw [sortRows, insertRow_filter p r _ (sortRows_le l), ih]
    by_cases hp : p r
    · rw [if_pos hp, List.filter_cons_of_pos hp, sortRows]
    · rw [if_neg hp, List.filter_cons_of_neg hp]

/-- Specification: the LEDs of an array in a file. -/
def ledsOfArray {K : Type} (arr : ℕ) (rows : List (ℕ × ℕ × K)) : List (ℕ × ℕ × K) := rows.filter fun r => r.2.1 = arr

theorem arrayRows_parts {K : Type} (files : ℕ → List (ℕ × ℕ × K)) (N arr : ℕ) :
    ((loadedTable files N).filter fun r => r.2.2.1 = arr).map (fun r => (r.1, r.2.1, r.2.2.2)) =
      (List.range N).flatMap fun (k : ℕ) => ((sortRows (ledsOfArray arr (files (k + 1)))).map fun r => (r.1, r.2.2)).map fun r => (k + 1, r) := by
  unfold loadedTable
  rw [List.filter_flatMap, List.map_flatMap]
  congr 1
  funext k
  rw [List.filter_map, List.map_map, List.map_map]
  unfold ledsOfArray
  rw [← sortRows_filter]
  rfl

theorem imgValues_parts {K : Type} (g : ℕ → List (ℕ × K)) (N j : ℕ) :
    imgValues ((List.range N).flatMap fun (k : ℕ) => (g k).map fun r => (k + 1, r)) (j + 1) = if j < N then (g j).map (·.2) else [] := by
  induction N with
  | zero => rfl
  | succ N ih =>
    rw [List.range_succ, List.flatMap_append]
    unfold imgValues at ih ⊢
    rw [List.filter_append, List.map_append, ih, List.flatMap_cons, List.flatMap_nil, List.append_nil, List.filter_map, List.map_map]
    by_cases hj : j < N
    · rw [if_pos hj, if_pos (by omega), List.filter_eq_nil_iff.2]
      · simp
      · intro x _
        simp only [Function.comp, decide_eq_true_eq]
        omega
    · rw [if_neg hj, List.nil_append]
      by_cases he : j = N
      · subst he
        rw [if_pos (by omega), List.filter_eq_self.2]
        · rfl
        · intro x _
          simp
      · rw [if_neg (by omega), List.filter_eq_nil_iff.2]
        · rfl
        · intro x _
          simp only [Function.comp, decide_eq_true_eq]
          omega

theorem npDivide_length (v ref rel : List ℝ) (h : npDivide v ref = .ok rel) (hv : v.length ≠ 1) : rel.length = v.length := by
  unfold npDivide at h
  split at h
  · rename_i he
    have := (Except.ok.inj h).symm
    rw [this, List.length_zipWith, he, Nat.min_self]
  · split at h
    · simp at hv
    · have := (Except.ok.inj h).symm
      rw [this, List.length_map]
    · cases h

theorem mapM_get {α β : Type} (f : α → Except PyErr β) : ∀ (l : List α) (r : List β), l.mapM f = .ok r → ∀ x ∈ l, ∃ y ∈ r, f x = .ok y := by
  intro l
  induction l with
  | nil => intro r _ x hx; cases hx
  | cons a l ih =>
    intro r h x hx
    rw [List.mapM_cons] at h
    cases ha : f a with
    | error e => rw [ha] at h; cases h
    | ok b =>
      rw [ha] at h
      cases hl : l.mapM f with
      | error e => rw [hl] at h; cases h
      | ok bs =>
        rw [hl] at h
        have h := (Except.ok.inj h).symm
        subst h
        rcases List.mem_cons.1 hx with rfl | hx
        · exact ⟨b, by simp, ha⟩
        · obtain ⟨y, hy, e⟩ := ih bs hl x hx
          exact ⟨y, List.mem_cons_of_mem _ hy, e⟩

theorem keys_all (keys : List ℕ) (N : ℕ) (hs : keys.Pairwise (· < ·)) (hm : ∀ k ∈ keys, ∃ j < N, k = j + 1) (hl : keys.length = N) :
    ∀ j < N, j + 1 ∈ keys := by
  intro j hj
  have hnd : keys.Nodup := hs.imp fun h => Nat.ne_of_lt h
  have hsub : keys.toFinset ⊆ (Finset.range N).image (· + 1) := by
    intro k hk
    obtain ⟨j, hj, rfl⟩ := hm k (List.mem_toFinset.1 hk)
    exact Finset.mem_image.2 ⟨j, Finset.mem_range.2 hj, rfl⟩
  have hcard : ((Finset.range N).image (· + 1)).card ≤ keys.toFinset.card := by
    rw [List.toFinset_card_of_nodup hnd, hl]
    exact Finset.card_image_le.trans (by simp)
  have := Finset.eq_of_subset_of_card_le hsub hcard
  rw [← List.mem_toFinset, this]
  exact Finset.mem_image.2 ⟨j, Finset.mem_range.2 hj, rfl⟩

theorem serialRel_lengths (d : ImgData ℝ) (ref : List ℝ) (rels : List (List ℝ)) (n N : ℕ) (h : serialRel d ref = .ok rels) (hN : rels.length = N)
    (hn : ∀ rel ∈ rels, rel.length = n) (himg : ∀ r ∈ d, ∃ j < N, r.1 = j + 1) (hone : ∀ j < N, (imgValues d (j + 1)).length ≠ 1) :
    ∀ j < N, (imgValues d (j + 1)).length = n := by
  intro j hj
  have hlen := mapM_length _ _ _ h
  have hmem := keys_all (groupKeys (d.map (·.1))) N (groupKeys_sorted _) (by
    intro k hk
    rw [groupKeys_mem] at hk
    obtain ⟨r, hr, rfl⟩ := List.mem_map.1 hk
    exact himg r hr) (by rw [← hlen, hN]) j hj
  obtain ⟨rel, hrel, e⟩ := mapM_get _ _ _ h _ hmem
  rw [← npDivide_length _ _ _ e (hone j hj), hn rel hrel]

theorem poolRel_lengths (d : ImgData ℝ) (ref : List ℝ) (rels : List (List ℝ)) (n N : ℕ) (h : poolRel d ref = .ok rels) (hN : rels.length = N)
    (hn : ∀ rel ∈ rels, rel.length = n) (hone : ∀ j < N, (imgValues d (j + 1)).length ≠ 1) :
    ∀ j < N, (imgValues d (j + 1)).length = n := by
  intro j hj
  unfold poolRel at h
  cases ha : toArray d with
  | error e => rw [ha] at h; cases h
  | ok rows =>
    rw [ha] at h
    simp only at h
    have hlen := mapM_length _ _ _ h
    unfold toArray at ha
    split at ha
    · have hlen2 := mapM_length _ _ _ ha
      rw [List.length_range] at hlen2
      obtain ⟨row, hrow, e⟩ := mapM_get _ _ _ ha j (List.mem_range.2 (by omega))
      obtain ⟨rel, hrel, e2⟩ := mapM_get _ _ _ h row hrow
      unfold arrayRow at e
      have h1 := hone j hj
      split at e
      · cases e
      · rename_i x hx
        rw [hx] at h1
        simp at h1
      · rename_i l hl
        split at e
        · obtain rfl := Except.ok.inj e
          rw [← hn rel hrel, npDivide_length _ _ _ e2 h1]
        · cases e
    · cases ha

/-- **C157 (no wrong coefficients).** If result files lack LEDs at their end, or anywhere, and the analysis nevertheless delivers coefficients for all
images, then these are the coefficients of the complete files, except if some file has exactly one LED of the array left. -/
theorem C157_same (a : ArrayAnalysis) (files files' : ℕ → List (ℕ × ℕ × ℝ)) (N : ℕ) (hsub : ∀ i, (files' i).Sublist (files i))
    (hfull : ∀ k < N, (ledsOfArray a.arr (files (k + 1))).length = a.ids.length) (hone : ∀ k < N, (ledsOfArray a.arr (files' (k + 1))).length ≠ 1)
    (rs : List (Fin a.layers → ℝ)) (h : a.Result files' N (.ok rs)) (hN : rs.length = N) : a.Result files N (.ok rs) := by
  suffices hd : arrayData (loadedTable files' N) a.arr = arrayData (loadedTable files N) a.arr by
    unfold ArrayAnalysis.Result ArrayAnalysis.solverInput at h ⊢
    rw [← hd]
    exact h
  unfold ArrayAnalysis.Result ArrayAnalysis.solverInput ArrayAnalysis.inputOf at h
  cases hpos : ledPositions a.coordinates a.ids with
  | error e => rw [hpos] at h; cases h
  | ok leds =>
    rw [hpos] at h
    cases hdat : arrayData (loadedTable files' N) a.arr with
    | error e => rw [hdat] at h; cases h
    | ok d =>
      rw [hdat] at h
      simp only [bind, Except.bind] at h
      replace h : a.ResultOf ((if a.parallel then poolRel d (refIntensities a.ref d) else serialRel d (refIntensities a.ref d)).map
          fun v => (distanceArray a.cam (Ledsa.layers a.lo a.hi a.layers) leds, v)) (.ok rs) := by
        by_cases hp : a.parallel = true
        · rw [if_pos hp] at h ⊢
          cases hA : poolRel d (refIntensities a.ref d) with
          | error e => rw [hA] at h; exact h
          | ok v => rw [hA] at h; exact h
        · rw [if_neg hp] at h ⊢
          cases hA : serialRel d (refIntensities a.ref d) with
          | error e => rw [hA] at h; exact h
          | ok v => rw [hA] at h; exact h
      cases hrel : (if a.parallel then poolRel d (refIntensities a.ref d) else serialRel d (refIntensities a.ref d)) with
      | error e => rw [hrel] at h; cases h
      | ok rels =>
        rw [hrel] at h
        obtain ⟨rs', hf, hr⟩ := h
        have hrs := (mapM_id_ok_iff _ _).1 hr.symm
        have hlen : rels.length = N := by
          rw [hf.length_eq, hrs, List.length_map, hN]
        have hleds : leds.length = a.ids.length := by
          unfold ledPositions at hpos
          cases hp : a.ids.mapM (fun i => a.coordinates[i]?) with
          | none => rw [hp] at hpos; cases hpos
          | some l =>
            rw [hp] at hpos
            obtain rfl := Except.ok.inj hpos
            exact optMapM_length _ _ _ hp
        have hn : ∀ rel ∈ rels, rel.length = a.ids.length := by
          intro rel hm
          obtain ⟨i, hi, rfl⟩ := List.getElem_of_mem hm
          have hi' : i < rs'.length := by rw [← hf.length_eq]; exact hi
          have hx := hf.get hi hi'
          have hok : ∀ x ∈ rs', ∃ σ, x = .ok σ := by
            intro x hx
            rw [hrs] at hx
            obtain ⟨σ, _, e⟩ := List.mem_map.1 hx
            exact ⟨σ, e.symm⟩
          obtain ⟨σ, hσ⟩ := hok (rs'.get ⟨i, hi'⟩) (List.get_mem _ _)
          rw [hσ] at hx
          unfold LinearImage at hx
          cases hM : (distanceArray a.cam (Ledsa.layers a.lo a.hi a.layers) leds).mapM id with
          | none => rw [hM] at hx; cases hx
          | some M =>
            rw [hM] at hx
            simp only at hx
            split at hx
            · rename_i he
              rw [List.get_eq_getElem] at he
              rw [he, optMapM_length _ _ _ hM, ← hleds]
              unfold distanceArray distanceRows
              rw [List.length_map, List.length_reverse]
            · cases hx
        have hd : d = (List.range N).flatMap fun (k : ℕ) =>
            ((sortRows (ledsOfArray a.arr (files' (k + 1)))).map fun r => (r.1, r.2.2)).map fun r => (k + 1, r) := by
          unfold arrayData at hdat
          rw [arrayRows_parts] at hdat
          split at hdat
          · cases hdat
          · exact (Except.ok.inj hdat).symm
        have hval : ∀ k < N, (imgValues d (k + 1)).length = (ledsOfArray a.arr (files' (k + 1))).length := by
          intro k hk
          rw [hd, imgValues_parts, if_pos hk, List.length_map, List.length_map, sortRows_length]
        have hall : ∀ k < N, (imgValues d (k + 1)).length = a.ids.length := by
          cases hp : a.parallel with
          | true =>
            rw [hp, if_pos rfl] at hrel
            exact poolRel_lengths d _ rels _ N hrel hlen hn fun k hk => by rw [hval k hk]; exact hone k hk
          | false =>
            rw [hp, if_neg (by simp)] at hrel
            refine serialRel_lengths d _ rels _ N hrel hlen hn ?_ fun k hk => by rw [hval k hk]; exact hone k hk
            intro r hr
            rw [hd] at hr
            obtain ⟨k, hk, hr⟩ := List.mem_flatMap.1 hr
            obtain ⟨x, _, rfl⟩ := List.mem_map.1 hr
            exact ⟨k, List.mem_range.1 hk, rfl⟩
        have heq : ∀ k < N, ledsOfArray a.arr (files' (k + 1)) = ledsOfArray a.arr (files (k + 1)) := by
          intro k hk
          refine ((hsub (k + 1)).filter _).eq_of_length ?_
          have h1 := hall k hk
          rw [hval k hk] at h1
          exact h1.trans (hfull k hk).symm
        rw [← hdat]
        unfold arrayData
        rw [arrayRows_parts, arrayRows_parts]
        have : ((List.range N).flatMap fun (k : ℕ) => ((sortRows (ledsOfArray a.arr (files' (k + 1)))).map fun r => (r.1, r.2.2)).map fun r => (k + 1, r)) =
            (List.range N).flatMap fun (k : ℕ) => ((sortRows (ledsOfArray a.arr (files (k + 1)))).map fun r => (r.1, r.2.2)).map fun r => (k + 1, r) := by
          rw [List.flatMap_def, List.flatMap_def]
          congr 1
          refine List.map_congr_left fun k hk => ?_
          rw [heq k (List.mem_range.1 hk)]
        rw [this]

/-- **C157 (one LED left).** A file with exactly one LED of the array left is not noticed: its value is used for every LED. -/
theorem C157_single (d : ImgData ℝ) (ref : List ℝ) (rels : List (List ℝ)) (h : serialRel d ref = .ok rels) (i : ℕ) (x : ℝ)
    (hx : imgValues d i = [x]) : ∃ rel ∈ rels, rel = ref.map (x / ·) := by
  have hmem : i ∈ groupKeys (d.map (·.1)) := by
    rw [groupKeys_mem]
    unfold imgValues at hx
    cases hf : d.filter (fun r => r.1 = i) with
    | nil => rw [hf] at hx; cases hx
    | cons r t =>
      have : r ∈ d.filter (fun r => r.1 = i) := by rw [hf]; simp
      obtain ⟨h1, h2⟩ := List.mem_filter.1 this
      exact List.mem_map.2 ⟨r, h1, by simpa using h2⟩
  obtain ⟨rel, hrel, e⟩ := mapM_get _ _ _ h i hmem
  refine ⟨rel, hrel, ?_⟩
  rw [hx] at e
  unfold npDivide at e
  split at e
  · rename_i hl
    match ref, hl with
    | [y], _ => exact (Except.ok.inj e).symm
  · exact (Except.ok.inj e).symm

/-- Two photos of an array of two LEDs; the second LED of the second photo is missing. -/
def pairFiles (cut : Bool) : ℕ → List (ℕ × ℕ × ℝ)
  | 1 => [(0, 0, 4), (1, 0, 4)]
  | 2 => if cut then [(0, 0, 2)] else [(0, 0, 2), (1, 0, 4)]
  | _ => []

noncomputable def pairAnalysis : ArrayAnalysis := ⟨(0, 0, 0), 0, 1, 1, [(1, 0, 0), (1, 0, 1)], [1, 0], 0, .first 1, 0, false⟩

/-- **C157 (refuted in general).** That files with missing LEDs are noticed before coefficients are computed. -/
theorem C157_single_false : ¬ ∀ (a : ArrayAnalysis) (files files' : ℕ → List (ℕ × ℕ × ℝ)) (N : ℕ), (∀ i, files' i <+: files i) →
    (∀ k < N, (ledsOfArray a.arr (files (k + 1))).length = a.ids.length) → ∀ x, a.solverInput files' N = .ok x → x.2.length = N →
    a.solverInput files N = .ok x := by
  intro h
  have e1 : pairAnalysis.solverInput (pairFiles true) 2 =
      .ok (distanceArray (0, 0, 0) (Ledsa.layers 0 1 1) [(1, 0, 1), (1, 0, 0)], [[1, 1], [1 / 2, 1 / 2]]) := by
    norm_num [ArrayAnalysis.solverInput, ArrayAnalysis.inputOf, pairAnalysis, ledPositions, arrayData, loadedTable, pairFiles, sortRows, insertRow,
      List.range_succ, refIntensities, refData, RefChoice.selects, refMean, ledValues, imgValues, meanOf, groupKeys, insertKey, serialRel, npDivide,
      bind, Except.bind, Option.bind, pure, Except.pure, List.filter]
  have e2 : pairAnalysis.solverInput (pairFiles false) 2 =
      .ok (distanceArray (0, 0, 0) (Ledsa.layers 0 1 1) [(1, 0, 1), (1, 0, 0)], [[1, 1], [1 / 2, 1]]) := by
    norm_num [ArrayAnalysis.solverInput, ArrayAnalysis.inputOf, pairAnalysis, ledPositions, arrayData, loadedTable, pairFiles, sortRows, insertRow,
      List.range_succ, refIntensities, refData, RefChoice.selects, refMean, ledValues, imgValues, meanOf, groupKeys, insertKey, serialRel, npDivide,
      bind, Except.bind, Option.bind, pure, Except.pure, List.filter]
  have := h pairAnalysis (pairFiles false) (pairFiles true) 2 (by
    intro i
    match i with
    | 0 => exact List.prefix_rfl
    | 1 => exact List.prefix_rfl
    | 2 => exact ⟨[(1, 0, 4)], rfl⟩
    | _ + 3 => exact List.prefix_rfl) (by
    intro k hk
    match k, hk with
    | 0, _ => simp [pairFiles, pairAnalysis, ledsOfArray]
    | 1, _ => simp [pairFiles, pairAnalysis, ledsOfArray]) _ e1 rfl
  rw [e2] at this
  simp only [Except.ok.injEq, Prod.mk.injEq, List.cons.injEq, and_true, true_and] at this
  norm_num at this

/-- The file of two LEDs, cut in the middle of the last number: the maximum is wrong; cut in the sum: no table. -/
example : (resultText "a".toList "b.JPG".toList 0 "3".toList none [(0, 0, ⟨12, 3, 5⟩), (1, 0, ⟨40, 10, 123⟩)]).toOption.map
      (fun t => (loadNumbers (t.take 188)).toOption.map fun n => (readTable (some n) false).toOption) =
      some (some (some (.mat [[0, 0, 12, 3, 5], [1, 0, 40, 10, 12]]))) ∧
    (resultText "a".toList "b.JPG".toList 0 "3".toList none [(0, 0, ⟨12, 3, 5⟩), (1, 0, ⟨40, 10, 123⟩)]).toOption.map
      (fun t => (loadNumbers (t.take 170)).toOption.map fun n => (n, (readTable (some n) false).toOption)) =
      some (some ([[0, 0, 12, 3, 5], [1, 0, 4]], none)) := by decide +kernel

end Ledsa
