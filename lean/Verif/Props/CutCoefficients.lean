import Verif.Model.CutCoefficients
import Verif.Props.SavedNumbers
import Verif.Props.Interrupted
/-
C174: files of extinction coefficients that were cut off.
-/
namespace Ledsa

/-! ### Numbers that were cut off -/

theorem readUnsigned_parts (k m : ℕ) (x : Str) (e : ℤ) (hx : readExp x = some e) (he : 'e' ∉ x) :
    readUnsigned (natStr (m / 10 ^ (k + 1)) ++ '.' :: zfill (k + 1) (natStr (m % 10 ^ (k + 1))) ++ 'e' :: x) =
      some ((m : ℚ) * (10 : ℚ) ^ (e - (k + 1 : ℕ))) := by
  have h := readUnsigned_sciD k m e
  have hnum : 'e' ∉ natStr (m / 10 ^ (k + 1)) ++ '.' :: zfill (k + 1) (natStr (m % 10 ^ (k + 1))) := by
    intro hc
    rw [List.mem_append, List.mem_cons] at hc
    rcases hc with hc | hc | hc
    · exact absurd (natStr_isDigit _ _ hc) (by decide)
    · exact absurd hc (by decide)
    · exact absurd (zfill_natStr_isDigit _ _ _ hc) (by decide)
  have hexp : 'e' ∉ expText e := by
    intro h
    unfold expText at h
    rcases List.mem_cons.1 h with h | h
    · revert h; split <;> decide
    · exact absurd (zfill_natStr_isDigit _ _ _ h) (by decide)
  unfold readUnsigned at h ⊢
  rw [splitChar_append hnum, splitChar_of_notMem hexp] at h
  rw [splitChar_append hnum, splitChar_of_notMem he]
  simp only at h ⊢
  rw [readExp_expText] at h
  rw [hx]
  exact h

theorem readFloat_parts (neg : Bool) (k m : ℕ) (x : Str) (e : ℤ) (hx : readExp x = some e) (he : 'e' ∉ x)
    (hc : ∀ c ∈ x, isNumChar c = true) :
    readFloat ((if neg then ['-'] else []) ++ natStr (m / 10 ^ (k + 1)) ++ '.' :: zfill (k + 1) (natStr (m % 10 ^ (k + 1))) ++ 'e' :: x) =
      some ((if neg then -1 else 1) * ((m : ℚ) * (10 : ℚ) ^ (e - (k + 1 : ℕ)))) := by
  have hu := readUnsigned_parts k m x e hx he
  have hws : ∀ c ∈ (if neg then ['-'] else []) ++ natStr (m / 10 ^ (k + 1)) ++ '.' :: zfill (k + 1) (natStr (m % 10 ^ (k + 1))) ++ 'e' :: x,
      isWs c = false := by
    intro c hm
    refine isWs_isNumChar ?_
    simp only [List.mem_append, List.mem_cons] at hm
    rcases hm with ((hm | hm) | rfl | hm) | rfl | hm
    · cases neg
      · simp at hm
      · simp at hm; subst hm; decide
    · exact isNumChar_digit (natStr_isDigit _ c hm)
    · decide
    · exact isNumChar_digit (zfill_natStr_isDigit _ _ c hm)
    · decide
    · exact hc c hm
  unfold readFloat
  rw [strip_eq_self hws]
  cases neg with
  | true =>
    simp only [if_true, List.cons_append, List.nil_append]
    rw [hu]
    simp
  | false =>
    simp only [Bool.false_eq_true, if_false, List.nil_append]
    cases hn : natStr (m / 10 ^ (k + 1)) with
    | nil => exact absurd hn (natStr_ne_nil _)
    | cons c cs =>
      have hd := natStr_isDigit _ c (by rw [hn]; simp)
      rw [hn] at hu
      simp only [List.cons_append] at hu ⊢
      split
      · rename_i t h
        rw [(List.cons.inj h).1] at hd
        exact absurd hd (by decide)
      · rename_i t h
        rw [(List.cons.inj h).1] at hd
        exact absurd hd (by decide)
      · rw [hu, one_mul]

/-- The digits of a number are counted from the first one: its exponent is `-e`, with `e` from 1 to 9 for numbers from `1e-9` to less than 1. -/
def SmallNumber (q : ℚ) (e : ℕ) : Prop := 1 ≤ e ∧ e ≤ 9 ∧ (sciPartsD 18 |q|).2 = -(e : ℤ)

/-- **C174 (last digit missing).** A number from `1e-9` to less than 1 as it is written to the file, with its last character missing, is read
without complaint as a number `10 ^ e` times as large. -/
theorem C174_last_digit (q : ℚ) (e : ℕ) (h : SmallNumber q e) : csvCell (fmtSciD 18 q).dropLast = .num (10 ^ e * sciValD 18 q) := by
  obtain ⟨h1, h9, hp⟩ := h
  have hx : expText (-(e : ℤ)) = ['-', '0'] ++ natStr e := by
    unfold expText
    rw [if_pos (by omega), Int.natAbs_neg, Int.natAbs_natCast]
    have : e ∈ [1, 2, 3, 4, 5, 6, 7, 8, 9] := by
      simp only [List.mem_cons, List.not_mem_nil, or_false]
      omega
    clear h1 h9 hp
    revert this
    revert e
    decide
  have hl : ∃ c, natStr e = [c] := by
    have : e ∈ [1, 2, 3, 4, 5, 6, 7, 8, 9] := by
      simp only [List.mem_cons, List.not_mem_nil, or_false]
      omega
    simp only [List.mem_cons, List.not_mem_nil, or_false] at this
    rcases this with rfl | rfl | rfl | rfl | rfl | rfl | rfl | rfl | rfl <;> exact ⟨_, rfl⟩
  obtain ⟨c, hc⟩ := hl
  have ht : (fmtSciD 18 q).dropLast = (if decide (q < 0) = true then ['-'] else []) ++ natStr ((sciPartsD 18 |q|).1 / 10 ^ (17 + 1)) ++
      '.' :: zfill (17 + 1) (natStr ((sciPartsD 18 |q|).1 % 10 ^ (17 + 1))) ++ 'e' :: ['-', '0'] := by
    unfold fmtSciD
    rw [hp, hx, hc]
    simp only [decide_eq_true_eq]
    rw [show ∀ a : Str, a ++ 'e' :: (['-', '0'] ++ [c]) = (a ++ 'e' :: ['-', '0']) ++ [c] by intro a; simp, List.dropLast_concat]
  have hr := readFloat_parts (decide (q < 0)) 17 (sciPartsD 18 |q|).1 ['-', '0'] 0 (by decide) (by decide) (by decide)
  unfold csvCell
  rw [ht, if_neg (by simp), hr]
  simp only
  congr 1
  unfold sciValD
  rw [hp, sub_eq_add_neg (-(e : ℤ)), zpow_add₀ (by norm_num : (10 : ℚ) ≠ 0), zero_sub, zpow_neg, zpow_natCast]
  simp only [decide_eq_true_eq]
  have : (10 : ℚ) ^ e ≠ 0 := by positivity
  rw [zpow_neg, zpow_natCast]
  field_simp

/-! ### Files that were cut off -/

theorem splitChar_prefix (fs : List Str) (hc : ∀ f ∈ fs, ',' ∉ f) (pre : Str) (h : pre <+: joinChar ',' fs) (hne : pre ≠ []) :
    ∃ j f p, fs[j]? = some f ∧ p <+: f ∧ splitChar ',' pre = fs.take j ++ [p] := by
  induction fs generalizing pre with
  | nil =>
    exact absurd (List.prefix_nil.1 h) hne
  | cons f fs ih =>
    have hcf := hc f List.mem_cons_self
    by_cases hp : pre <+: f
    · refine ⟨0, f, pre, rfl, hp, ?_⟩
      rw [splitChar_of_notMem fun hm => hcf (hp.subset hm)]
      rfl
    · cases fs with
      | nil => exact absurd h hp
      | cons g gs =>
        rw [joinChar] at h
        · rcases List.prefix_or_prefix_of_prefix h (List.prefix_append _ _) with h' | ⟨q, rfl⟩
          · exact absurd h' hp
          · have hq := (List.prefix_append_right_inj f).1 h
            cases q with
            | nil => exact absurd (by simp) hp
            | cons c q =>
              rw [List.cons_prefix_cons] at hq
              obtain ⟨rfl, hq⟩ := hq
              rw [splitChar_append hcf]
              by_cases hq0 : q = []
              · subst hq0
                exact ⟨1, g, [], rfl, List.nil_prefix, by simp [splitChar]⟩
              · obtain ⟨j, f', p, h1, h2, h3⟩ := ih (fun x hx => hc x (List.mem_cons_of_mem _ hx)) q hq hq0
                exact ⟨j + 1, f', p, h1, h2, by rw [h3]; rfl⟩
        · simp

/-- The lines of a file of coefficients. -/
def coeffLines (h : CoeffHeader) (layers : ℕ) (rows : List (ℚ × List ℚ)) : List Str :=
  ((h.about ++ h.heights ++ [columnLine layers]).map ("# ".toList ++ ·)) ++ rows.map fun r => savetxtLine (r.1 :: r.2)

theorem coeffLines_noLine (h : CoeffHeader) (hf : ∀ f ∈ h.fields, '\n' ∉ f) (n : ℕ) (rows : List (ℚ × List ℚ)) :
    ∀ l ∈ coeffLines h n rows, '\n' ∉ l := by
  intro l hl
  unfold coeffLines at hl
  rw [List.mem_append, List.mem_map, List.mem_map] at hl
  rcases hl with ⟨x, hx, rfl⟩ | ⟨r, _, rfl⟩
  · rw [List.mem_append, List.mem_singleton] at hx
    rw [List.mem_append, not_or]
    refine ⟨by decide, ?_⟩
    rcases hx with hx | rfl
    · exact head_noLine h hf x hx
    · exact columnLine_noLine _
  · exact savetxtLine_noLine _

/-- A row as it was written. -/
def wholeRow (r : ℚ × List ℚ) : List CsvCell := (r.1 :: r.2).map fun x => .num (sciValD 18 x)

theorem csvCell_number (q : ℚ) : csvCell (fmtSciD 18 q) = .num (sciValD 18 q) := by
  unfold csvCell
  rw [if_neg, readFloat_fmtSciD 17 q]
  unfold fmtSciD
  simp

theorem noComma (q : ℚ) : ',' ∉ fmtSciD 18 q := fun h => absurd (fmtSciD_chars 18 q ',' h) (by decide)

theorem cells_line (row : List ℚ) (hne : row ≠ []) : (splitChar ',' (savetxtLine row)).map csvCell = row.map fun x => .num (sciValD 18 x) := by
  rw [savetxtLine_split row hne, List.map_map]
  exact List.map_congr_left fun x _ => csvCell_number x

/-- What is read from the column names and any following lines. -/
theorem readCoeffCells_lines (h : CoeffHeader) (hf : ∀ f ∈ h.fields, '\n' ∉ f) (n : ℕ) (rows : List (ℚ × List ℚ)) (hl : ∀ r ∈ rows, r.2.length = n + 1)
    (pre : Str) (hp : '\n' ∉ pre) :
    readCoeffCells (((coeffLines h (n + 1) rows).map fun l => l ++ ['\n']).flatten ++ pre) =
      some (n + 2, rows.map wholeRow ++ if pre = [] then [] else
        [(splitChar ',' pre).map csvCell ++ List.replicate (n + 2 - (splitChar ',' pre).length) .missing]) := by
  unfold readCoeffCells
  rw [splitChar_textLines_end _ (coeffLines_noLine h hf _ rows) pre hp]
  have e : (coeffLines h (n + 1) rows ++ [pre]).drop 7 =
      ("# ".toList ++ columnLine (n + 1)) :: ((rows.map fun r => savetxtLine (r.1 :: r.2)) ++ [pre]) := rfl
  have e2 : (("# ".toList ++ columnLine (n + 1)) :: ((rows.map fun r => savetxtLine (r.1 :: r.2)) ++ [pre])).filter (· ≠ []) =
      ("# ".toList ++ columnLine (n + 1)) :: ((rows.map fun r => savetxtLine (r.1 :: r.2)) ++ if pre = [] then [] else [pre]) := by
    rw [List.filter_cons_of_pos (by simp), List.filter_append]
    congr 2
    · apply List.filter_eq_self.2
      intro l hl
      obtain ⟨r, _, rfl⟩ := List.mem_map.1 hl
      simpa using savetxtLine_ne_nil _ (by simp)
    · by_cases hp0 : pre = [] <;> simp [hp0]
  rw [e, e2]
  simp only
  have hcols : (splitChar ',' ("# ".toList ++ columnLine (n + 1))).length = n + 2 := by
    rw [columnLine_split]; simp
  rw [hcols, List.map_append, List.map_map]
  congr 3
  · refine List.map_congr_left fun r hr => ?_
    show (splitChar ',' (savetxtLine (r.1 :: r.2))).map csvCell ++ _ = wholeRow r
    rw [cells_line _ (by simp)]
    unfold wholeRow
    have : n + 2 - ((r.1 :: r.2).map fun x => CsvCell.num (sciValD 18 x)).length = 0 := by
      rw [List.length_map, List.length_cons, hl r hr]; omega
    rw [this, List.replicate_zero, List.append_nil]
  · split
    · rfl
    · simp

/-- **C174 (complete files).** A complete file is read with all its rows. -/
theorem C174_complete (h : CoeffHeader) (hf : ∀ f ∈ h.fields, '\n' ∉ f) (n : ℕ) (rows : List (ℚ × List ℚ)) (hl : ∀ r ∈ rows, r.2.length = n + 1) :
    readCoeffCells (coeffText h (n + 1) rows) = some (n + 2, rows.map wholeRow) := by
  have := readCoeffCells_lines h hf n rows hl [] (by simp)
  rwa [List.append_nil, if_pos rfl, List.append_nil] at this

/-- **C174 (cut files).** Wherever a file of coefficients is cut off: nothing is read (`EmptyDataError`), or a table without rows, or the first rows as they
were written, followed by at most one damaged row. This row has its first numbers as they were written, then what is read from the beginning
of the next number, and missing values for the rest. -/
theorem C174_cut (h : CoeffHeader) (hf : ∀ f ∈ h.fields, '\n' ∉ f) (n : ℕ) (rows : List (ℚ × List ℚ)) (hl : ∀ r ∈ rows, r.2.length = n + 1) (cut : ℕ) :
    readCoeffCells ((coeffText h (n + 1) rows).take cut) = none ∨ (∃ c, readCoeffCells ((coeffText h (n + 1) rows).take cut) = some (c, [])) ∨
    ∃ k ≤ rows.length, readCoeffCells ((coeffText h (n + 1) rows).take cut) = some (n + 2, (rows.take k).map wholeRow) ∨
      ∃ r j x p, rows[k]? = some r ∧ (r.1 :: r.2)[j]? = some x ∧ p <+: fmtSciD 18 x ∧
        readCoeffCells ((coeffText h (n + 1) rows).take cut) =
          some (n + 2, (rows.take k).map wholeRow ++ [(wholeRow r).take j ++ csvCell p :: List.replicate (n + 1 - j) .missing]) := by
  obtain ⟨k, pre, h1, h2, h3⟩ := take_textLines (coeffLines h (n + 1) rows) cut
  have hh : (h.about ++ h.heights ++ [columnLine (n + 1)]).length = 8 := rfl
  have hpre : '\n' ∉ pre := by
    rcases h3 with rfl | ⟨l, hl', hp⟩
    · simp
    · exact fun hm => coeffLines_noLine h hf _ rows l (List.mem_of_getElem? hl') (hp.subset hm)
  have h1' : (coeffText h (n + 1) rows).take cut = (((coeffLines h (n + 1) rows).take k).map fun l => l ++ ['\n']).flatten ++ pre := h1
  rw [h1']
  rcases Nat.lt_or_ge k 8 with hk | hk
  · have hs : splitChar '\n' ((((coeffLines h (n + 1) rows).take k).map fun l => l ++ ['\n']).flatten ++ pre) =
        (coeffLines h (n + 1) rows).take k ++ [pre] :=
      splitChar_textLines_end _ (fun l hl' => coeffLines_noLine h hf _ rows l (List.mem_of_mem_take hl')) pre hpre
    have hlen : ((coeffLines h (n + 1) rows).take k).length = k := by
      rw [List.length_take]; exact min_eq_left h2
    unfold readCoeffCells
    rw [hs]
    rcases Nat.lt_or_ge k 7 with hk7 | hk7
    · left
      rw [List.drop_eq_nil_of_le (by rw [List.length_append, hlen, List.length_singleton]; omega)]
      rfl
    · obtain rfl : k = 7 := by omega
      have : ((coeffLines h (n + 1) rows).take 7 ++ [pre]).drop 7 = [pre] := by
        rw [List.drop_append_of_le_length (by rw [hlen]), List.drop_eq_nil_of_le (by rw [hlen]), List.nil_append]
      rw [this]
      by_cases hp0 : pre = []
      · left; simp [hp0]
      · right; left
        exact ⟨(splitChar ',' pre).length, by simp [hp0]⟩
  · right; right
    have hk' : (coeffLines h (n + 1) rows).take k = coeffLines h (n + 1) (rows.take (k - 8)) := by
      unfold coeffLines
      rw [List.take_append, List.take_of_length_le (by rw [List.length_map, hh]; exact hk), List.length_map, hh, List.map_take]
    have hlk : k - 8 ≤ rows.length := by
      unfold coeffLines at h2
      rw [List.length_append, List.length_map, hh, List.length_map] at h2
      omega
    refine ⟨k - 8, hlk, ?_⟩
    rw [hk', readCoeffCells_lines h hf n _ (fun r hr => hl r (List.mem_of_mem_take hr)) pre hpre]
    by_cases hp0 : pre = []
    · left
      rw [if_pos hp0, List.append_nil]
    · right
      obtain ⟨l, hl', hp⟩ := h3.resolve_left hp0
      unfold coeffLines at hl'
      rw [List.getElem?_append_right (by rw [List.length_map, hh]; exact hk), List.length_map, hh, List.getElem?_map] at hl'
      cases hr : rows[k - 8]? with
      | none => rw [hr] at hl'; cases hl'
      | some r =>
        rw [hr] at hl'
        simp only [Option.map_some, Option.some.injEq] at hl'
        subst hl'
        obtain ⟨j, f, p, g1, g2, g3⟩ := splitChar_prefix ((r.1 :: r.2).map (fmtSciD 18)) (by
          intro f hf'
          obtain ⟨x, _, rfl⟩ := List.mem_map.1 hf'
          exact noComma x) pre hp hp0
        rw [List.getElem?_map] at g1
        cases hx : (r.1 :: r.2)[j]? with
        | none => rw [hx] at g1; cases g1
        | some x =>
          rw [hx] at g1
          simp only [Option.map_some, Option.some.injEq] at g1
          subst g1
          refine ⟨r, j, x, p, rfl, hx, g2, ?_⟩
          have hj : j < (r.1 :: r.2).length := (List.getElem?_eq_some_iff.1 hx).1
          have hrl := hl r (List.mem_of_getElem? hr)
          rw [List.length_cons, hrl] at hj
          rw [if_neg hp0, g3]
          congr 4
          rw [List.map_append, List.length_append, List.length_take, List.length_map, List.length_cons, hrl, List.length_singleton,
            min_eq_left (by omega), List.append_assoc, ← List.map_take, List.map_map]
          unfold wholeRow
          rw [← List.map_take]
          congr 1
          · exact List.map_congr_left fun y _ => csvCell_number y
          · rw [show n + 2 - (j + 1) = n + 1 - j by omega]
            rfl

theorem joinChar_dropLast (c : Char) (fs : List Str) (f : Str) (hf : f ≠ []) : (joinChar c (fs ++ [f])).dropLast = joinChar c (fs ++ [f.dropLast]) := by
  induction fs with
  | nil => rfl
  | cons g gs ih =>
    have hne : ∀ y : Str, gs ++ [y] ≠ [] := by simp
    have hj : ∀ y : Str, joinChar c (g :: (gs ++ [y])) = g ++ c :: joinChar c (gs ++ [y]) := by
      intro y
      cases hg : gs ++ [y] with
      | nil => exact absurd hg (hne y)
      | cons a as => rfl
    rw [List.cons_append, List.cons_append, hj, hj, ← ih]
    have hjn : joinChar c (gs ++ [f]) ≠ [] := by
      cases gs with
      | nil => exact hf
      | cons a as =>
        rw [List.cons_append]
        cases has : as ++ [f] with
        | nil => simp at has
        | cons b bs => simp [joinChar]
    rw [List.dropLast_append_of_ne_nil (by simp), List.dropLast_cons_of_ne_nil hjn]

/-- **C174 (last digit of a file).** It is not so that a file of coefficients which was cut off is refused or gives right or missing values. If the last number, the
coefficient `x` of the uppermost layer in the last image, is from `1e-9` to less than 1, the file without its last two characters (a digit and the end of the
line) is read as a complete table that differs only in this coefficient, which is 10 to 10⁹ times as large. -/
theorem C174_factor (h : CoeffHeader) (hf : ∀ f ∈ h.fields, '\n' ∉ f) (n : ℕ) (rows : List (ℚ × List ℚ)) (hl : ∀ r ∈ rows, r.2.length = n + 1)
    (t x : ℚ) (xs : List ℚ) (hxs : xs.length = n) (e : ℕ) (hx : SmallNumber x e) :
    let text := coeffText h (n + 1) (rows ++ [(t, xs ++ [x])])
    readCoeffCells text = some (n + 2, rows.map wholeRow ++ [(t :: xs).map (fun y => .num (sciValD 18 y)) ++ [.num (sciValD 18 x)]]) ∧
    readCoeffCells (text.take (text.length - 2)) =
      some (n + 2, rows.map wholeRow ++ [(t :: xs).map (fun y => .num (sciValD 18 y)) ++ [.num (10 ^ e * sciValD 18 x)]]) := by
  intro text
  have hx0 : fmtSciD 18 x ≠ [] := by unfold fmtSciD; simp
  constructor
  · rw [C174_complete h hf n _ (by
      intro r hr
      rcases List.mem_append.1 hr with hr | hr
      · exact hl r hr
      · rw [List.mem_singleton.1 hr]; simp [hxs])]
    simp [wholeRow]
  · have ht : text = ((coeffLines h (n + 1) rows).map fun l => l ++ ['\n']).flatten ++ (savetxtLine (t :: (xs ++ [x])) ++ ['\n']) := by
      show ((coeffLines h (n + 1) (rows ++ [(t, xs ++ [x])])).map fun l => l ++ ['\n']).flatten = _
      unfold coeffLines
      simp [List.append_assoc]
    have hne : savetxtLine (t :: (xs ++ [x])) ≠ [] := savetxtLine_ne_nil _ (by simp)
    have hlast : savetxtLine (t :: (xs ++ [x])) = joinChar ',' ((t :: xs).map (fmtSciD 18) ++ [fmtSciD 18 x]) := by
      unfold savetxtLine; simp
    have hcut : text.take (text.length - 2) =
        ((coeffLines h (n + 1) rows).map fun l => l ++ ['\n']).flatten ++ (savetxtLine (t :: (xs ++ [x]))).dropLast := by
      have : 0 < (savetxtLine (t :: (xs ++ [x]))).length := List.length_pos_of_ne_nil hne
      rw [ht, List.take_append, List.take_of_length_le (by simp; omega), List.dropLast_eq_take]
      congr 1
      rw [List.take_append_of_le_length (by simp; omega)]
      congr 1
      simp
      omega
    rw [hcut, readCoeffCells_lines h hf n rows hl _ (fun hm => savetxtLine_noLine _ (List.dropLast_subset _ hm)), hlast,
      joinChar_dropLast ',' _ _ hx0]
    have hsplit : splitChar ',' (joinChar ',' ((t :: xs).map (fmtSciD 18) ++ [(fmtSciD 18 x).dropLast])) =
        (t :: xs).map (fmtSciD 18) ++ [(fmtSciD 18 x).dropLast] := by
      refine splitChar_joinChar (by simp) ?_
      intro f hf'
      rcases List.mem_append.1 hf' with hf' | hf'
      · obtain ⟨y, _, rfl⟩ := List.mem_map.1 hf'
        exact noComma y
      · rw [List.mem_singleton.1 hf']
        exact fun hm => noComma x (List.dropLast_subset _ hm)
    have hj : joinChar ',' ((t :: xs).map (fmtSciD 18) ++ [(fmtSciD 18 x).dropLast]) ≠ [] := by
      intro h0
      have := hsplit
      rw [h0] at this
      have hl2 := congrArg List.length this
      have h3 : (splitChar ',' ([] : Str)).length = 1 := rfl
      rw [h3] at hl2
      simp at hl2
    rw [if_neg hj, hsplit]
    congr 4
    have hlen : n + 2 - ((t :: xs).map (fmtSciD 18) ++ [(fmtSciD 18 x).dropLast]).length = 0 := by simp [hxs]
    rw [hlen, List.replicate_zero, List.append_nil, List.map_append, List.map_map]
    congr 1
    · exact List.map_congr_left fun y _ => csvCell_number y
    · rw [List.map_singleton, C174_last_digit x e hx]

/-- What a user relies on: every number that is read from the beginning of a file stands for a number at this place of the file. -/
def CutFilesAreHarmless : Prop :=
  ∀ (h : CoeffHeader) (n : ℕ) (rows : List (ℚ × List ℚ)) (cut cols : ℕ) (cells : List (List CsvCell)), (∀ f ∈ h.fields, '\n' ∉ f) →
    (∀ r ∈ rows, r.2.length = n + 1) → readCoeffCells ((coeffText h (n + 1) rows).take cut) = some (cols, cells) →
    ∀ (i j : ℕ) (row : List CsvCell) (r : ℚ × List ℚ) (v : ℚ), cells[i]? = some row → rows[i]? = some r → row[j]? = some (.num v) →
      ∃ x, (r.1 :: r.2)[j]? = some x ∧ v = sciValD 18 x

/-- The coefficient 0.0123 per metre. -/
theorem smallNumber_example : SmallNumber (123 / 10000) 2 := by
  refine ⟨by norm_num, by norm_num, ?_⟩
  decide +kernel

/-- **C174 (refuted in general).** -/
theorem C174_false : ¬ CutFilesAreHarmless := by
  intro hc
  let h : CoeffHeader := ⟨[], [], [], [], [], [], [], [], [], [], [], [], [], [], [], []⟩
  have hf : ∀ f ∈ h.fields, '\n' ∉ f := by
    intro f hf
    have : f = [] := by
      revert hf
      simp [CoeffHeader.fields, h]
    rw [this]
    simp
  obtain ⟨-, h2⟩ := C174_factor h hf 0 [] (by simp) 7 (123 / 10000) [] rfl 2 smallNumber_example
  obtain ⟨x, hx, hv⟩ := hc h 0 [(7, [123 / 10000])] _ _ _ hf (by simp) h2 0 1 _ (7, [123 / 10000]) (10 ^ 2 * sciValD 18 (123 / 10000)) rfl rfl rfl
  obtain rfl : x = 123 / 10000 := by simpa using hx.symm
  have hne : sciValD 18 (123 / 10000) ≠ 0 := by
    have : sciValD 18 (123 / 10000) = 123 / 10000 := by decide +kernel
    rw [this]; norm_num
  have h100 : (10 ^ 2 - 1 : ℚ) * sciValD 18 (123 / 10000) = 0 := by linarith
  rcases mul_eq_zero.1 h100 with h0 | h0
  · norm_num at h0
  · exact hne h0

/-- The text of 0.0123 and what is left of it when the disk is full one character earlier: 1.23. -/
example : csvCell "1.230000000000000000e-02".toList = .num (123 / 10000) ∧ csvCell "1.230000000000000000e-0".toList = .num (123 / 100) ∧
    csvCell "1.230000000000000000e-".toList = .text "1.230000000000000000e-".toList ∧ csvCell "1.".toList = .num 1 ∧ csvCell [] = .missing := by
  refine ⟨?_, ?_, ?_, ?_, ?_⟩ <;> decide +kernel

end Ledsa
