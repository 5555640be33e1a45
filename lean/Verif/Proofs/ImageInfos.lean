import Verif.Model.ImageInfos
import Mathlib.Data.List.Nodup
import Mathlib.Data.Nat.ModEq
import Mathlib.Algebra.Order.Group.Nat
import Mathlib.Data.Nat.Basic
import Mathlib.Logic.Function.Iterate
/- Helper lemmas for the image list properties. -/
namespace Ledsa

theorem rangeLen_eq_ceil {start stop : Int} {k : Nat} (hk : 0 < k) :
    rangeLen start stop k = ((stop - start).toNat + k - 1) / k := by
  unfold rangeLen
  split
  · rename_i h
    have : (stop - start).toNat = 0 := by omega
    rw [this]; symm; apply Nat.div_eq_of_lt; omega
  · rename_i h
    have h1 : (stop - start).toNat + k - 1 = (stop - 1 - start).toNat + k := by omega
    rw [h1, Nat.add_div_right _ hk]; omega

/-- Multiples of `k` below `n`, as a list. -/
theorem filter_dvd_range (k : Nat) (hk : 0 < k) (n : Nat) :
    (List.range n).filter (fun i => decide (k ∣ i)) = (List.range ((n + k - 1) / k)).map (fun j => j * k) := by
  induction n with
  | zero =>
    have : (0 + k - 1) / k = 0 := Nat.div_eq_of_lt (by omega)
    rw [this]; rfl
  | succ n ih =>
    have e : n + 1 + k - 1 = (n + k - 1) + 1 := by omega
    rw [List.range_succ, List.filter_append, ih, e, Nat.succ_div]
    have e2 : n + k - 1 + 1 = n + k := by omega
    rw [e2]
    by_cases hd : k ∣ n
    · rw [if_pos ((Nat.dvd_add_left (Nat.dvd_refl k)).2 hd), List.range_succ, List.map_append]
      congr 1
      have : (n + k - 1) / k * k = n := by
        obtain ⟨m, rfl⟩ := hd
        have : k * m + k - 1 = (k - 1) + k * m := by omega
        rw [this, Nat.add_mul_div_left _ _ hk, Nat.div_eq_of_lt (by omega : k - 1 < k)]
        rw [Nat.zero_add, Nat.mul_comm]
      simp [hd, this]
    · rw [if_neg (fun h => hd ((Nat.dvd_add_left (Nat.dvd_refl k)).1 h)), Nat.add_zero]
      simp [hd]

theorem pyRangePos_eq_filter {start stop : Int} {k : Nat} (hk : 0 < k) :
    pyRangePos start stop k =
      ((List.range (stop - start).toNat).filter (fun i => decide (k ∣ i))).map (fun (i : Nat) => start + (i : Int)) := by
  rw [filter_dvd_range k hk, List.map_map, pyRangePos, rangeLen_eq_ceil hk]
  apply List.map_congr_left
  intro j _
  simp

theorem pyRange_pos {start stop : Int} {k : Nat} (hk : 0 < k) :
    pyRange start stop (k : Int) = .ok (pyRangePos start stop k) := by
  unfold pyRange
  rw [if_neg (by omega), if_pos (by omega)]
  simp

theorem pyRangePos_getLast? {start stop : Int} {k : Nat} (_hk : 0 < k) (h : start < stop) :
    (pyRangePos start stop k).getLast? =
      some (start + (((stop - 1 - start).toNat / k : Nat) : Int) * (k : Int)) := by
  unfold pyRangePos rangeLen
  rw [if_neg (by omega), Nat.add_comm, List.range_succ, List.map_append]
  simp

theorem largestNumber_four : largestNumber 4 = 9999 := by decide

/-- The seam: appending the two parts of the overflow branch gives one arithmetic progression. -/
theorem seam {first last : Int} {k : Nat} (hk : 0 < k) (M : Nat) (h1 : 1 ≤ last)
    (h3 : first ≤ M) :
    let q := ((M : Int) - first).toNat / k
    pyRangePos first ((M : Int) + 1) k ++
      (pyRangePos ((k : Int) - ((M : Int) - (first + (q : Int) * k))) (last + 1) k) =
    (pyRangePos first ((M : Int) + last + 1) k).map
      (fun z => if z ≤ (M : Int) then z else z - M) := by
  intro q
  have hq1 : (q : Int) * k ≤ (M : Int) - first := by
    have := Nat.div_mul_le_self ((M : Int) - first).toNat k
    have h' : ((q * k : Nat) : Int) ≤ (((M : Int) - first).toNat : Int) := by exact_mod_cast this
    push_cast at h'; omega
  have hq2 : (M : Int) - first < (q : Int) * k + k := by
    have := Nat.lt_div_mul_add (a := ((M : Int) - first).toNat) hk
    have h' : ((((M : Int) - first).toNat : Nat) : Int) < ((q * k + k : Nat) : Int) := by exact_mod_cast this
    push_cast at h'; omega
  have l1 : rangeLen first ((M : Int) + 1) k = q + 1 := by
    unfold rangeLen
    rw [if_neg (by omega)]
    have : ((M : Int) + 1 - 1 - first) = (M : Int) - first := by omega
    rw [this]; omega
  have l2 : rangeLen first ((M : Int) + last + 1) k =
      (q + 1) + rangeLen ((k : Int) - ((M : Int) - (first + (q : Int) * k))) (last + 1) k := by
    rw [rangeLen_eq_ceil hk, rangeLen_eq_ceil hk]
    generalize hA : (((M : Int) + last + 1 - first)).toNat = A
    generalize hB : (last + 1 - ((k : Int) - ((M : Int) - (first + (q : Int) * k)))).toNat = B
    have hqk : (((q + 1) * k : Nat) : Int) = (q : Int) * k + k := by push_cast; rw [Int.add_mul, Int.one_mul]
    by_cases hB0 : (q + 1) * k ≤ A
    · have : A = B + k * (q + 1) := by
        rw [Nat.mul_comm k]; omega
      rw [this]
      have e : B + k * (q + 1) + k - 1 = (B + k - 1) + k * (q + 1) := by omega
      rw [e, Nat.add_mul_div_left _ _ hk]; omega
    · have hB' : B = 0 := by omega
      rw [hB']
      have e1 : (0 + k - 1) / k = 0 := Nat.div_eq_of_lt (by omega)
      rw [e1, Nat.add_zero]
      apply Nat.div_eq_of_lt_le
      · have : (q * k : Nat) < A := by
          have : ((q * k : Nat) : Int) < A := by push_cast; omega
          exact_mod_cast this
        rw [Nat.add_mul]; omega
      · rw [Nat.succ_mul]; omega
  unfold pyRangePos
  rw [l1, l2, List.range_add (n := q + 1), List.map_append, List.map_append]
  congr 1
  · rw [List.map_map]
    apply List.map_congr_left
    intro j hj
    rw [List.mem_range] at hj
    have : ((j * k : Nat) : Int) ≤ ((q * k : Nat) : Int) := by
      exact_mod_cast Nat.mul_le_mul_right k (by omega : j ≤ q)
    push_cast at this
    simp only [Function.comp]
    rw [if_pos (by omega)]
  · rw [List.map_map, List.map_map]
    apply List.map_congr_left
    intro j hj
    simp only [Function.comp]
    have e : (((q + 1 + j : Nat)) : Int) * (k : Int) = (q : Int) * k + k + (j : Int) * k := by
      push_cast; rw [Int.add_mul, Int.add_mul, Int.one_mul]
    have : (0 : Int) ≤ (j : Int) * k := Int.mul_nonneg (by omega) (by omega)
    rw [e, if_neg (by omega)]
    omega

/-! ### CSV files -/

theorem takeWhile_ne_hash {l : Str} (h : '#' ∉ l) : l.takeWhile (· != '#') = l := by
  induction l with
  | nil => rfl
  | cons a t ih =>
    rw [List.mem_cons, not_or] at h
    have : (a != '#') = true := by simpa using fun e => h.1 e.symm
    rw [List.takeWhile_cons, this, if_pos rfl, ih h.2]

/-- The fields of a row as they appear after reading. -/
def rowFields (r : InfoRow) : List Str := [natStr r.idx, r.name, r.time, r.expTime]

/-- A field that survives the CSV file: no separator, no comment sign. -/
def CsvSafe (s : Str) : Prop := ',' ∉ s ∧ '#' ∉ s

theorem csvSafe_natStr (n : Nat) : CsvSafe (natStr n) :=
  ⟨fun h => absurd (natStr_isDigit n _ h) (by decide), fun h => absurd (natStr_isDigit n _ h) (by decide)⟩

theorem loadCsv_infoFile {rows : List InfoRow}
    (h : ∀ r ∈ rows, CsvSafe r.name ∧ CsvSafe r.time ∧ CsvSafe r.expTime) :
    loadCsv (infoFile rows) = rows.map rowFields := by
  have hhead : ("#ID,Name,Time[s],Experiment_Time[s]".toList).takeWhile (· != '#') = [] := by decide
  unfold loadCsv infoFile
  rw [List.map_cons, hhead, List.filter_cons_of_neg (by simp)]
  induction rows with
  | nil => rfl
  | cons r rs ih =>
    obtain ⟨⟨hn1, hn2⟩, ⟨ht1, ht2⟩, ⟨he1, he2⟩⟩ := h r (by simp)
    obtain ⟨hi1, hi2⟩ := csvSafe_natStr r.idx
    have hne : infoLine r ≠ [] := by
      unfold infoLine joinChar
      have := natStr_ne_nil r.idx
      simp
    have hh : '#' ∉ infoLine r := by
      simp [infoLine, joinChar, hn2, ht2, he2, hi2]
    rw [List.map_cons, List.map_cons, takeWhile_ne_hash hh, List.filter_cons_of_pos (by simpa using hne),
      List.map_cons, ih (fun r' hr' => h r' (List.mem_cons_of_mem _ hr')), List.map_cons]
    congr 1
    unfold infoLine rowFields
    apply splitChar_joinChar (by simp)
    intro f hf
    simp only [List.mem_cons, List.not_mem_nil, or_false] at hf
    rcases hf with rfl | rfl | rfl | rfl <;> assumption

theorem findName_rows {rows : List InfoRow} (q : Nat) :
    findName (rows.map rowFields) (natStr q) =
      match rows.find? (fun r => r.idx = q) with
      | some r => .ok r.name
      | none => .error .nameError := by
  induction rows with
  | nil => rfl
  | cons r rs ih =>
    simp only [List.map_cons, rowFields, findName, pyInt_natStr, List.find?_cons]
    by_cases h : r.idx = q
    · simp [h]
    · have : ¬ ((r.idx : Int) = (q : Int)) := by omega
      simp only [this, h, if_false, decide_false]
      exact ih

theorem findId_rows {rows : List InfoRow} (q : Str) :
    findId (rows.map rowFields) q =
      match rows.find? (fun r => r.name = q) with
      | some r => .ok (natStr r.idx)
      | none => .error .nameError := by
  induction rows with
  | nil => rfl
  | cons r rs ih =>
    simp only [List.map_cons, rowFields, findId, List.find?_cons]
    by_cases h : r.name = q
    · simp [h]
    · simp only [h, if_false, decide_false]
      exact ih

theorem infoRowsFrom_ints (t : NameTemplate) (times : Int → Str × Str) (w : Nat) (l : List Int) :
    ∀ k, infoRowsFrom t times k (l.map fun e => zfill w (intStr e)) =
      .ok ((l.zipIdx k).map fun p => ⟨p.2, t.format p.1, (times p.1).1, (times p.1).2⟩) := by
  induction l with
  | nil => intro k; rfl
  | cons a as ih =>
    intro k
    simp only [List.map_cons, infoRowsFrom, pyInt_zfill_intStr, ih, List.zipIdx_cons]

theorem zfill_intStr_injective {w : Nat} {a b : Int} (h : zfill w (intStr a) = zfill w (intStr b)) : a = b := by
  have h1 := pyInt_zfill_intStr w a
  rw [h, pyInt_zfill_intStr] at h1
  simpa using h1.symm

theorem format_injective (t : NameTemplate) {a b : Int} (h : t.format a = t.format b) : a = b := by
  unfold NameTemplate.format at h
  rw [List.append_left_inj, List.append_right_inj] at h
  exact zfill_intStr_injective h

end Ledsa
