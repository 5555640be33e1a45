import Verif.Model.Averaging
import Verif.Props.Analysis
import Verif.Props.Extinction
import Mathlib.Analysis.SpecialFunctions.Log.Basic
import Mathlib.Analysis.Convex.SpecificFunctions.Basic
/-
C167: averaging of images.
-/
namespace Ledsa

/-! ### Specification -/

/-- The LED was recorded in the images 1 to `N`, in this order. -/
def RecordedIn (rows : List AvgRow) (a led N : ℕ) : Prop := (rowsOfLed a led rows).map (·.img) = List.range' 1 N

/-- Number of images after averaging. -/
def averagedCount (r n N : ℕ) : ℕ := if N ≤ r then N else r + (N - r + n - 1) / n

/-! ### Proofs -/

theorem colMean_const (f : AvgRow → ℚ) (c : ℚ) (rows : List AvgRow) (hne : rows ≠ []) (h : ∀ x ∈ rows, f x = c) : colMean f rows = c := by
  have e : rows.map f = List.replicate rows.length c := List.eq_replicate_iff.2 ⟨by simp, by simpa using h⟩
  have hl : (rows.length : ℚ) ≠ 0 := by simpa using hne
  unfold colMean
  rw [e, List.sum_replicate, nsmul_eq_mul]
  field_simp

theorem truncZero_nat (a : ℕ) : truncZero (a : ℚ) = a := by simp [truncZero]

theorem groupsOf_ne_nil {α : Type} (n : ℕ) (hn : 1 ≤ n) (l : List α) : ∀ g ∈ groupsOf n l, g ≠ [] ∧ ∀ x ∈ g, x ∈ l := by
  intro g hg
  obtain ⟨i, hi, rfl⟩ := List.mem_map.1 hg
  rw [List.mem_range] at hi
  have hlt : i * n < l.length := by
    have h2 := (Nat.lt_div_iff_mul_lt (by omega)).1 hi
    omega
  refine ⟨?_, fun x hx => List.mem_of_mem_drop (List.mem_of_mem_take hx)⟩
  intro e
  have := congrArg List.length e
  simp only [List.length_take, List.length_drop, List.length_nil] at this
  omega

theorem averageLed_keys (r n a led : ℕ) (hn : 1 ≤ n) (rows : List AvgRow) (h : ∀ x ∈ rows, x.array = a ∧ x.led = led) :
    ∀ x ∈ averageLed r n led rows, x.array = a ∧ x.led = led := by
  intro x hx
  obtain ⟨y, hy, rfl⟩ := List.mem_map.1 hx
  rcases List.mem_append.1 hy with hy | hy
  · obtain ⟨h1, h2⟩ := h y (List.mem_of_mem_take hy)
    refine ⟨?_, h2⟩
    show ((truncZero y.array : ℤ) : ℚ) = a
    rw [h1, truncZero_nat]; simp
  · obtain ⟨g, hg, rfl⟩ := List.mem_map.1 hy
    obtain ⟨hne, hmem⟩ := groupsOf_ne_nil n hn _ g.1 (List.fst_mem_of_mem_zipIdx hg)
    refine ⟨?_, rfl⟩
    show ((truncZero (colMean (·.array) g.1) : ℤ) : ℚ) = a
    rw [colMean_const _ a _ hne fun x hx => (h x (List.mem_of_mem_drop (hmem x hx))).1, truncZero_nat]; simp

theorem filter_flatMap_one {α β : Type} [DecidableEq α] (p : β → Bool) (f : α → List β) (k : α) : ∀ ks : List α, ks.Nodup →
    (∀ k' ∈ ks, k' ≠ k → (f k').filter p = []) → (ks.flatMap f).filter p = if k ∈ ks then (f k).filter p else []
  | [], _, _ => rfl
  | c :: ks, hnd, h => by
    rw [List.nodup_cons] at hnd
    rw [List.flatMap_cons, List.filter_append, filter_flatMap_one p f k ks hnd.2 fun k' hk' => h k' (List.mem_cons_of_mem _ hk')]
    by_cases hc : c = k
    · subst hc
      rw [if_neg hnd.1, List.append_nil, if_pos (by simp)]
    · rw [h c (by simp) hc, List.nil_append]
      simp only [List.mem_cons, Ne.symm hc, false_or]

/-- **C167 (every LED by itself).** The averaged table holds for an LED of an array exactly the averages of its own rows, whatever the
other LEDs and arrays are. -/
theorem C167_led (r n : ℕ) (hn : 1 ≤ n) (rows : List AvgRow) (a led : ℕ) :
    rowsOfLed a led (averageTable r n rows) = averageLed r n led (rowsOfLed a led rows) := by
  have hkeys : ∀ a' led', ∀ x ∈ averageLed r n led' (rowsOfLed a' led' rows), x.array = a' ∧ x.led = led' := fun a' led' =>
    averageLed_keys r n a' led' hn _ fun x hx => by simpa [rowsOfLed] using (List.mem_filter.1 hx).2
  have hself : (averageLed r n led (rowsOfLed a led rows)).filter (fun x => decide (x.array = (a : ℚ) ∧ x.led = led)) = averageLed r n led (rowsOfLed a led rows) :=
    List.filter_eq_self.2 fun x hx => by simpa using hkeys a led x hx
  have hempty : rowsOfLed a led rows = [] → averageLed r n led (rowsOfLed a led rows) = [] := by
    intro e
    rw [e]
    rcases Nat.lt_or_ge 1 n with h | h
    · simp [averageLed, groupsOf]
      omega
    · obtain rfl : n = 1 := by omega
      simp [averageLed, groupsOf]
  unfold averageTable
  show List.filter _ _ = _
  rw [filter_flatMap_one _ _ a _ ((groupKeys_sorted _).imp (fun h => Nat.ne_of_lt h))]
  · split
    · rw [filter_flatMap_one _ _ led _ ((groupKeys_sorted _).imp (fun h => Nat.ne_of_lt h))]
      · split
        · exact hself
        · rename_i h1
          refine (hempty ?_).symm
          rw [groupKeys_mem] at h1
          unfold rowsOfLed
          rw [List.filter_eq_nil_iff]
          intro x hx hp
          simp only [decide_eq_true_eq] at hp
          exact h1 (List.mem_map.2 ⟨x, List.mem_filter.2 ⟨hx, by simpa using hp.1⟩, hp.2⟩)
      · intro led' _ hne
        rw [List.filter_eq_nil_iff]
        intro x hx hp
        simp only [decide_eq_true_eq] at hp
        exact hne ((hkeys a led' x hx).2.symm.trans hp.2)
    · rename_i h1
      refine (hempty ?_).symm
      rw [groupKeys_mem] at h1
      unfold rowsOfLed
      rw [List.filter_eq_nil_iff]
      intro x hx hp
      simp only [decide_eq_true_eq] at hp
      refine h1 (List.mem_map.2 ⟨x, hx, ?_⟩)
      rw [hp.1]; simp
  · intro a' _ hne
    rw [List.filter_eq_nil_iff]
    intro x hx hp
    simp only [decide_eq_true_eq] at hp
    obtain ⟨led', _, hx⟩ := List.mem_flatMap.1 hx
    have := (hkeys a' led' x hx).1
    rw [hp.1] at this
    exact hne (by exact_mod_cast this.symm)

/-- No rows of other LEDs. -/
theorem C167_nothing_else (r n : ℕ) (hn : 1 ≤ n) (rows : List AvgRow) :
    ∀ x ∈ averageTable r n rows, ∃ y ∈ rows, y.array = x.array ∧ y.led = x.led := by
  intro x hx
  obtain ⟨a, ha, hx⟩ := List.mem_flatMap.1 hx
  obtain ⟨led, hl, hx⟩ := List.mem_flatMap.1 hx
  rw [groupKeys_mem] at hl
  obtain ⟨y, hy, he⟩ := List.mem_map.1 hl
  rw [List.mem_filter] at hy
  obtain ⟨h1, h2⟩ := averageLed_keys r n a led hn _ (fun x hx => by simpa [rowsOfLed] using (List.mem_filter.1 hx).2) x hx
  exact ⟨y, hy.1, by rw [h1]; simpa using hy.2, by rw [h2]; exact he⟩

/-- **C167 (images).** An LED that was recorded in the images 1 to N has the images 1 to `averagedCount` afterwards. -/
theorem C167_images (r n : ℕ) (hn : 1 ≤ n) (rows : List AvgRow) (a led N : ℕ) (h : RecordedIn rows a led N) :
    RecordedIn (averageTable r n rows) a led (averagedCount r n N) := by
  unfold RecordedIn at h ⊢
  rw [C167_led r n hn rows]
  have hlen : (rowsOfLed a led rows).length = N := by simpa using congrArg List.length h
  set R := rowsOfLed a led rows with hR
  have e1 : (averageLed r n led R).map (·.img) = (R.take r).map (·.img) ++ List.range' (r + 1) (groupsOf n (R.drop r)).length := by
    unfold averageLed
    rw [List.map_map, List.map_append, List.map_map]
    congr 1
    apply List.ext_getElem
    · simp
    · intro i h1 h2
      simp
  rw [e1, List.map_take, h]
  have e2 : (groupsOf n (R.drop r)).length = (N - r + n - 1) / n := by simp [groupsOf, hlen]
  rw [e2]
  unfold averagedCount
  split
  · rename_i hle
    have : (N - r + n - 1) / n = 0 := Nat.div_eq_of_lt (by omega)
    rw [this, List.take_of_length_le (by simpa using hle)]
    simp
  · rename_i hlt
    have e3 : (List.range' 1 N).take r = List.range' 1 r := by
      apply List.ext_getElem
      · simp; omega
      · intro i h1 h2
        simp
    rw [e3, Nat.add_comm r 1, List.range'_append_1]

/-- **C167 (times).** With the settings of the program there are as many averaged images of every LED as averaged times. -/
theorem C167_times (rows : List AvgRow) (a led : ℕ) (infos : List (Str × ℚ)) (h : RecordedIn rows a led infos.length) :
    RecordedIn (averageTable 10 2 rows) a led (avgInfos infos).length := by
  have := C167_images 10 2 (by omega) rows a led _ h
  rw [C51_rows]
  unfold averagedCount at this
  split
  · rename_i hle
    rwa [if_pos hle] at this
  · rename_i hlt
    rw [if_neg hlt] at this
    rwa [show infos.length - 9 = infos.length - 10 + 2 - 1 by omega]

/-- **C167 (values).** The first images stay as they are; averaged image `r + 1 + g` has the means of the next `n` images of the LED,
with the fractional part of the sum removed. -/
theorem C167_values (r n : ℕ) (hn : 1 ≤ n) (rows : List AvgRow) (a led : ℕ) :
    (∀ k (hk : k < (rowsOfLed a led rows).length), k < r → (rowsOfLed a led (averageTable r n rows))[k]? =
      some { (rowsOfLed a led rows)[k] with sum := truncZero (rowsOfLed a led rows)[k].sum }) ∧
    ∀ g, r + g * n < (rowsOfLed a led rows).length →
      let G := ((rowsOfLed a led rows).drop (r + g * n)).take n
      (rowsOfLed a led (averageTable r n rows))[r + g]? =
        some ⟨r + 1 + g, led, a, truncZero (colMean (·.sum) G), colMean (·.mean) G, colMean (·.max) G⟩ := by
  rw [C167_led r n hn rows]
  have hall : ∀ x ∈ rowsOfLed a led rows, x.array = a ∧ x.led = led := fun x hx => by simpa [rowsOfLed] using (List.mem_filter.1 hx).2
  generalize rowsOfLed a led rows = R at hall
  constructor
  · intro k hk hr
    unfold averageLed
    rw [List.getElem?_map, List.getElem?_append_left (by simp; omega), List.getElem?_take_of_lt hr, List.getElem?_eq_getElem hk]
    simp only [Option.map_some]
    have := (hall _ (List.getElem_mem hk)).1
    congr 2
    rw [this, truncZero_nat]
    simp
  · intro g hg G
    have hG : G ≠ [] := by
      intro e
      have := congrArg List.length e
      simp only [G, List.length_take, List.length_drop, List.length_nil] at this
      omega
    have hcount : g < (R.length - r + n - 1) / n := by
      rw [Nat.lt_div_iff_mul_lt (by omega)]
      omega
    unfold averageLed
    rw [List.getElem?_map, List.getElem?_append_right (by simp)]
    have e : r + g - (R.take r).length = g := by simp; omega
    rw [e, List.getElem?_map, List.getElem?_zipIdx]
    have eg : (groupsOf n (R.drop r))[g]? = some G := by
      unfold groupsOf
      rw [List.getElem?_map, List.getElem?_range (by simpa using hcount)]
      simp [G]
    rw [eg]
    simp only [Option.map_some, Nat.zero_add, Option.some.injEq]
    rw [colMean_const (·.array) a G hG fun x hx => (hall x (List.mem_of_mem_drop (List.mem_of_mem_take hx))).1, truncZero_nat]
    simp

/-- **C167 (rounding).** Removing the fractional part changes a sum of light by less than 1. -/
theorem C167_rounding (q : ℚ) (hq : 0 ≤ q) : (truncZero q : ℚ) ≤ q ∧ q - 1 < truncZero q := by
  rw [truncZero, if_pos hq]
  exact ⟨Int.floor_le q, by linarith [Int.lt_floor_add_one q]⟩

/-- **C167 (optical depth).** The optical depth of the averaged light of two images lies between those of the two images and is at most
their mean; it is the mean exactly if both are equal. -/
theorem C167_depth (i0 x y : ℝ) (h0 : 0 < i0) (hx : 0 < x) (hy : 0 < y) :
    min (-Real.log (x / i0)) (-Real.log (y / i0)) ≤ -Real.log ((x + y) / 2 / i0) ∧
    -Real.log ((x + y) / 2 / i0) ≤ (-Real.log (x / i0) + -Real.log (y / i0)) / 2 ∧
    (-Real.log ((x + y) / 2 / i0) = (-Real.log (x / i0) + -Real.log (y / i0)) / 2 ↔ x = y) := by
  have hm : (x + y) / 2 / i0 = (1 / 2 : ℝ) • (x / i0) + (1 / 2 : ℝ) • (y / i0) := by simp only [smul_eq_mul]; ring
  have hxi : 0 < x / i0 := by positivity
  have hyi : 0 < y / i0 := by positivity
  have hconc : Real.log (x / i0) / 2 + Real.log (y / i0) / 2 ≤ Real.log ((x + y) / 2 / i0) := by
    have := strictConcaveOn_log_Ioi.concaveOn.2 (Set.mem_Ioi.2 hxi) (Set.mem_Ioi.2 hyi) (show (0 : ℝ) ≤ 1 / 2 by norm_num)
      (show (0 : ℝ) ≤ 1 / 2 by norm_num) (by norm_num)
    rw [hm]
    simp only [smul_eq_mul] at this ⊢
    linarith
  refine ⟨?_, by linarith, ?_⟩
  · rcases le_total x y with h | h
    · have : Real.log ((x + y) / 2 / i0) ≤ Real.log (y / i0) := Real.log_le_log (by positivity) (by gcongr; linarith)
      exact (min_le_right _ _).trans (by linarith)
    · have : Real.log ((x + y) / 2 / i0) ≤ Real.log (x / i0) := Real.log_le_log (by positivity) (by gcongr; linarith)
      exact (min_le_left _ _).trans (by linarith)
  · constructor
    · intro e
      by_contra hne
      have hne' : x / i0 ≠ y / i0 := fun e => hne (by rwa [div_left_inj' h0.ne'] at e)
      have := strictConcaveOn_log_Ioi.2 (Set.mem_Ioi.2 hxi) (Set.mem_Ioi.2 hyi) hne' (show (0 : ℝ) < 1 / 2 by norm_num)
        (show (0 : ℝ) < 1 / 2 by norm_num) (by norm_num)
      rw [← hm] at this
      simp only [smul_eq_mul] at this
      linarith
    · rintro rfl
      rw [show (x + x) / 2 = x by ring]
      ring

/-- **C167 (missing rows, refuted).** If an LED was not recorded in an image, its later averaged images are made of other photos than
those of the remaining LEDs: LED 1 was not recorded in image 2; averaged image 2 is the mean of the photos 2 and 3 for LED 0, but of the
photos 3 and 4 for LED 1. -/
theorem C167_missing_false : ∃ rows : List AvgRow, RecordedIn rows 0 0 4 ∧
    (rowsOfLed 0 1 rows).map (·.img) = [1, 3, 4] ∧
    (averageTable 1 2 rows).filter (fun x => x.img = 2) = [⟨2, 0, 0, (20 + 30) / 2, 1, 1⟩, ⟨2, 1, 0, (30 + 40) / 2, 1, 1⟩] ∧
    ∀ x ∈ rows, x.sum = 10 * x.img := by
  refine ⟨[⟨1, 0, 0, 10, 1, 1⟩, ⟨1, 1, 0, 10, 1, 1⟩, ⟨2, 0, 0, 20, 1, 1⟩, ⟨3, 0, 0, 30, 1, 1⟩, ⟨3, 1, 0, 30, 1, 1⟩, ⟨4, 0, 0, 40, 1, 1⟩,
    ⟨4, 1, 0, 40, 1, 1⟩], ?_, ?_, ?_, ?_⟩
  · unfold RecordedIn
    decide +kernel
  · decide +kernel
  · decide +kernel
  · decide +kernel

example : averageTable 1 2 [⟨1, 3, 2, 10, 1, 7⟩, ⟨2, 3, 2, 21, 2, 8⟩, ⟨3, 3, 2, 30, 3, 9⟩, ⟨4, 3, 2, 40, 4, 5⟩] =
    [⟨1, 3, 2, 10, 1, 7⟩, ⟨2, 3, 2, 25, 5 / 2, 17 / 2⟩, ⟨3, 3, 2, 40, 4, 5⟩] := by decide +kernel

end Ledsa
