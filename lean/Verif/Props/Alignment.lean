import Verif.Model.Alignment
import Verif.Props.Step2
import Verif.Props.Step3
import Verif.Props.Coordinates
/-
C41: distances and intensities refer to the same LED. The whole way from the arrays of step 2 over the index files and
the result files of step 3 to the input of the solver.
-/
namespace Ledsa

section
variable {K : Type} [Field K] [LinearOrder K]

theorem pairwise_map_fst {M : Type} {l : List (Nat × M)} (h : l.Pairwise (fun x y => x.1 < y.1)) :
    (l.map (·.1)).Pairwise (· < ·) := by
  rw [List.pairwise_map]; exact h

/-- The ids of the solver input are the ids of the measured LEDs of the array in ascending order. -/
theorem arrayValues_ids {M : Type} (rows : List (Nat × Nat × M)) (hnd : (rows.map (·.1)).Nodup) (n : Nat) :
    ((arrayValues rows n).map (·.1)).Pairwise (· < ·) ∧
      ∀ i, i ∈ (arrayValues rows n).map (·.1) ↔ i ∈ (rows.filter (fun x => x.2.1 = n)).map (·.1) := by
  constructor
  · unfold arrayValues
    rw [List.map_map]
    exact pairwise_map_fst ((sortRows_sorted rows hnd).filter _)
  · intro i
    unfold arrayValues
    rw [List.map_map]
    simp only [List.mem_map, List.mem_filter, sortRows_mem, Function.comp]

/-- Ids of the rows of an image are distinct if no LED is in two arrays. -/
theorem imageRows_nodup (img : Image K) (areas : List (Int × Int)) (R : Nat) (fit : Bool) (skip : Nat)
    (arrays : List (List Nat)) (rows : List (Nat × Nat × Measured K))
    (h : imageRows img areas R fit skip arrays = .ok rows) (hnd : arrays.flatten.Nodup) : (rows.map (·.1)).Nodup := by
  unfold imageRows at h
  have key : ∀ (k : Nat) (arrays : List (List Nat)) rows, imageRowsFrom img areas R fit skip k arrays = .ok rows →
      (rows.map (·.1)).Sublist arrays.flatten := by
    intro k arrays
    induction arrays generalizing k with
    | nil => intro rows h; simp [imageRowsFrom] at h; subst h; simp
    | cons a as ih =>
      intro rows h
      unfold imageRowsFrom at h
      split at h
      · cases h
      · rename_i r hr
        split at h
        · cases h
        · rename_i rs hrs
          obtain rfl := Except.ok.inj h
          rw [List.map_append, List.flatten_cons]
          apply List.Sublist.append _ (ih (k + 1) rs hrs)
          have := (arrayRows_spec img areas R fit skip k a r hr).1
          rw [this]
          exact List.filter_sublist
  exact hnd.sublist (key 0 arrays rows h)

/-- **C41, exact condition.** Arrays of step 2 are written reversed to the index files (C20), read by step 3 and by the
analysis. The solver input of array `n` lists the LEDs in the order of the distance matrix iff the array is in ascending
order of id and none of its LEDs is skipped. -/
theorem C41_aligned_iff (img : Image K) (areas : List (Int × Int)) (R : Nat) (fit : Bool) (skip : Nat)
    (arrays : List (List Nat)) (rows : List (Nat × Nat × Measured K))
    (h : imageRows img areas R fit skip (arrays.map List.reverse) = .ok rows) (hnd : arrays.flatten.Nodup) (n : Nat)
    (a : List Nat) (ha : arrays[n]? = some a) :
    (arrayValues rows n).map (·.1) = distanceRows id a.reverse ↔
      a.Pairwise (· < ·) ∧ ∀ i ∈ a, (skip + 1) ∣ i := by
  have hperm : (arrays.map List.reverse).flatten.Perm arrays.flatten := by
    clear h ha hnd
    induction arrays with
    | nil => simp
    | cons b bs ih => simpa using (List.reverse_perm b).append ih
  have hrn := imageRows_nodup img areas R fit skip _ rows h (hperm.nodup_iff.2 hnd)
  obtain ⟨hs, hm⟩ := arrayValues_ids rows hrn n
  have hr := (C27_rows img areas R fit skip _ rows h).1 n
  rw [List.getElem?_map, ha, Option.map_some, Option.getD_some] at hr
  have hd : distanceRows id a.reverse = a := by simp [distanceRows]
  rw [hd]
  have hmem : ∀ i, i ∈ (arrayValues rows n).map (·.1) ↔ i ∈ a ∧ (skip + 1) ∣ i := by
    intro i
    rw [hm i, hr, List.mem_filter, List.mem_reverse]
    simp
  constructor
  · intro he
    rw [he] at hs hmem
    exact ⟨hs, fun i hi => ((hmem i).1 hi).2⟩
  · rintro ⟨h1, h2⟩
    apply ascending_unique hs h1
    intro i
    rw [hmem i]
    exact ⟨fun h => h.1, fun hi => ⟨hi, h2 i hi⟩⟩

theorem ledPositions_ok {C : Type} (table : List C) (ids : List Nat) (h : ∀ i ∈ ids, i < table.length) :
    ∃ ps, ledPositions table ids = .ok ps ∧ ∀ (k : Nat), ps[k]? = (ids[k]?).bind (fun i => table[i]?) := by
  unfold ledPositions
  induction ids with
  | nil => exact ⟨[], rfl, by simp⟩
  | cons i ids ih =>
    obtain ⟨ps, h1, h2⟩ := ih (fun j hj => h j (List.mem_cons_of_mem _ hj))
    have hi := h i (by simp)
    have hm : ids.mapM (fun i => table[i]?) = some ps := by
      cases hm : ids.mapM (fun i => table[i]?) with
      | none => rw [hm] at h1; cases h1
      | some l => rw [hm] at h1; cases h1; rfl
    refine ⟨table[i] :: ps, ?_, ?_⟩
    · rw [List.mapM_cons, List.getElem?_eq_getElem hi, hm]; rfl
    · intro k
      cases k with
      | zero => simp [List.getElem?_eq_getElem hi]
      | succ k => simpa using h2 k

/-- **C41, partial**: for the arrays of step 2 without merging and without skipped LEDs, for every image, array and row number:
the entry of the intensity vector is the value measured for some LED of the array, and the row of the distance matrix is
computed from the coordinates of the same LED. Missing (and false, see below): merged arrays in non-ascending order,
`num_skip_leds > 0`. -/
theorem C41_same_led_partial {C D : Type} (dist : C → D) (table : List C) (img : Image K) (areas : List (Int × Int)) (R : Nat)
    (fit : Bool) (matched : List (List Nat)) (htab : matched.flatten.length ≤ table.length)
    (rows : List (Nat × Nat × Measured K))
    (h : imageRows img areas R fit 0 ((reorderIndices matched).map List.reverse) = .ok rows) (n : Nat)
    (a : List Nat) (ha : (reorderIndices matched)[n]? = some a) :
    ∃ leds, ledPositions table a.reverse = .ok leds ∧ (distanceRows dist leds).length = (arrayValues rows n).length ∧
      ∀ (k : Nat) i m, (arrayValues rows n)[k]? = some (i, m) → i ∈ a ∧ ledData img areas R fit i = .ok m ∧
        ∃ c, table[i]? = some c ∧ (distanceRows dist leds)[k]? = some (dist c) := by
  have hfl : (reorderIndices matched).flatten = List.range matched.flatten.length := by
    rw [reorderIndices, reorderIndicesFrom_flatten, List.range_eq_range']
  have hnd : (reorderIndices matched).flatten.Nodup := by rw [hfl]; exact List.nodup_range
  have hasc : a.Pairwise (· < ·) := by
    have : (reorderIndices matched).flatten.Pairwise (· < ·) := by rw [hfl]; exact List.pairwise_lt_range
    exact (List.pairwise_flatten.1 this).1 a (List.mem_of_getElem? ha)
  have hlt : ∀ i ∈ a, i < table.length := by
    intro i hi
    have : i ∈ (reorderIndices matched).flatten := List.mem_flatten.2 ⟨a, List.mem_of_getElem? ha, hi⟩
    rw [hfl, List.mem_range] at this
    omega
  have hal := (C41_aligned_iff img areas R fit 0 (reorderIndices matched) rows h hnd n a ha).2 ⟨hasc, by simp⟩
  have hd : distanceRows id a.reverse = a := by simp [distanceRows]
  rw [hd] at hal
  obtain ⟨leds, hl1, hl2⟩ := ledPositions_ok table a.reverse (fun i hi => hlt i (List.mem_reverse.1 hi))
  have hlen : leds.length = a.length := by
    have h1 : ∀ k : Nat, leds[k]? = none ↔ a.reverse[k]? = none := by
      intro k
      rw [hl2 k]
      cases hk : a.reverse[k]? with
      | none => simp
      | some i =>
        have := hlt i (List.mem_reverse.1 (List.mem_of_getElem? hk))
        simp [List.getElem?_eq_getElem this]
    have h2 := (h1 leds.length).1 (by simp)
    have h3 := (h1 a.length).2 (by simp)
    rw [List.getElem?_eq_none_iff] at h2 h3
    rw [List.length_reverse] at h2
    omega
  have hvlen : (arrayValues rows n).length = a.length := by
    have := congrArg List.length hal
    simpa using this
  refine ⟨leds, hl1, by simp [distanceRows, hlen, hvlen], ?_⟩
  intro k i m hk
  have hik : a[k]? = some i := by
    rw [← hal, List.getElem?_map, hk]; rfl
  have hka : k < a.length := (List.getElem?_eq_some_iff.1 hik).1
  have hi : i ∈ a := List.mem_of_getElem? hik
  refine ⟨hi, ?_, table[i]'(hlt i hi), by simp [hlt i hi], ?_⟩
  · have hmem := List.mem_of_getElem? hk
    unfold arrayValues at hmem
    rw [List.mem_map] at hmem
    obtain ⟨x, hx, he⟩ := hmem
    rw [List.mem_filter, sortRows_mem] at hx
    have := (C27_rows img areas R fit 0 _ rows h).2.2 x hx.1
    simp only [Prod.mk.injEq] at he
    rw [← he.1, ← he.2]
    exact this
  · unfold distanceRows
    rw [List.getElem?_map, List.getElem?_reverse (by omega), hlen, hl2, List.getElem?_reverse (by omega)]
    rw [show a.length - 1 - (a.length - 1 - k) = k by omega, hik]
    simp [hlt i hi]

/-- **C41, partial, merged arrays**: merging groups of arrays that are listed in ascending order keeps the alignment. -/
theorem C41_merged_ascending_partial (img : Image K) (areas : List (Int × Int)) (R : Nat) (fit : Bool)
    (matched : List (List Nat)) (groups : List (List Nat)) (hg : ∀ g ∈ groups, g.Pairwise (· < ·))
    (hdisj : groups.flatten.Nodup)
    (rows : List (Nat × Nat × Measured K))
    (h : imageRows img areas R fit 0 ((mergeArrays (reorderIndices matched)
      (groups.map (fun g => g.map (Nat.cast : Nat → Int)))).map List.reverse) = .ok rows) (n : Nat)
    (a : List Nat) (ha : (mergeArrays (reorderIndices matched)
      (groups.map (fun g => g.map (Nat.cast : Nat → Int))))[n]? = some a) :
    (arrayValues rows n).map (·.1) = distanceRows id a.reverse := by
  have hfl : (reorderIndices matched).flatten = List.range matched.flatten.length := by
    rw [reorderIndices, reorderIndicesFrom_flatten, List.range_eq_range']
  have hpw : (reorderIndices matched).flatten.Pairwise (· < ·) := by rw [hfl]; exact List.pairwise_lt_range
  obtain ⟨hin, hcross⟩ := List.pairwise_flatten.1 hpw
  generalize reorderIndices matched = arrays at *
  -- ascending index pairs give ascending members
  have hlt : ∀ (i j : Nat) (x y : Nat), i < j → x ∈ (arrays[i]?).getD [] → y ∈ (arrays[j]?).getD [] → x < y := by
    intro i j x y hij hx hy
    cases hai : arrays[i]? with
    | none => rw [hai] at hx; simp at hx
    | some b =>
      cases haj : arrays[j]? with
      | none => rw [haj] at hy; simp at hy
      | some c =>
        rw [hai] at hx; rw [haj] at hy
        obtain ⟨h1, rfl⟩ := List.getElem?_eq_some_iff.1 hai
        obtain ⟨h2, rfl⟩ := List.getElem?_eq_some_iff.1 haj
        exact List.pairwise_iff_getElem.1 hcross i j h1 h2 hij x (by simpa using hx) y (by simpa using hy)
  have hmem_in : ∀ (i : Nat), ((arrays[i]?).getD []).Pairwise (· < ·) := by
    intro i
    cases hai : arrays[i]? with
    | none => simp
    | some b => exact hin b (List.mem_of_getElem? hai)
  have hflat : ∀ g : List Nat, ((g.map (Nat.cast : Nat → Int)).flatMap fun (i : Int) =>
      if 0 ≤ i ∧ i < arrays.length then (arrays[i.toNat]?).getD [] else []) =
      (g.map fun i => (arrays[i]?).getD []).flatten := by
    intro g
    rw [List.flatMap_def, List.map_map]
    congr 1
    apply List.map_congr_left
    intro i _
    simp only [Function.comp]
    split
    · simp
    · rename_i hc
      have : arrays.length ≤ i := by omega
      simp [List.getElem?_eq_none this]
  have hgroup : ∀ g : List Nat, g.Pairwise (· < ·) → ((g.map fun i => (arrays[i]?).getD []).flatten).Pairwise (· < ·) := by
    intro g hgp
    rw [List.pairwise_flatten]
    constructor
    · intro l hl
      rw [List.mem_map] at hl
      obtain ⟨i, _, rfl⟩ := hl
      exact hmem_in i
    · rw [List.pairwise_map]
      exact hgp.imp fun hij x hx y hy => hlt _ _ x y hij hx hy
  have hm : mergeArrays arrays (groups.map (fun g => g.map (Nat.cast : Nat → Int))) =
      (groups.map fun g => (g.map fun i => (arrays[i]?).getD []).flatten).filter (fun a => a ≠ []) := by
    unfold mergeArrays
    rw [List.map_map]
    congr 1
    apply List.map_congr_left
    intro g _
    exact hflat g
  have hnd : (mergeArrays arrays (groups.map (fun g => g.map (Nat.cast : Nat → Int)))).flatten.Nodup := by
    have hsub : ((groups.map fun g => (g.map fun i => (arrays[i]?).getD []).flatten).filter (fun a => a ≠ [])).Sublist
        (groups.map fun g => (g.map fun i => (arrays[i]?).getD []).flatten) := List.filter_sublist
    rw [hm]
    refine List.Nodup.sublist hsub.flatten ?_
    have hff : (groups.map fun g => (g.map fun i => (arrays[i]?).getD []).flatten).flatten =
        (groups.flatten.map fun i => (arrays[i]?).getD []).flatten := by
      rw [List.map_flatten, List.flatten_flatten, List.map_map]
      rfl
    rw [hff, List.nodup_flatten]
    constructor
    · intro l hl
      rw [List.mem_map] at hl
      obtain ⟨i, _, rfl⟩ := hl
      exact (hmem_in i).imp fun h => Nat.ne_of_lt h
    · rw [List.pairwise_map]
      refine hdisj.imp ?_
      intro i j hij x hx hy
      rcases Nat.lt_or_gt_of_ne hij with hl | hl
      · exact absurd (hlt i j x x hl hx hy) (Nat.lt_irrefl _)
      · exact absurd (hlt j i x x hl hy hx) (Nat.lt_irrefl _)
  apply (C41_aligned_iff img areas R fit 0 _ rows h hnd n a ha).2
  refine ⟨?_, by simp⟩
  have ham := List.mem_of_getElem? ha
  rw [hm, List.mem_filter, List.mem_map] at ham
  obtain ⟨⟨g, hgm, rfl⟩, _⟩ := ham
  exact hgroup g (hg g hgm)

end

/-- The literal claim C41 for all merge configurations. -/
def Aligned : Prop :=
  ∀ (img : Image ℚ) (areas : List (Int × Int)) (R skip : Nat) (matched : List (List Nat)) (groups : List (List Int))
    (rows : List (Nat × Nat × Measured ℚ)) (n : Nat) (a : List Nat),
    imageRows img areas R false skip ((mergeArrays (reorderIndices matched) groups).map List.reverse) = .ok rows →
    (mergeArrays (reorderIndices matched) groups)[n]? = some a →
    (arrayValues rows n).map (·.1) = distanceRows id a.reverse

/-- **C41 refuted, merged arrays**: merging array 1 and array 0 in this order exchanges their LEDs. -/
theorem C41_merge_order_false : ¬ Aligned := by
  intro h
  have := h ⟨9, 9, fun i j => (i + j : Nat)⟩ [(4, 3), (4, 5)] 1 0 [[7], [3]] [[1, 0]]
    ((imageRows (K := ℚ) ⟨9, 9, fun i j => (i + j : Nat)⟩ [(4, 3), (4, 5)] 1 false 0 [[0, 1]]).toOption.getD []) 0 [1, 0]
    (by decide +kernel) (by decide +kernel)
  revert this
  decide +kernel

/-- **C41 refuted, skipped LEDs**: with `num_skip_leds = 1` the intensity vector is shorter than the distance matrix. -/
theorem C41_skip_false : ¬ Aligned := by
  intro h
  have := h ⟨9, 9, fun i j => (i + j : Nat)⟩ [(4, 3), (4, 5)] 1 1 [[7, 3]] [[0]]
    ((imageRows (K := ℚ) ⟨9, 9, fun i j => (i + j : Nat)⟩ [(4, 3), (4, 5)] 1 false 1 [[1, 0]]).toOption.getD []) 0 [0, 1]
    (by decide +kernel) (by decide +kernel)
  revert this
  decide +kernel

end Ledsa
